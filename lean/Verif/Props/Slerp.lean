import Verif.Proofs.Slerp
import Verif.Props.FrontEnd
/-! Property theorems C95: interpolating between two poses, and odometry poses as matrices. -/
namespace Verif
open Spec

/-- C95: between two rigid poses whose rotations differ by an angle `θ` that is not tiny, the pose at
fraction `f` is a rigid pose; its rotation lies `f θ` from the first and `(1 - f) θ` from the second
(constant speed, the short way round), and its position is on the straight line at `f`. -/
theorem C95_turn {eps θ : ℝ} (he : 0 ≤ eps) (t1 t2 : Rigid ℝ) (h1 : IsRot3 t1.rot) (h2 : IsRot3 t2.rot)
    (h : TurnAngle t1.rot t2.rot θ) (hθ : Real.cos (θ / 2) < 1 - eps) {f : ℝ} (f0 : 0 ≤ f) (f1 : f ≤ 1) :
    ∃ r, interpolateTransform (slerpMat eps) t1 t2 f = .ok r ∧ IsRot3 r.rot ∧
      TurnAngle t1.rot r.rot (f * θ) ∧ TurnAngle r.rot t2.rot ((1 - f) * θ) ∧
      ∀ i, r.trans i = (1 - f) * t1.trans i + f * t2.trans i := by
  obtain ⟨a, b, c⟩ := slerp_far he h1 h2 h hθ f0 f1
  have hc : (0 : ℝ) ≤ f ∧ f ≤ 1 := ⟨f0, f1⟩
  simp only [interpolateTransform, Outcome.check_pos hc, Outcome.bind_ok, Outcome.pure_eq]
  exact ⟨_, rfl, a, b, c, fun i => by ring⟩

/-- C95: two rotations always have an angle. -/
theorem C95_angle {A B : Mat3} (hA : IsRot3 A) (hB : IsRot3 B) : ∃ θ, TurnAngle A B θ ∧ ∀ φ, TurnAngle A B φ → φ = θ := by
  obtain ⟨θ, h⟩ := turnAngle_exists hA hB
  refine ⟨θ, h, fun φ hφ => ?_⟩
  have e : Real.cos φ = Real.cos θ := by
    have := hφ.2.2.symm.trans h.2.2
    linarith
  exact Real.injOn_cos ⟨hφ.1, hφ.2.1⟩ ⟨h.1, h.2.1⟩ e

/-- C95: if the two rotations are nearly the same (the half angle's cosine is within `eps` of 1; `eps`
is 2^-52), every entry of the result is within `eps` of the straight mix of the two, and within `eps`
of a rotation. Missing from the full claim: it is not a rotation (see `C95_rigid_fails`). -/
theorem C95_tiny_partial {eps θ : ℝ} (he1 : eps < 1) (t1 t2 : Rigid ℝ) (h1 : IsRot3 t1.rot) (h2 : IsRot3 t2.rot)
    (h : TurnAngle t1.rot t2.rot θ) (hθ : 1 - eps ≤ Real.cos (θ / 2)) {f : ℝ} (f0 : 0 ≤ f) (f1 : f ≤ 1) :
    ∃ r, interpolateTransform (slerpMat eps) t1 t2 f = .ok r ∧
      (∀ i j, |r.rot i j - ((1 - f) * t1.rot i j + f * t2.rot i j)| ≤ eps) ∧
      (∃ Q, IsRot3 Q ∧ ∀ i j, |r.rot i j - Q i j| ≤ eps) ∧
      ∀ i, r.trans i = (1 - f) * t1.trans i + f * t2.trans i := by
  obtain ⟨a, b⟩ := slerp_near h1 h2 h hθ he1 f0 f1
  have hc : (0 : ℝ) ≤ f ∧ f ≤ 1 := ⟨f0, f1⟩
  simp only [interpolateTransform, Outcome.check_pos hc, Outcome.bind_ok, Outcome.pure_eq]
  exact ⟨_, rfl, a, b, fun i => by ring⟩

/-- C95: the ends are exact. -/
theorem C95_ends {eps : ℝ} (he : 0 ≤ eps) (t1 t2 : Rigid ℝ) (h1 : IsRot3 t1.rot) (h2 : IsRot3 t2.rot) :
    interpolateTransform (slerpMat eps) t1 t2 0 = .ok t1 ∧ interpolateTransform (slerpMat eps) t1 t2 1 = .ok t2 := by
  obtain ⟨a, b⟩ := slerp_ends he h1 h2
  have hc : (0 : ℝ) ≤ 0 ∧ (0 : ℝ) ≤ 1 := ⟨le_refl _, zero_le_one⟩
  have hc' : (0 : ℝ) ≤ 1 ∧ (1 : ℝ) ≤ 1 := ⟨zero_le_one, le_refl _⟩
  simp only [interpolateTransform, Outcome.check_pos hc, Outcome.check_pos hc', Outcome.bind_ok, Outcome.pure_eq, a, b]
  constructor
  · congr 2; ext i; ring
  · congr 2; ext i; ring

/-- C95: a fraction outside [0,1] stops the program. -/
theorem C95_stops (eps : ℝ) (t1 t2 : Rigid ℝ) {f : ℝ} (h : f < 0 ∨ 1 < f) :
    interpolateTransform (slerpMat eps) t1 t2 f = .abort := by
  have hc : ¬ ((0 : ℝ) ≤ f ∧ f ≤ 1) := by rintro ⟨a, b⟩; rcases h with h | h <;> linarith
  simp only [interpolateTransform, Outcome.check_neg hc, Outcome.bind_abort]

/-- A small turn about the z axis whose quaternion is `(c, 0, 0, s)`. -/
noncomputable def zTurn (c s : ℝ) : Quat := ⟨c, 0, 0, s⟩

theorem quatOfMat_zTurn {c s : ℝ} (hc : 0 < c) (h : c ^ 2 + s ^ 2 = 1) (ht : 0 < 3 - 4 * s ^ 2) :
    quatOfMat (zTurn c s).toMat = zTurn c s := by
  have e : Real.sqrt (3 - 4 * s ^ 2 + 1) = 2 * c := by
    rw [show 3 - 4 * s ^ 2 + 1 = (2 * c) ^ 2 by linear_combination (-4) * h]
    exact Real.sqrt_sq (by linarith)
  have et : (zTurn c s).toMat 0 0 + (zTurn c s).toMat 1 1 + (zTurn c s).toMat 2 2 = 3 - 4 * s ^ 2 := by
    simp [zTurn, Quat.toMat]; ring
  unfold quatOfMat
  dsimp only
  rw [et, if_pos ht, e]
  simp [zTurn, Quat.toMat]
  field_simp
  ring

/-- C95 is false for tiny turns: whatever `eps` is (positive and below 1/2), two rotations closer than
that have a mix that is not a rotation, so that the interpolated pose is not rigid. -/
theorem C95_rigid_fails {eps : ℝ} (h0 : 0 < eps) (h1 : eps < 1 / 2) :
    ∃ t1 t2 r : Rigid ℝ, IsRot3 t1.rot ∧ IsRot3 t2.rot ∧
      interpolateTransform (slerpMat eps) t1 t2 (1 / 2) = .ok r ∧ ¬ IsRot3 r.rot := by
  set c := 1 - eps / 2 with hc
  set s := Real.sqrt (1 - c ^ 2) with hs
  have hcs : 0 < 1 - c ^ 2 := by rw [hc]; nlinarith
  have hs2 : s ^ 2 = 1 - c ^ 2 := Real.sq_sqrt hcs.le
  have hu : (zTurn c s).IsUnit := by
    unfold zTurn Quat.IsUnit
    dsimp only
    linarith
  have hu1 : (zTurn 1 0).IsUnit := by
    unfold zTurn Quat.IsUnit
    norm_num
  have e1 : (zTurn 1 0).toMat = 1 := by
    unfold zTurn
    apply mat3_ext <;> simp [Quat.toMat]
  have hr := Quat.toMat_rot hu
  have hr1 := Quat.toMat_rot hu1
  have q1 : quatOfMat (zTurn 1 0).toMat = zTurn 1 0 := quatOfMat_zTurn one_pos (by norm_num) (by norm_num)
  have q2 : quatOfMat (zTurn c s).toMat = zTurn c s := quatOfMat_zTurn (by rw [hc]; linarith) (by linarith) (by
    rw [hs2, hc]; nlinarith)
  have hhalf : (0 : ℝ) ≤ 1 / 2 ∧ (1 / 2 : ℝ) ≤ 1 := by norm_num
  refine ⟨⟨(zTurn 1 0).toMat, 0⟩, ⟨(zTurn c s).toMat, 0⟩, ⟨slerpMat eps (zTurn 1 0).toMat (zTurn c s).toMat (1 / 2), fun i => 0 + (0 - 0) * (1 / 2)⟩,
    hr1, hr, ?_, ?_⟩
  · simp only [interpolateTransform, Outcome.check_pos hhalf, Outcome.bind_ok, Outcome.pure_eq]
    rfl
  · intro hrot
    change IsRot3 (slerpMat eps (zTurn 1 0).toMat (zTurn c s).toMat (1 / 2)) at hrot
    have ed : (zTurn 1 0).dot (zTurn c s) = c := by simp [zTurn, Quat.dot]
    have hcp : 0 < c := by rw [hc]; linarith
    have em : eigenSlerp eps (zTurn 1 0) (zTurn c s) (1 / 2) = ⟨1 / 2 + 1 / 2 * c, 0, 0, 1 / 2 * s⟩ := by
      have hn : |c| ≥ 1 - eps := by rw [abs_of_pos hcp, hc]; linarith
      unfold eigenSlerp slerpScale0 slerpScale1
      dsimp only
      rw [ed, if_pos hn, if_pos hn, if_neg (not_lt.2 hcp.le)]
      unfold zTurn
      norm_num
    unfold slerpMat at hrot
    rw [q1, q2, em] at hrot
    have hcol := (rotAll hrot).r0
    simp [Quat.toMat] at hcol
    have : s ^ 2 * (1 - c) = 0 := by
      nlinarith [hcol, hs2]
    rcases mul_eq_zero.1 this with h | h
    · rw [hs2] at h; linarith
    · rw [hc] at h; linarith

/-- C95: with this interpolation, compensation turns and shifts every point as one rigid body does that
moves at constant speed: at fraction `f` by the angle `f θ` and `f` times the shift. -/
theorem C95_compensated {eps θ : ℝ} (he : 0 ≤ eps) (raw out : InnerCloud ℝ) (delta : Rigid ℝ) (hd : IsRot3 delta.rot)
    (h : TurnAngle 1 delta.rot θ) (hθ : Real.cos (θ / 2) < 1 - eps)
    (hf : ∀ p ∈ raw.points, 0 ≤ p.factor ∧ p.factor ≤ 1) :
    ∃ c, motionCompensation (slerpMat eps) raw delta out = .ok c ∧ c.points.length = raw.points.length ∧
      ∀ (i : Nat) (p : InnerPoint ℝ), raw.points[i]? = some p → ∃ (q : InnerPoint ℝ) (S : Mat3), c.points[i]? = some q ∧
        IsRot3 S ∧ TurnAngle 1 S (p.factor * θ) ∧ TurnAngle S delta.rot ((1 - p.factor) * θ) ∧
        (∀ k : Fin 3, (![q.x, q.y, q.z] k) = (S.mulVec ![p.x, p.y, p.z]) k + p.factor * delta.trans k) ∧
        lenSq (fun k => ![q.x, q.y, q.z] k - p.factor * delta.trans k) = lenSq ![p.x, p.y, p.z] := by
  obtain ⟨c, e1, _, e3, e4⟩ := C57_points (slerpMat eps) raw out delta hf
  refine ⟨c, e1, e3, fun i p hp => ?_⟩
  obtain ⟨q, g1, _, _, g4⟩ := e4 i p hp
  obtain ⟨f0, f1⟩ := hf p (List.mem_of_getElem? hp)
  obtain ⟨a1, a2, a3⟩ := slerp_far he (A := 1) (by constructor <;> simp) hd h hθ f0 f1
  refine ⟨q, slerpMat eps 1 delta.rot p.factor, g1, a1, a2, a3, g4, ?_⟩
  have hr := rotAll a1
  obtain ⟨⟨b1, b2, b3, b4, b5, b6, b7, b8, b9, b10, b11, b12, b13⟩, c1, c2, c3, c4, c5, c6, c7, c8⟩ := hr
  have g : (fun k => ![q.x, q.y, q.z] k - p.factor * delta.trans k) = (slerpMat eps 1 delta.rot p.factor).mulVec ![p.x, p.y, p.z] := by
    ext k; rw [g4 k]; ring
  rw [g]
  have hl := fun i j => congrFun (congrFun a1.1 i) j
  generalize slerpMat eps 1 delta.rot p.factor = S at *
  have k00 := hl 0 0
  have k01 := hl 0 1
  have k02 := hl 0 2
  have k11 := hl 1 1
  have k12 := hl 1 2
  have k22 := hl 2 2
  simp [Matrix.mul_apply, Fin.sum_univ_three] at k00 k01 k02 k11 k12 k22
  unfold lenSq
  simp [Matrix.mulVec, dotProduct, Fin.sum_univ_three]
  linear_combination p.x ^ 2 * k00 + p.y ^ 2 * k11 + p.z ^ 2 * k22 + 2 * p.x * p.y * k01 + 2 * p.x * p.z * k02 + 2 * p.y * p.z * k12

/-- C95: the compensation inside the fast ICP (off by default) reads an uninitialised matrix for every
cloud that has a point. -/
theorem C95_inner_fails (cols : List (Fin 3 → ℝ)) (hc : cols ≠ []) (t : Rigid ℝ) :
    applyMotionCompensation cols (eigenFactors cols.length) t = .ub := by
  have hl : cols.length = (eigenFactors cols.length).length := by simp [eigenFactors]
  unfold applyMotionCompensation
  rw [Outcome.check_pos hl]
  cases cols with
  | nil => exact absurd rfl hc
  | cons a as => rfl

/-- C95: the fractions handed to it are those of equally spaced points: they begin at zero, every
point is one `n`-th later than the one before and the last one is one `n`-th before the end. -/
theorem C95_inner_fractions (n : Nat) (hn : 0 < n) :
    (eigenFactors n).length = n ∧ (eigenFactors n)[0]? = some 0 ∧ (eigenFactors n)[n - 1]? = some (1 - 1 / (n : ℝ)) ∧
      ∀ (i : Nat) (a b : ℝ), (eigenFactors n)[i]? = some a → (eigenFactors n)[i + 1]? = some b → b - a = 1 / (n : ℝ) := by
  have hg : ∀ i, i < n → (eigenFactors n)[i]? = some ((i : ℝ) / n) := by
    intro i hi
    simp [eigenFactors, hi]
  have hn' : (n : ℝ) ≠ 0 := by positivity
  refine ⟨by simp [eigenFactors], by rw [hg 0 hn]; simp, ?_, ?_⟩
  · rw [hg _ (by omega), Nat.cast_sub hn]
    congr 1
    field_simp
    push_cast
    ring
  · intro i a b ha hb
    have h2 : i + 1 < n := by
      have := (List.getElem?_eq_some_iff.1 hb).1
      simpa [eigenFactors] using this
    rw [hg i (by omega)] at ha
    rw [hg _ h2] at hb
    rw [← Option.some.inj ha, ← Option.some.inj hb]
    push_cast
    field_simp
    ring

example : (eigenFactors 4)[3]? = some (3 / 4) := by simp [eigenFactors]

theorem rotBlock_pose4 (r : Mat3) (t : Fin 3 → ℝ) : rotBlock (pose4 r t) = r := by
  apply mat3_ext <;> rfl

theorem pose4_rigid {r : Mat3} (h : IsRot3 r) (t : Fin 3 → ℝ) : RigidMotion (pose4 r t) := by
  refine ⟨⟨rfl, rfl, rfl, rfl⟩, ?_⟩
  rw [← rotBlock_eq, rotBlock_pose4]
  exact h

theorem rigid_pose4 {T : Pose4} (h : RigidMotion T) : T = pose4 (rotBlock T) (transBlock T) := by
  obtain ⟨h0, h1, h2, h3⟩ := h.1
  ext i j
  fin_cases i <;> fin_cases j <;> first | rfl | (simpa [pose4] using (by assumption))

theorem pose4_mul (r s : Mat3) (t u : Fin 3 → ℝ) : pose4 r t * pose4 s u = pose4 (r * s) (fun i => (r.mulVec u) i + t i) := by
  ext i j
  fin_cases i <;> fin_cases j <;>
    simp [pose4, Matrix.mul_apply, Fin.sum_univ_four, Fin.sum_univ_three, Matrix.mulVec, dotProduct]

theorem pose4_one : pose4 1 0 = 1 := by
  ext i j
  fin_cases i <;> fin_cases j <;> simp [pose4]

theorem pose4_inv {r : Mat3} (h : IsRot3 r) (t : Fin 3 → ℝ) :
    (pose4 r t)⁻¹ = pose4 r.transpose (fun i => -(r.transpose.mulVec t) i) := by
  apply Matrix.inv_eq_left_inv
  rw [pose4_mul, h.1, ← pose4_one]
  congr 1
  ext i
  simp

theorem isRot3_transpose {r : Mat3} (h : IsRot3 r) : IsRot3 r.transpose :=
  ⟨by rw [Matrix.transpose_transpose]; exact mul_eq_one_comm.1 h.1, by rw [Matrix.det_transpose]; exact h.2⟩

theorem isRot3_mul {r s : Mat3} (h : IsRot3 r) (k : IsRot3 s) : IsRot3 (r * s) := by
  refine ⟨?_, by rw [Matrix.det_mul, h.2, k.2, one_mul]⟩
  rw [Matrix.transpose_mul, Matrix.mul_assoc, ← Matrix.mul_assoc r.transpose, h.1, Matrix.one_mul, k.1]

theorem storeOdomPose_fold (ms : List OdomPose) (o : Pose4) (l : List Pose4) :
    ms.foldl storeOdomPose (some o, l) = (some o, l ++ ms.map fun m => o⁻¹ * m.inMatrix) := by
  induction ms generalizing l with
  | nil => simp
  | cons m ms ih =>
    rw [List.foldl_cons]
    unfold storeOdomPose
    dsimp only [Option.getD_some]
    have := ih (l ++ [o⁻¹ * m.inMatrix])
    unfold storeOdomPose at this
    rw [this, List.map_cons, List.append_assoc]
    rfl

theorem storedOdom_cons (m : OdomPose) (ms : List OdomPose) :
    storedOdom (m :: ms) = (m :: ms).map fun n => m.inMatrix⁻¹ * n.inMatrix := by
  unfold storedOdom
  rw [List.foldl_cons]
  have : storeOdomPose (none, []) m = (some m.inMatrix, [m.inMatrix⁻¹ * m.inMatrix]) := rfl
  rw [this, storeOdomPose_fold]
  rfl

/-- C95: if the orientation of every odometry message is a unit quaternion, every stored pose is rigid,
the first is the identity, and the motion between any two stored poses is the motion between the two
messages. -/
theorem C95_odom_partial (ms : List OdomPose) (h : ∀ m ∈ ms, m.orientation.w ^ 2 + m.orientation.x ^ 2 + m.orientation.y ^ 2 + m.orientation.z ^ 2 = 1) :
    (storedOdom ms).length = ms.length ∧ (∀ p ∈ storedOdom ms, RigidMotion p) ∧
    (∀ p, (storedOdom ms).head? = some p → p = 1) ∧
    ∀ (i j : Nat) (m n : OdomPose) (p q : Pose4), ms[i]? = some m → ms[j]? = some n →
      (storedOdom ms)[i]? = some p → (storedOdom ms)[j]? = some q →
      p⁻¹ * q = m.inMatrix⁻¹ * n.inMatrix := by
  cases ms with
  | nil => refine ⟨rfl, by simp [storedOdom], by simp [storedOdom], by simp⟩
  | cons a as =>
    have hrot : ∀ m ∈ a :: as, IsRot3 m.orientation.toMat := fun m hm => Quat.toMat_rot (h m hm)
    have ha := hrot a (by simp)
    have hinv : a.inMatrix⁻¹ * a.inMatrix = 1 := by
      unfold OdomPose.inMatrix
      rw [pose4_inv ha, pose4_mul, ha.1, ← pose4_one]
      congr 1; ext i; simp
    have hinv' : a.inMatrix * a.inMatrix⁻¹ = 1 := mul_eq_one_comm.1 hinv
    rw [storedOdom_cons]
    refine ⟨by simp, ?_, ?_, ?_⟩
    · intro p hp
      obtain ⟨n, hn, rfl⟩ := List.mem_map.1 hp
      unfold OdomPose.inMatrix
      rw [pose4_inv ha, pose4_mul]
      exact pose4_rigid (isRot3_mul (isRot3_transpose ha) (hrot n hn)) _
    · intro p hp
      simp only [List.map_cons, List.head?_cons, Option.some.injEq] at hp
      rw [← hp, hinv]
    · intro i j m n p q hm hn hp hq
      rw [List.getElem?_map, hm] at hp
      rw [List.getElem?_map, hn] at hq
      simp only [Option.map_some, Option.some.injEq] at hp hq
      rw [← hp, ← hq, Matrix.mul_inv_rev, Matrix.nonsing_inv_nonsing_inv _ (Matrix.isUnit_det_of_left_inverse hinv),
        Matrix.mul_assoc, ← Matrix.mul_assoc a.inMatrix, hinv', Matrix.one_mul]

/-- C95: a rigid pose set into a message and read back is the same pose. -/
theorem C95_set_pose {T : Pose4} (h : RigidMotion T) : (OdomPose.ofMatrix T).inMatrix = T := by
  have hr : IsRot3 (rotBlock T) := by rw [rotBlock_eq]; exact h.2
  unfold OdomPose.inMatrix OdomPose.ofMatrix
  dsimp only
  rw [quatOfMat_toMat hr]
  exact (rigid_pose4 h).symm

/-- C95 is false of a message whose quaternion is not of length 1: nothing normalises it, and the
stored pose stretches space. -/
theorem C95_odom_fails : ∃ ms : List OdomPose, ∃ p ∈ storedOdom ms, ¬ RigidMotion p := by
  refine ⟨[⟨0, ⟨1, 0, 0, 0⟩⟩, ⟨0, ⟨1, 0, 0, 1⟩⟩],
    (OdomPose.mk 0 ⟨1, 0, 0, 0⟩).inMatrix⁻¹ * (OdomPose.mk 0 ⟨1, 0, 0, 1⟩).inMatrix, ?_, ?_⟩
  · rw [storedOdom_cons]; simp
  · have e : (OdomPose.mk 0 ⟨1, 0, 0, 0⟩).inMatrix = 1 := by
      unfold OdomPose.inMatrix
      rw [← pose4_one]
      congr 1
      apply mat3_ext <;> simp [Quat.toMat]
    rw [e, inv_one, one_mul]
    rintro ⟨_, h⟩
    have := (rotAll h).r0
    simp [OdomPose.inMatrix, pose4, Quat.toMat] at this
    norm_num at this

/-- The hypotheses of `C95_turn` and `C95_compensated` hold, for example, of a quarter turn. -/
example : IsRot3 (1 : Mat3) ∧ IsRot3 (!![0, -1, 0; 1, 0, 0; 0, 0, 1] : Mat3) ∧
    TurnAngle 1 !![0, -1, 0; 1, 0, 0; 0, 0, 1] (Real.pi / 2) ∧ Real.cos (Real.pi / 2 / 2) < 1 - 1 / 2 ^ 52 := by
  refine ⟨by constructor <;> simp, ⟨?_, ?_⟩, ⟨by positivity, by linarith [Real.pi_pos], ?_⟩, ?_⟩
  · apply mat3_ext <;> simp [Matrix.mul_apply, Fin.sum_univ_three]
  · simp [Matrix.det_fin_three]
  · rw [Real.cos_pi_div_two]
    simp [Matrix.trace, Fin.sum_univ_three]
  · rw [show Real.pi / 2 / 2 = Real.pi / 4 by ring, Real.cos_pi_div_four]
    have : Real.sqrt 2 < 1.5 := by
      rw [Real.sqrt_lt' (by norm_num)]; norm_num
    norm_num
    linarith

/-- The hypothesis of `C95_tiny_partial` holds, for example, of two equal rotations. -/
example : TurnAngle (1 : Mat3) 1 0 ∧ (1 : ℝ) - 1 / 2 ^ 52 ≤ Real.cos (0 / 2) := by
  refine ⟨⟨le_refl _, Real.pi_pos.le, ?_⟩, ?_⟩
  · simp [Matrix.trace, Fin.sum_univ_three]; norm_num
  · norm_num

/-- The hypothesis of `C95_odom_partial` holds of a message with a half turn. -/
example : ∀ m ∈ [(⟨![1, 2, 3], ⟨0, 3 / 5, 4 / 5, 0⟩⟩ : OdomPose)],
    m.orientation.w ^ 2 + m.orientation.x ^ 2 + m.orientation.y ^ 2 + m.orientation.z ^ 2 = 1 := by
  intro m hm
  rw [List.mem_singleton.1 hm]
  norm_num

end Verif
