import Verif.Proofs.PathMatch
import Verif.Props.MathHelpers
import Verif.Props.ImuTracker
/-! Property theorems C105 (matching a GPS track to the path in the map, calibration of the odometer). -/
namespace Verif
open Spec

/-- C105: a GPS track that is the path turned and moved is matched exactly, in two dimensions. -/
theorem C105_plane (solve : List ((Fin 3 → ℝ) × ℝ) → Fin 3 → ℝ) (hs : KeepsZero solve) (l : List (TrackPoint 0)) (a : ℝ)
    (t : PathVec 0) (h : SameTrack l a t) (hl : LongTrack l) :
    ∃ g, matchPlane solve l = .ok g ∧ g.rot = plainTurn (-a) ∧ ∀ p ∈ l, g.rot.mulVec p.map + g.trans = p.enu := by
  have hm := sameTrack_iff h
  rw [turnZ_two] at hm
  have hz : solve (l.map (pathRow (plainTurn a) t)) = 0 := by
    apply hs
    intro k
    rw [List.map_map]
    apply List.sum_eq_zero
    intro x hx
    obtain ⟨p, hp, rfl⟩ := List.mem_map.1 hx
    have h0 : ∀ i, p.map i = ((plainTurn a).mulVec p.enu + t) i := fun i => by rw [hm p hp]
    simp only [Function.comp_apply, pathRow, h0, sub_self, mul_zero, add_zero]
  refine ⟨moveBack (plainTurn a) t, ?_, plainTurn_inv a, ?_⟩
  · unfold matchPlane
    rw [firstEstimate_exact h hl, Outcome.bind_ok]
    dsimp only
    rw [turnZ_two, pathIterate_zero hz]
    rfl
  · intro p hp
    exact moveBack_exact (inv := plainTurn (-a)) (by rw [plainTurn_mul, neg_add_cancel, plainTurn_zero]) (hm p hp)

theorem rotZ_level (a : ℝ) : level (rotZ a) = 1 := by
  have := Real.sin_sq_add_cos_sq a
  unfold level rotZ
  simp only [Matrix.of_apply, Matrix.cons_val', Matrix.cons_val_zero, Matrix.cons_val_one]
  rw [show Real.cos a ^ 2 + Real.sin a ^ 2 = 1 by linarith, Real.sqrt_one]

theorem unitOf_zero {n : Nat} : unitOf (0 : EuclideanSpace ℝ (Fin n)) = 0 := by simp [unitOf]

/-- C105: the same in space, with a minimiser that stays where all distances are zero. -/
theorem C105_space (minimise : List (TrackPoint 1) → (Fin 3 → ℝ) × Euler → (Fin 3 → ℝ) × Euler)
    (hs : StaysAt spaceResidual minimise) (l : List (TrackPoint 1)) (a : ℝ)
    (t : PathVec 1) (h : SameTrack l a t) (hl : LongTrack l) :
    ∃ g, matchSpace minimise l = .ok g ∧ ∀ p ∈ l, g.rot.mulVec p.map + g.trans = p.enu := by
  have hm := sameTrack_iff h
  rw [turnZ_three] at hm
  have hf : fromEuler (toEuler (rotZ a)) = rotZ a :=
    C63_exact _ (rotZ_rotation a) (by rw [rotZ_level]; norm_num)
  have hz : minimise l (t, toEuler (rotZ a)) = (t, toEuler (rotZ a)) := by
    apply hs
    intro p hp
    have h0 : (rotZ a).mulVec p.enu + t - p.map = 0 := by rw [hm p hp, sub_self]
    simp only [spaceResidual, hf, h0]
    simp
  refine ⟨moveBack (rotZ a) t, ?_, ?_⟩
  · unfold matchSpace
    rw [firstEstimate_exact h hl, Outcome.bind_ok]
    dsimp only
    rw [turnZ_three, hz, hf]
    rfl
  · intro p hp
    exact moveBack_exact (inv := (rotZ a).transpose) (rotZ_rotation a).1 (hm p hp)

/-- C105: the match never aborts and its result in the plane is always a turn, whatever the data. -/
theorem C105_rigid (solve : List ((Fin 3 → ℝ) × ℝ) → Fin 3 → ℝ) (l : List (TrackPoint 0)) :
    ∃ g, matchPlane solve l = .ok g ∧ ∃ b, g.rot = plainTurn b := by
  unfold matchPlane firstEstimate
  split
  · exact ⟨_, rfl, 0, plainTurn_zero.symm⟩
  · obtain ⟨r, hr⟩ := yawLoop_ok (halfPairs l) 0 0
    rw [hr]
    simp only [Outcome.bind_ok]
    split
    · simp only [Outcome.pure_eq, Outcome.bind_ok]
      rw [turnZ_two]
      obtain ⟨b, hb⟩ := pathIterate_turn solve l 100 (r.2 / r.1) (averageShift (plainTurn (r.2 / r.1)) (halfPairs l))
      exact ⟨_, rfl, -b, by simp only [moveBack, hb, plainTurn_inv]⟩
    · exact ⟨_, rfl, 0, plainTurn_zero.symm⟩

/-- A straight track whose two ends are measured a little to the left and to the right. -/
noncomputable def noisyTrack (ε : ℝ) : List (TrackPoint 0) :=
  [⟨![0, 0], ![0, 0], ![1, 0]⟩, ⟨![0, 0], ![0, 0], ![1, 0]⟩,
   ⟨![10, 0], ![10, ε], ![1, 0]⟩, ⟨![10, 0], ![10, -ε], ![1, 0]⟩]

theorem arg_small {ε : ℝ} (h : 0 < ε) : 0 < Complex.arg ⟨10, ε⟩ ∧ Complex.arg ⟨10, -ε⟩ = -Complex.arg ⟨10, ε⟩ := by
  constructor
  · have h0 : 0 ≤ Complex.arg ⟨10, ε⟩ := Complex.arg_nonneg_iff.2 h.le
    refine lt_of_le_of_ne h0 fun he => ?_
    have := Complex.arg_eq_zero_iff.1 he.symm
    exact h.ne' this.2
  · have : (⟨10, -ε⟩ : ℂ) = (starRingEnd ℂ) ⟨10, ε⟩ := rfl
    rw [this, Complex.arg_conj, if_neg]
    intro hp
    have := (Complex.arg_eq_pi_iff.1 hp).1
    norm_num at this

theorem noisy_estimate {ε : ℝ} (h : 0 < ε) : firstEstimate (noisyTrack ε) = .ok (some (plainTurn Real.pi, ![10, 0])) := by
  have hp : halfPairs (noisyTrack ε) =
      [(⟨![0, 0], ![0, 0], ![1, 0]⟩, ⟨![10, 0], ![10, ε], ![1, 0]⟩),
       (⟨![0, 0], ![0, 0], ![1, 0]⟩, ⟨![10, 0], ![10, -ε], ![1, 0]⟩)] := by
    simp [halfPairs, noisyTrack]
  obtain ⟨a1, a2⟩ := arg_small h
  have ha : Complex.arg (⟨10, 0⟩ : ℂ) = 0 := Complex.arg_eq_zero_iff.2 ⟨by norm_num, rfl⟩
  have hd1 : yawDiff (![10, ε] - ![0, 0] : PathVec 0) (![10, 0] - ![0, 0]) = Complex.arg ⟨10, ε⟩ := by
    simp [yawDiff, atan2, ha, a1.le, h.le]
  have hd2 : yawDiff (![10, -ε] - ![0, 0] : PathVec 0) (![10, 0] - ![0, 0]) = -Complex.arg ⟨10, ε⟩ + Real.pi * 2 := by
    simp [yawDiff, atan2, ha, a2, a1]
  have hf : ∀ x : ℝ, ¬ Real.sqrt ((![10, x] - ![0, 0] : PathVec 0) 0 ^ 2 + (![10, x] - ![0, 0] : PathVec 0) 1 ^ 2) < 5 := by
    intro x
    rw [not_lt]
    apply Real.le_sqrt_of_sq_le
    simp
    nlinarith [sq_nonneg x]
  have hl : yawLoop (halfPairs (noisyTrack ε)) 0 0 = .ok (2, Real.pi * 2) := by
    have r1 := yawDiff_range (![10, ε] - ![0, 0] : PathVec 0) (![10, 0] - ![0, 0])
    have r2 := yawDiff_range (![10, -ε] - ![0, 0] : PathVec 0) (![10, 0] - ![0, 0])
    rw [hp]
    simp only [yawLoop]
    rw [if_neg (hf ε), if_neg (hf (-ε)), Outcome.check_pos ⟨r1.1, by linarith [r1.2]⟩, Outcome.bind_ok,
      Outcome.check_pos ⟨r2.1, by linarith [r2.2]⟩, Outcome.bind_ok, hd1, hd2]
    congr 2
    ring
  unfold firstEstimate
  rw [if_neg (by simp [noisyTrack]), hl, Outcome.bind_ok]
  dsimp only
  have hpi : Real.pi * 2 / ((2 : ℕ) : ℝ) = Real.pi := by push_cast; field_simp
  rw [if_pos (by norm_num), hpi, turnZ_two]
  simp only [Outcome.pure_eq]
  congr 3
  rw [hp]
  unfold averageShift plainTurn
  funext i
  fin_cases i
  · simp [Matrix.mulVec, dotProduct, Fin.sum_univ_two]; norm_num
  · simp [Matrix.mulVec, dotProduct, Fin.sum_univ_two]

/-- C105 fails for measured tracks: however small the errors, a track whose heading agrees with that of
the map is turned round, since angles just above and just below zero are averaged to half a turn. -/
theorem C105_noise_fails (ε : ℝ) (h : 0 < ε) : ∃ l : List (TrackPoint 0), LongTrack l ∧
    (∀ p ∈ l, p.map 0 = p.enu 0 ∧ |p.map 1 - p.enu 1| ≤ ε) ∧
    ∀ solve, KeepsZero solve → ∃ g, matchPlane solve l = .ok g ∧ g.rot = plainTurn Real.pi ∧
      ∃ p ∈ l, p.enu = ![10, 0] ∧ (g.rot.mulVec p.map + g.trans) 0 = 0 := by
  have hn : pathNormal ![1, 0] = ![0, 1] := by
    unfold pathNormal
    funext i
    fin_cases i <;> simp
  have hl : (noisyTrack ε).length = 4 := by simp [noisyTrack]
  refine ⟨noisyTrack ε, ⟨0, ⟨![0, 0], ![0, 0], ![1, 0]⟩, ⟨![10, 0], ![10, ε], ![1, 0]⟩, by simp [noisyTrack],
    by simp [noisyTrack], by omega, ?_⟩, ?_, fun solve hs => ?_⟩
  · show (25 : ℝ) ≤ ((10 : ℝ) - 0) ^ 2 + (ε - 0) ^ 2
    nlinarith [sq_nonneg ε]
  · intro p hp
    simp only [noisyTrack, List.mem_cons, List.not_mem_nil, or_false] at hp
    rcases hp with rfl | rfl | rfl | rfl <;> simp [h.le, abs_of_pos h]
  · have hz : solve ((noisyTrack ε).map (pathRow (plainTurn Real.pi) ![10, 0])) = 0 := by
      apply hs
      intro k
      simp only [noisyTrack, pathRow, hn, List.map_cons, List.map_nil, List.sum_cons, List.sum_nil]
      fin_cases k <;> simp [plainTurn, Matrix.mulVec, dotProduct, Fin.sum_univ_two]
    refine ⟨moveBack (plainTurn Real.pi) ![10, 0], ?_, ?_, ⟨![10, 0], ![10, ε], ![1, 0]⟩, by simp [noisyTrack], rfl, ?_⟩
    · unfold matchPlane
      rw [noisy_estimate h, Outcome.bind_ok]
      dsimp only
      rw [pathIterate_zero hz]
      rfl
    · simp only [moveBack, plainTurn_inv]
      unfold plainTurn
      rw [Real.cos_neg, Real.sin_neg, Real.sin_pi, neg_zero, neg_zero]
    · simp only [moveBack, plainTurn_inv]
      simp [plainTurn, Matrix.mulVec, dotProduct, Fin.sum_univ_two]

/-- The distance from a point to a line, as the cost functions compute it. -/
theorem residual_infDist {n : Nat} (p o d : EuclideanSpace ℝ (Fin n)) :
    ‖(p - o) - (inner ℝ (p - o) (unitOf d) : ℝ) • unitOf d‖ = Metric.infDist p (lineAlong o d) := by
  by_cases hd : d = 0
  · subst hd
    rw [← distanceToLine_zero]
    simp only [distanceToLine]
    rw [unitOf_zero, norm_sub_rev, inner_zero_right, zero_smul]
  · have hpos : 0 < ‖d‖ := norm_pos_iff.2 hd
    have hu : unitOf d = ‖d‖⁻¹ • d := by unfold unitOf; rw [if_pos hpos]
    have hu1 : ‖unitOf d‖ = 1 := by
      rw [hu, norm_smul, norm_inv, norm_norm, inv_mul_cancel₀ hpos.ne']
    have huu : unitOf (unitOf d) = unitOf d := by
      have hv : ∀ v : EuclideanSpace ℝ (Fin n), ‖v‖ = 1 → unitOf v = v := fun v hv => by
        unfold unitOf
        rw [hv, if_pos one_pos, inv_one, one_smul]
      exact hv _ hu1
    have hl : lineAlong o (unitOf d) = lineAlong o d := by
      ext y
      constructor
      · rintro ⟨t, rfl⟩
        exact ⟨t * ‖d‖⁻¹, by simp only [hu, smul_smul]⟩
      · rintro ⟨t, rfl⟩
        refine ⟨t * ‖d‖, ?_⟩
        simp only [hu, smul_smul, mul_assoc, mul_inv_cancel₀ hpos.ne', mul_one]
    have h := (C83_line_iff p o (unitOf d)).2.2 (.inl hu1)
    rw [hl] at h
    rw [← h, norm_sub_rev]
    simp only [distanceToLine, huu]

/-- C105: the residual in space is the distance of the moved GPS position from the line through the map
position along the direction. -/
theorem C105_distance (t : Fin 3 → ℝ) (e : Euler) (p : TrackPoint 1) :
    spaceResidual t e p = Metric.infDist (WithLp.toLp 2 ((fromEuler e).mulVec p.enu + t) : EuclideanSpace ℝ (Fin 3))
      (lineAlong (WithLp.toLp 2 p.map) (WithLp.toLp 2 p.dir)) := by
  rw [← residual_infDist]
  rfl

/-- C105: the residual in the plane with a normal is that distance exactly for a normal of length one,
or when the two are at right angles; otherwise it is larger. -/
theorem C105_normal_partial (t : PathVec 0) (a : ℝ) (p : TrackPoint 0) :
    Metric.infDist (WithLp.toLp 2 ((plainTurn a).mulVec p.enu + t) : EuclideanSpace ℝ (Fin 2))
        (lineAlong (WithLp.toLp 2 p.map) (WithLp.toLp 2 p.dir)) ≤ normalResidual t a p ∧
      (normalResidual t a p = Metric.infDist (WithLp.toLp 2 ((plainTurn a).mulVec p.enu + t) : EuclideanSpace ℝ (Fin 2))
          (lineAlong (WithLp.toLp 2 p.map) (WithLp.toLp 2 p.dir)) ↔
        ‖(WithLp.toLp 2 p.dir : EuclideanSpace ℝ (Fin 2))‖ = 1 ∨
        ((plainTurn a).mulVec p.enu + t - p.map) 0 * p.dir 0 + ((plainTurn a).mulVec p.enu + t - p.map) 1 * p.dir 1 = 0) := by
  have h := C83_line_iff (WithLp.toLp 2 ((plainTurn a).mulVec p.enu + t) : EuclideanSpace ℝ (Fin 2))
    (WithLp.toLp 2 p.map) (WithLp.toLp 2 p.dir)
  have hn : distanceToLine (WithLp.toLp 2 ((plainTurn a).mulVec p.enu + t) : EuclideanSpace ℝ (Fin 2))
      (WithLp.toLp 2 p.map) (WithLp.toLp 2 p.dir) = normalResidual t a p := by
    simp only [distanceToLine, normalResidual]
    rw [norm_sub_rev]
    rfl
  have hi : (inner ℝ ((WithLp.toLp 2 ((plainTurn a).mulVec p.enu + t) : EuclideanSpace ℝ (Fin 2)) - WithLp.toLp 2 p.map)
      (WithLp.toLp 2 p.dir) : ℝ) =
      ((plainTurn a).mulVec p.enu + t - p.map) 0 * p.dir 0 + ((plainTurn a).mulVec p.enu + t - p.map) 1 * p.dir 1 := by
    simp [PiLp.inner_apply, Fin.sum_univ_two]
    ring
  rw [hn, hi] at h
  exact h

theorem mat4_mul (R S : Mat3) (t u : Fin 3 → ℝ) : mat4 R t * mat4 S u = mat4 (R * S) (R.mulVec u + t) := by
  unfold mat4
  ext i j
  fin_cases i <;> fin_cases j <;>
    simp [Matrix.mul_apply, Fin.sum_univ_four, Fin.sum_univ_three, Matrix.mulVec, dotProduct]

theorem mat4_one : mat4 1 0 = 1 := by
  unfold mat4
  ext i j
  fin_cases i <;> fin_cases j <;> simp

theorem fromEuler_rot (e : Euler) : IsRot3 (fromEuler e) := Quat.toMat_rot (eulerQuat_unit e)

/-- C105: the residual of the odometer calibration is the distance of the position the odometer gives
from the line through the submap along its direction. -/
theorem C105_odometer (t : Fin 3 → ℝ) (e : Euler) (map dir b x : Fin 3 → ℝ) (A : Mat3)
    (h : OdomPosition (fromEuler e) t A b x) :
    odomResidual t e map dir (mat4 A b) =
      Metric.infDist (WithLp.toLp 2 x : EuclideanSpace ℝ (Fin 3)) (lineAlong (WithLp.toLp 2 map) (WithLp.toLp 2 dir)) := by
  have hr := (fromEuler_rot e).1
  set R := fromEuler e with hR
  have hinv : (mat4 R t)⁻¹ = mat4 R.transpose (-(R.transpose.mulVec t)) := by
    apply Matrix.inv_eq_left_inv
    rw [mat4_mul, hr, add_neg_cancel, mat4_one]
  have hx : R.transpose.mulVec (A.mulVec t + b) + -(R.transpose.mulVec t) = x := by
    unfold OdomPosition at h
    rw [← h, Matrix.mulVec_add, Matrix.mulVec_mulVec, hr, Matrix.one_mulVec]
    abel
  have hm : mat4 R.transpose (-(R.transpose.mulVec t)) * mat4 A b * mat4 R t =
      mat4 (R.transpose * A * R) x := by
    rw [mat4_mul, mat4_mul]
    congr 1
    rw [← hx, Matrix.mulVec_add, Matrix.mulVec_mulVec]
    abel
  have hc : ∀ M : Mat3, (![mat4 M x 0 3, mat4 M x 1 3, mat4 M x 2 3] : Fin 3 → ℝ) = x := by
    intro M
    funext i
    fin_cases i <;> simp [mat4]
  rw [← residual_infDist]
  simp only [odomResidual]
  rw [← hR, hinv, hm, hc]
  rfl

/-- C105: a calibration that was right is kept. -/
theorem C105_calibration (minimise : List CalibTerm → (Fin 3 → ℝ) × Euler → (Fin 3 → ℝ) × Euler)
    (hs : StaysAt (fun t e (c : CalibTerm) => odomResidual t e c.map c.dir c.odom) minimise) (submaps : List CalibSubmap)
    (init : RTransform) (hi : IsRot3 init.rot) (hl : 1 / 1000000 ≤ level init.rot) (hn : 1 < submaps.length)
    (ho : ∃ s ∈ submaps, s.odom ≠ none)
    (h : ∀ s ∈ submaps, ∀ o, s.odom = some o →
      ∃ A b, o = mat4 A b ∧ OdomPosition init.rot init.trans A b s.trans) :
    calibrate minimise submaps init = some init := by
  have hf := C63_exact _ hi hl
  have mem : ∀ l : List CalibSubmap, ∀ c ∈ calibTerms l, ∃ s ∈ l, ∃ o, s.odom = some o ∧
      c = ⟨s.trans, submapDirection s.rot, o⟩ := by
    intro l
    induction l with
    | nil => intro c hc; cases hc
    | cons s l ih =>
      intro c hc
      unfold calibTerms at hc
      cases hso : s.odom with
      | none =>
        rw [hso] at hc
        obtain ⟨s', hs', r⟩ := ih c hc
        exact ⟨s', List.mem_cons_of_mem _ hs', r⟩
      | some o =>
        rw [hso] at hc
        rcases List.mem_cons.1 hc with rfl | hc
        · exact ⟨s, List.mem_cons_self .., o, hso, rfl⟩
        · obtain ⟨s', hs', r⟩ := ih c hc
          exact ⟨s', List.mem_cons_of_mem _ hs', r⟩
  have hne : calibTerms submaps ≠ [] := by
    obtain ⟨s, hs1, hs2⟩ := ho
    clear h hn
    induction submaps with
    | nil => cases hs1
    | cons s' l ih =>
      unfold calibTerms
      cases hso : s'.odom with
      | some o => exact List.cons_ne_nil _ _
      | none =>
        rcases List.mem_cons.1 hs1 with rfl | hs1
        · exact absurd hso hs2
        · exact ih hs1
  have hz : minimise (calibTerms submaps) ((toPose6 init).trans, (toPose6 init).angles) =
      ((toPose6 init).trans, (toPose6 init).angles) := by
    apply hs
    intro c hc
    obtain ⟨s, hs1, o, hso, rfl⟩ := mem submaps c hc
    obtain ⟨A, b, rfl, hp⟩ := h s hs1 o hso
    dsimp only [toPose6]
    rw [C105_odometer _ _ _ _ _ s.trans _ (by rw [hf]; exact hp)]
    exact Metric.infDist_zero_of_mem ⟨0, by simp⟩
  unfold calibrate
  rw [if_neg (by omega), if_neg hne, hz]
  dsimp only [toPose6]
  rw [hf]

/-- C105: the calibration is refused exactly for fewer than two submaps or without any odometer pose. -/
theorem C105_refused (minimise : List CalibTerm → (Fin 3 → ℝ) × Euler → (Fin 3 → ℝ) × Euler)
    (submaps : List CalibSubmap) (init : RTransform) :
    calibrate minimise submaps init = none ↔ submaps.length < 2 ∨ ∀ s ∈ submaps, s.odom = none := by
  have ht : calibTerms submaps = [] ↔ ∀ s ∈ submaps, s.odom = none := by
    induction submaps with
    | nil => simp [calibTerms]
    | cons s l ih =>
      unfold calibTerms
      cases hso : s.odom with
      | some o => simp [hso]
      | none => simp [hso, ih]
  unfold calibrate
  split
  · rename_i hc
    exact ⟨fun _ => .inl (by omega), fun _ => rfl⟩
  · rename_i hc
    split
    · rename_i he
      exact ⟨fun _ => .inr (ht.1 he), fun _ => rfl⟩
    · rename_i he
      constructor
      · intro hx; cases hx
      · rintro (hx | hx)
        · exact absurd hx (by omega)
        · exact absurd (ht.2 hx) he

/-- C105 fails for the direction of a submap: it is that of the forward axis exactly when that axis is
level; on a slope it points down where the road goes up. -/
theorem C105_heading_fails (R : Mat3) (h : IsRot3 R) :
    ((∀ i, submapDirection R i = R i 0) ↔ R 2 0 = 0) ∧ submapDirection R 2 = -R 2 0 := by
  have q := rotEq h
  have hsq := sq_sqrt_level (R := R)
  have hn : level R ^ 2 + (-R 2 0) ^ 2 = 1 ^ 2 := by rw [hsq]; linarith [q.c0]
  have hs : Real.sin (atan2 (-R 2 0) (level R)) = -R 2 0 := by
    rw [sin_atan2 one_pos hn, div_one]
  have h2 : submapDirection R 2 = -R 2 0 := by
    unfold submapDirection toEuler
    rw [level_eq]
    dsimp only
    split
    · exact hs
    · exact hs
  refine ⟨⟨fun hi => ?_, fun h0 => ?_⟩, h2⟩
  · have := hi 2
    rw [h2] at this
    linarith
  · have hl1 : level R = 1 := by
      have : level R ^ 2 = 1 := by rw [h0] at hn; simpa using hn
      have hnn : 0 ≤ level R := Real.sqrt_nonneg _
      nlinarith
    have hc : Real.cos (atan2 (-R 2 0) (level R)) = 1 := by
      rw [cos_atan2 one_pos hn, hl1, div_one]
    have hz : R 0 0 ^ 2 + R 1 0 ^ 2 = 1 ^ 2 := by rw [← hsq, hl1]
    intro i
    fin_cases i
    · unfold submapDirection toEuler
      rw [level_eq]
      dsimp only
      rw [if_neg (by rw [hl1]; norm_num)]
      show Real.cos (atan2 (R 1 0) (R 0 0)) * Real.cos (atan2 (-R 2 0) (level R)) = R 0 0
      rw [hc, cos_atan2 one_pos hz, div_one, mul_one]
    · unfold submapDirection toEuler
      rw [level_eq]
      dsimp only
      rw [if_neg (by rw [hl1]; norm_num)]
      show Real.sin (atan2 (R 1 0) (R 0 0)) * Real.cos (atan2 (-R 2 0) (level R)) = R 1 0
      rw [hc, sin_atan2 one_pos hz, div_one, mul_one]
    · show submapDirection R 2 = R 2 0
      rw [h2, h0, neg_zero]

/-- A quarter turn of a track with corners. -/
noncomputable def turnedTrack : List (TrackPoint 0) :=
  [⟨![0, 0], ![3, 4], ![1, 0]⟩, ⟨![10, 0], ![3, 14], ![0, 1]⟩, ⟨![10, 20], ![-17, 14], ![1, 0]⟩, ⟨![0, 20], ![-17, 4], ![0, 1]⟩]

example : SameTrack turnedTrack (Real.pi / 2) ![3, 4] ∧ LongTrack turnedTrack := by
  refine ⟨?_, 0, _, _, rfl, rfl, by decide, ?_⟩
  · intro p hp
    simp only [turnedTrack, List.mem_cons, List.not_mem_nil, or_false] at hp
    rcases hp with rfl | rfl | rfl | rfl <;> refine ⟨?_, ?_, fun i => i.elim0⟩ <;> simp <;> norm_num
  · show (25 : ℝ) ≤ ((-17 : ℝ) - 3) ^ 2 + (14 - 4) ^ 2
    norm_num

/-- A solver that keeps zero. -/
example : KeepsZero fun _ => 0 := fun _ _ => rfl

/-- A mounting, an odometer pose and the position it gives. -/
example : OdomPosition (rotZ (Real.pi / 2)) ![1, 0, 0] 1 ![2, 3, 0] ![3, -2, 0] := by
  unfold OdomPosition rotZ
  funext i
  fin_cases i <;> simp [Matrix.mulVec, dotProduct, Fin.sum_univ_three] <;> norm_num

/-- C105: the error that is reported for a point is at least the distance, seen from above, of the moved GPS position
from the path; it is this distance exactly if the direction, seen from above, has length one (the path is level), or
the point is abreast of the map position. -/
theorem C105_report_partial {n : Nat} (R : PathMat n) (t : PathVec n) (hR : IsUnit R.det) (p : TrackPoint n) :
    Metric.infDist (WithLp.toLp 2 (dropHeight (R.mulVec p.enu + t)) : EuclideanSpace ℝ (Fin (n + 2)))
        (lineAlong (WithLp.toLp 2 (dropHeight p.map)) (WithLp.toLp 2 (dropHeight p.dir))) ≤ trackError (moveBack R t) p ∧
      (trackError (moveBack R t) p =
          Metric.infDist (WithLp.toLp 2 (dropHeight (R.mulVec p.enu + t)) : EuclideanSpace ℝ (Fin (n + 2)))
            (lineAlong (WithLp.toLp 2 (dropHeight p.map)) (WithLp.toLp 2 (dropHeight p.dir))) ↔
        ‖(WithLp.toLp 2 (dropHeight p.dir) : EuclideanSpace ℝ (Fin (n + 2)))‖ = 1 ∨
          (inner ℝ ((WithLp.toLp 2 (dropHeight (R.mulVec p.enu + t)) : EuclideanSpace ℝ (Fin (n + 2))) -
            WithLp.toLp 2 (dropHeight p.map)) (WithLp.toLp 2 (dropHeight p.dir)) : ℝ) = 0) := by
  have h : (moveBack R t).rot⁻¹.mulVec (p.enu - (moveBack R t).trans) = R.mulVec p.enu + t := by
    simp only [moveBack]
    rw [Matrix.nonsing_inv_nonsing_inv _ hR, sub_neg_eq_add, Matrix.mulVec_add, Matrix.mulVec_mulVec,
      Matrix.mul_nonsing_inv _ hR, Matrix.one_mulVec]
  unfold trackError
  rw [h]
  exact C83_line_iff _ _ _

/-- C105 is false of the reported error on a slope: a point on the path is reported 40 cm beside it. -/
theorem C105_report_fails : ∃ p : TrackPoint 1, p.dir 0 ^ 2 + p.dir 1 ^ 2 + p.dir 2 ^ 2 = 1 ∧
    Metric.infDist (WithLp.toLp 2 (p.enu) : EuclideanSpace ℝ (Fin 3)) (lineAlong (WithLp.toLp 2 p.map) (WithLp.toLp 2 p.dir)) = 0 ∧
    trackError (moveBack 1 0) p = 2 / 5 := by
  refine ⟨⟨![1, 0, 4 / 3], ![0, 0, 0], ![3 / 5, 0, 4 / 5]⟩, by simp; norm_num, ?_, ?_⟩
  · refine Metric.infDist_zero_of_mem ⟨5 / 3, ?_⟩
    ext i
    fin_cases i <;> norm_num
  · have h : (moveBack (1 : PathMat 1) 0).rot⁻¹ = 1 ∧ (moveBack (1 : PathMat 1) 0).trans = 0 := by simp [moveBack]
    unfold trackError
    rw [h.1, h.2, Matrix.one_mulVec, sub_zero]
    have e1 : (dropHeight (n := 1) ![1, 0, 4 / 3]) = ![1, 0, 0] := by
      ext i; fin_cases i <;> simp [dropHeight]
    have e2 : (dropHeight (n := 1) ![0, 0, 0]) = 0 := by
      ext i; fin_cases i <;> simp [dropHeight]
    have e3 : (dropHeight (n := 1) ![3 / 5, 0, 4 / 5]) = ![3 / 5, 0, 0] := by
      ext i; fin_cases i <;> simp [dropHeight]
    rw [e1, e2, e3]
    have hn : ‖(WithLp.toLp 2 ![3 / 5, 0, 0] : EuclideanSpace ℝ (Fin 3))‖ = 3 / 5 := by
      rw [EuclideanSpace.norm_eq]
      simp [Fin.sum_univ_three]
      exact Real.sqrt_sq (by norm_num)
    have hu : unitOf (WithLp.toLp 2 ![3 / 5, 0, 0] : EuclideanSpace ℝ (Fin 3)) = WithLp.toLp 2 ![1, 0, 0] := by
      unfold unitOf
      rw [hn, if_pos (by norm_num)]
      ext i
      fin_cases i <;> simp
    simp only [distanceToLine]
    rw [hu, WithLp.toLp_zero, sub_zero]
    have hi : (inner ℝ (WithLp.toLp 2 ![1, 0, 0] : EuclideanSpace ℝ (Fin 3)) (WithLp.toLp 2 ![3 / 5, 0, 0]) : ℝ) = 3 / 5 := by
      simp [PiLp.inner_apply, Fin.sum_univ_three]
    rw [hi, EuclideanSpace.norm_eq]
    simp [Fin.sum_univ_three]
    rw [show ((3 : ℝ) / 5 - 1) ^ 2 = (2 / 5) ^ 2 by norm_num]
    exact Real.sqrt_sq (by norm_num)

/-- C105: an equation of the matching is the distance of a moved position from its path: the last two
coefficients are a unit vector across the path, the right side is the distance to go along it, and the
first coefficient is how that distance changes when the track is turned. -/
theorem C105_row (rot : PathMat 0) (trans : PathVec 0) (p : TrackPoint 0) (hd : p.dir ≠ 0) :
    let q := rot.mulVec p.enu + trans
    let n := (pathRow rot trans p).1
    n 1 ^ 2 + n 2 ^ 2 = 1 ∧ n 1 * p.dir 0 + n 2 * p.dir 1 = 0 ∧
    (pathRow rot trans p).2 = n 1 * (p.map 0 - q 0) + n 2 * (p.map 1 - q 1) ∧
    HasDerivAt (fun a => n 1 * (Real.cos a * q 0 - Real.sin a * q 1) +
      n 2 * (Real.sin a * q 0 + Real.cos a * q 1)) (n 0) 0 := by
  have hpos : 0 < p.dir 1 ^ 2 + p.dir 0 ^ 2 := by
    rcases (by positivity : (0 : ℝ) ≤ p.dir 1 ^ 2 + p.dir 0 ^ 2).eq_or_lt with h | h
    · exfalso
      apply hd
      have h0 : p.dir 0 = 0 := by nlinarith [sq_nonneg (p.dir 0), sq_nonneg (p.dir 1)]
      have h1 : p.dir 1 = 0 := by nlinarith [sq_nonneg (p.dir 0), sq_nonneg (p.dir 1)]
      ext i
      fin_cases i
      · exact h0
      · exact h1
    · exact h
  obtain ⟨r, hr⟩ : ∃ r, r = Real.sqrt (p.dir 1 ^ 2 + p.dir 0 ^ 2) := ⟨_, rfl⟩
  have rpos : 0 < r := by rw [hr]; exact Real.sqrt_pos.2 hpos
  have rsq : r ^ 2 = p.dir 1 ^ 2 + p.dir 0 ^ 2 := by rw [hr]; exact Real.sq_sqrt hpos.le
  have hn : pathNormal p.dir = ![-p.dir 1 / r, p.dir 0 / r] := by
    unfold pathNormal
    have e : Real.sqrt ((![-p.dir 1, p.dir 0] : PathVec 0) 0 ^ 2 + (![-p.dir 1, p.dir 0] : PathVec 0) 1 ^ 2) = r := by
      rw [hr]; simp
    dsimp only
    rw [e, if_pos rpos]
    ext i
    fin_cases i <;> simp <;> ring
  dsimp only
  unfold pathRow
  dsimp only
  rw [hn]
  refine ⟨?_, ?_, ?_, ?_⟩
  · simp
    field_simp
    linarith
  · simp
    ring
  · simp
  · simp only [Matrix.cons_val_zero, Matrix.cons_val_one, Matrix.cons_val]
    obtain ⟨x, hx⟩ : ∃ x, x = (rot.mulVec p.enu + trans) 0 := ⟨_, rfl⟩
    obtain ⟨y, hy⟩ : ∃ y, y = (rot.mulVec p.enu + trans) 1 := ⟨_, rfl⟩
    rw [← hx, ← hy]
    have hc := Real.hasDerivAt_cos 0
    have hs := Real.hasDerivAt_sin 0
    rw [Real.sin_zero, neg_zero] at hc
    rw [Real.cos_zero] at hs
    have h1 := ((hc.mul_const x).sub (hs.mul_const y)).const_mul (-p.dir 1 / r)
    have h2 := ((hs.mul_const x).add (hc.mul_const y)).const_mul (p.dir 0 / r)
    have h3 := h1.add h2
    refine h3.congr_deriv ?_
    ring

/-- C105: composing the turns and shifts of the steps puts every position of the track where moving the
positions themselves, step by step, puts them. -/
theorem C105_moved (solve : List ((Fin 3 → ℝ) × ℝ) → Fin 3 → ℝ) (l : List (TrackPoint 0)) (fuel : Nat) :
    ∀ (rot : PathMat 0) (trans : PathVec 0) (p : TrackPoint 0),
      (pathIterate solve l fuel rot trans).1.mulVec p.enu + (pathIterate solve l fuel rot trans).2 =
        movedTrack (fun q p => pathRow 0 q p) solve l fuel (fun p => rot.mulVec p.enu + trans) p := by
  have row : ∀ (rot : PathMat 0) (trans : PathVec 0) (p : TrackPoint 0),
      pathRow rot trans p = pathRow 0 (rot.mulVec p.enu + trans) p := by
    intro rot trans p
    unfold pathRow
    simp
  induction fuel with
  | zero => intro rot trans p; rfl
  | succ fuel ih =>
    intro rot trans p
    have rows : (l.map (pathRow rot trans)) = l.map fun p => pathRow 0 (rot.mulVec p.enu + trans) p :=
      List.map_congr_left fun p _ => row rot trans p
    unfold pathIterate movedTrack
    dsimp only
    rw [rows]
    obtain ⟨s, hs⟩ : ∃ s, s = solve (l.map fun p => pathRow 0 (rot.mulVec p.enu + trans) p) := ⟨_, rfl⟩
    rw [← hs]
    have place : ∀ p : TrackPoint 0, (plainTurn (s 0) * rot).mulVec p.enu + ((plainTurn (s 0)).mulVec trans + ![s 1, s 2]) =
        ![Real.cos (s 0) * (rot.mulVec p.enu + trans) 0 - Real.sin (s 0) * (rot.mulVec p.enu + trans) 1 + s 1,
          Real.sin (s 0) * (rot.mulVec p.enu + trans) 0 + Real.cos (s 0) * (rot.mulVec p.enu + trans) 1 + s 2] := by
      intro p
      rw [← Matrix.mulVec_mulVec, ← add_assoc, ← Matrix.mulVec_add]
      obtain ⟨v, hv⟩ : ∃ v : PathVec 0, v = rot.mulVec p.enu + trans := ⟨_, rfl⟩
      rw [← hv]
      ext i
      fin_cases i
      · simp [plainTurn, Matrix.mulVec, dotProduct, Fin.sum_univ_two]; ring
      · simp [plainTurn, Matrix.mulVec, dotProduct, Fin.sum_univ_two]
    have cond : (Real.sqrt ((![s 1, s 2] : PathVec 0) 0 ^ 2 + (![s 1, s 2] : PathVec 0) 1 ^ 2) < 1 / 10000000000 ∧
        Real.sqrt ((plainTurn (s 0) 0 0 - 1) ^ 2 + plainTurn (s 0) 0 1 ^ 2 + plainTurn (s 0) 1 0 ^ 2 +
          (plainTurn (s 0) 1 1 - 1) ^ 2) < 1 / 10000000000) ↔
        (Real.sqrt (s 1 ^ 2 + s 2 ^ 2) < 1 / 10000000000 ∧
        Real.sqrt (2 * (Real.cos (s 0) - 1) ^ 2 + 2 * Real.sin (s 0) ^ 2) < 1 / 10000000000) := by
      have e : (plainTurn (s 0) 0 0 - 1) ^ 2 + plainTurn (s 0) 0 1 ^ 2 + plainTurn (s 0) 1 0 ^ 2 +
          (plainTurn (s 0) 1 1 - 1) ^ 2 = 2 * (Real.cos (s 0) - 1) ^ 2 + 2 * Real.sin (s 0) ^ 2 := by
        simp [plainTurn]; ring
      rw [e]
      rfl
    by_cases c : Real.sqrt (s 1 ^ 2 + s 2 ^ 2) < 1 / 10000000000 ∧
        Real.sqrt (2 * (Real.cos (s 0) - 1) ^ 2 + 2 * Real.sin (s 0) ^ 2) < 1 / 10000000000
    · rw [if_pos (cond.2 c), if_pos c]
      exact place p
    · rw [if_neg (fun h => c (cond.1 h)), if_neg c, ih]
      congr 1
      funext p
      exact place p

end Verif
