import Verif.Proofs.PlaneFactor
import Verif.Props.FrontEnd
/-! Property theorems C125: the residual of a point of a moving scan against a plane. -/
namespace Verif
open Spec
noncomputable section

/-- C125: for a turn by `θ` about the axis `n`, given as the quaternion (w, x, y, z), and the shift `t` over the whole
scan, the point is first turned by its share of the angle, then shifted by its share of `t`, and the residual is the
distance of the result from the plane (with a sign); `eps` is 2^-52. -/
theorem C125_residual {eps θ : ℝ} (he : 0 ≤ eps) (h0 : 0 ≤ θ) (h1 : θ < Real.pi) (hθ : Real.cos (θ / 2) < 1 - eps)
    {n : Fin 3 → ℝ} (hn : lenSq n = 1) (c : PlaneFactor) (hc : lenSq c.normal = 1) (t : Fin 3 → ℝ) :
    PlaneDistance c.target c.normal (fun i => rodrigues n (c.factor * θ) c.query i + c.factor * t i)
      |c.residual eps t ![Real.cos (θ / 2), Real.sin (θ / 2) * n 0, Real.sin (θ / 2) * n 1, Real.sin (θ / 2) * n 2]| := by
  have e : c.moved eps t ![Real.cos (θ / 2), Real.sin (θ / 2) * n 0, Real.sin (θ / 2) * n 1, Real.sin (θ / 2) * n 2] =
      fun i => rodrigues n (c.factor * θ) c.query i + c.factor * t i := by
    unfold PlaneFactor.moved
    dsimp only
    show c.factor • t + (eigenSlerp eps ⟨1, 0, 0, 0⟩ ⟨Real.cos (θ / 2), Real.sin (θ / 2) * n 0, Real.sin (θ / 2) * n 1,
      Real.sin (θ / 2) * n 2⟩ c.factor).onVec c.query = _
    rw [slerp_axis he (by linarith) (by linarith) hθ, onVec_axis hn, show 2 * (c.factor * (θ / 2)) = c.factor * θ by ring]
    ext i
    simp only [Pi.add_apply, Pi.smul_apply, smul_eq_mul]
    ring
  unfold PlaneFactor.residual
  rw [e]
  exact plane_distance hc _ _

/-- C125: on which side of the plane the point is, is the sign of the residual, and it is 0 exactly on the plane;
`normal` may be of any length. -/
theorem C125_sign {eps θ : ℝ} (he : 0 ≤ eps) (h0 : 0 ≤ θ) (h1 : θ < Real.pi) (hθ : Real.cos (θ / 2) < 1 - eps)
    {n : Fin 3 → ℝ} (hn : lenSq n = 1) (c : PlaneFactor) (t m : Fin 3 → ℝ)
    (hm : ∀ i, m i = rodrigues n (c.factor * θ) c.query i + c.factor * t i) {y : Fin 3 → ℝ} {s : ℝ}
    (hy : OnPlane c.target c.normal y) (hs : ∀ i, m i = y i + s * c.normal i) :
    c.residual eps t ![Real.cos (θ / 2), Real.sin (θ / 2) * n 0, Real.sin (θ / 2) * n 1, Real.sin (θ / 2) * n 2] =
      s * lenSq c.normal := by
  have e : c.moved eps t ![Real.cos (θ / 2), Real.sin (θ / 2) * n 0, Real.sin (θ / 2) * n 1, Real.sin (θ / 2) * n 2] = m := by
    unfold PlaneFactor.moved
    dsimp only
    show c.factor • t + (eigenSlerp eps ⟨1, 0, 0, 0⟩ ⟨Real.cos (θ / 2), Real.sin (θ / 2) * n 0, Real.sin (θ / 2) * n 1,
      Real.sin (θ / 2) * n 2⟩ c.factor).onVec c.query = _
    rw [slerp_axis he (by linarith) (by linarith) hθ, onVec_axis hn, show 2 * (c.factor * (θ / 2)) = c.factor * θ by ring]
    ext i
    rw [hm]
    simp only [Pi.add_apply, Pi.smul_apply, smul_eq_mul]
    ring
  unfold PlaneFactor.residual
  rw [e, dotProd3]
  unfold OnPlane at hy
  unfold lenSq
  simp only [Pi.sub_apply]
  rw [hs 0, hs 1, hs 2]
  linear_combination hy

/-- C125: a point measured at the start of the scan is not moved, whatever the numbers are; one measured at the end is
moved by the whole pose. -/
theorem C125_ends {eps : ℝ} (he : 0 ≤ eps) (c : PlaneFactor) (t : Fin 3 → ℝ) (q : Quat) :
    (c.factor = 0 → c.residual eps t ![q.w, q.x, q.y, q.z] = ∑ i, (c.query i - c.target i) * c.normal i) ∧
    (c.factor = 1 → c.residual eps t ![q.w, q.x, q.y, q.z] =
      ∑ i, (q.toMat.mulVec c.query i + t i - c.target i) * c.normal i) := by
  obtain ⟨k1, k2, k3, k4⟩ := slerpScale_ends (d := |Quat.dot ⟨1, 0, 0, 0⟩ q|) he (abs_nonneg _)
  constructor
  · intro hf
    have e : c.moved eps t ![q.w, q.x, q.y, q.z] = c.query := by
      show c.factor • t + (eigenSlerp eps ⟨1, 0, 0, 0⟩ q c.factor).onVec c.query = _
      have : eigenSlerp eps ⟨1, 0, 0, 0⟩ q 0 = ⟨1, 0, 0, 0⟩ := by
        unfold eigenSlerp
        dsimp only
        rw [k1, k2]
        simp
      rw [hf, this]
      obtain ⟨a0, a1, a2⟩ := onVec_apply ⟨1, 0, 0, 0⟩ c.query
      refine fin3_ext ?_ ?_ ?_
      · simp only [Pi.add_apply, Pi.smul_apply, smul_eq_mul, a0]; ring
      · simp only [Pi.add_apply, Pi.smul_apply, smul_eq_mul, a1]; ring
      · simp only [Pi.add_apply, Pi.smul_apply, smul_eq_mul, a2]; ring
    unfold PlaneFactor.residual
    rw [e]
    rfl
  · intro hf
    have e : c.moved eps t ![q.w, q.x, q.y, q.z] = q.toMat.mulVec c.query + t := by
      show c.factor • t + (eigenSlerp eps ⟨1, 0, 0, 0⟩ q c.factor).onVec c.query = _
      rw [hf, one_smul, add_comm, onVec_toMat]
      congr 2
      unfold eigenSlerp
      dsimp only
      rw [k3, k4]
      split
      · rw [← Quat.neg_toMat q]
        simp [Quat.neg]
      · simp
    unfold PlaneFactor.residual
    rw [e]
    rfl

/-- C125: the point is moved exactly as the mapper moves the points of a scan (C57, C95), for all unit quaternions that
are not half turns. -/
theorem C125_compensation {eps : ℝ} (raw out : InnerCloud ℝ) (hf : ∀ p ∈ raw.points, 0 ≤ p.factor ∧ p.factor ≤ 1) (t : Fin 3 → ℝ)
    (q : Quat) (hq : q.w ^ 2 + q.x ^ 2 + q.y ^ 2 + q.z ^ 2 = 1) (hw : q.w ≠ 0) :
    ∃ c, motionCompensation (slerpMat eps) raw ⟨q.toMat, t⟩ out = .ok c ∧ c.points.length = raw.points.length ∧
      ∀ (i : Nat) (p : InnerPoint ℝ), raw.points[i]? = some p → ∃ r : InnerPoint ℝ, c.points[i]? = some r ∧
        ∀ a n : Fin 3 → ℝ, PlaneFactor.residual eps ⟨![p.x, p.y, p.z], a, n, p.factor⟩ t ![q.w, q.x, q.y, q.z] =
          (r.x - a 0) * n 0 + (r.y - a 1) * n 1 + (r.z - a 2) * n 2 := by
  have hu : q.IsUnit := hq
  have hs : ∀ f, slerpMat eps 1 q.toMat f = (eigenSlerp eps ⟨1, 0, 0, 0⟩ q f).toMat := by
    intro f
    unfold slerpMat
    rw [quatOfMat_one]
    have hr := Quat.toMat_rot hu
    rcases quat_same hu (quatOfMat_unit hr) (quatOfMat_toMat hr).symm with h | h
    · rw [h]
    · rw [h, slerp_neg]
      unfold Quat.dot
      simpa using hw
  obtain ⟨c, e1, _, e3, e4⟩ := C57_points (slerpMat eps) raw out ⟨q.toMat, t⟩ hf
  refine ⟨c, e1, e3, fun i p hp => ?_⟩
  obtain ⟨r, g1, _, _, g4⟩ := e4 i p hp
  refine ⟨r, g1, fun a n => ?_⟩
  have hm : PlaneFactor.moved eps ⟨![p.x, p.y, p.z], a, n, p.factor⟩ t ![q.w, q.x, q.y, q.z] = ![r.x, r.y, r.z] := by
    show p.factor • t + (eigenSlerp eps ⟨1, 0, 0, 0⟩ q p.factor).onVec ![p.x, p.y, p.z] = _
    rw [onVec_toMat, ← hs]
    ext k
    rw [g4 k]
    simp only [Pi.add_apply, Pi.smul_apply, smul_eq_mul]
    ring
  unfold PlaneFactor.residual
  rw [hm, dotProd3]
  rfl

/-- C125: a quaternion and its negative are the same rotation and give the same residual, except for half turns. -/
theorem C125_negative_partial (eps : ℝ) (c : PlaneFactor) (t : Fin 3 → ℝ) (q : Quat) (hw : q.w ≠ 0) :
    c.residual eps t ![-q.w, -q.x, -q.y, -q.z] = c.residual eps t ![q.w, q.x, q.y, q.z] := by
  have h : eigenSlerp eps ⟨1, 0, 0, 0⟩ ⟨-q.w, -q.x, -q.y, -q.z⟩ c.factor = eigenSlerp eps ⟨1, 0, 0, 0⟩ q c.factor :=
    slerp_neg eps ⟨1, 0, 0, 0⟩ q c.factor (by unfold Quat.dot; simpa using hw)
  unfold PlaneFactor.residual
  have e : c.moved eps t ![-q.w, -q.x, -q.y, -q.z] = c.moved eps t ![q.w, q.x, q.y, q.z] := by
    show c.factor • t + (eigenSlerp eps ⟨1, 0, 0, 0⟩ ⟨-q.w, -q.x, -q.y, -q.z⟩ c.factor).onVec c.query =
      c.factor • t + (eigenSlerp eps ⟨1, 0, 0, 0⟩ q c.factor).onVec c.query
    rw [h]
  rw [e]

theorem slerp_half {eps : ℝ} (h1 : eps < 1) (z : ℝ) : eigenSlerp eps ⟨1, 0, 0, 0⟩ ⟨0, 0, 0, z⟩ (1 / 2) =
    ⟨Real.sqrt 2 / 2, 0, 0, Real.sqrt 2 / 2 * z⟩ := by
  have hd : Quat.dot ⟨1, 0, 0, 0⟩ ⟨0, 0, 0, z⟩ = 0 := by simp [Quat.dot]
  have k : Real.sin (Real.pi / 2 / 2) = Real.sqrt 2 / 2 := by
    rw [show Real.pi / 2 / 2 = Real.pi / 4 by ring, Real.sin_pi_div_four]
  unfold eigenSlerp
  dsimp only
  rw [hd]
  unfold slerpScale0 slerpScale1
  simp only [abs_zero, Real.arccos_zero, lt_irrefl, if_false, Real.sin_pi_div_two, div_one]
  rw [if_neg (by linarith), if_neg (by linarith), show (1 - 1 / 2) * (Real.pi / 2) = Real.pi / 2 / 2 by ring,
    show 1 / 2 * (Real.pi / 2) = Real.pi / 2 / 2 by ring, k]
  simp

/-- C125: for half turns the two quaternions of the same rotation move a point from the middle of the scan to opposite
sides: 1 m ahead goes 1 m to the left with one and 1 m to the right with the other. -/
theorem C125_negative_fails {eps : ℝ} (h1 : eps < 1) :
    (⟨0, 0, 0, 1⟩ : Quat).toMat = (⟨0, 0, 0, -1⟩ : Quat).toMat ∧
    PlaneFactor.residual eps ⟨![1, 0, 0], 0, ![0, 1, 0], 1 / 2⟩ 0 ![0, 0, 0, 1] = 1 ∧
    PlaneFactor.residual eps ⟨![1, 0, 0], 0, ![0, 1, 0], 1 / 2⟩ 0 ![0, 0, 0, -1] = -1 := by
  have h2 : Real.sqrt 2 * Real.sqrt 2 = 2 := Real.mul_self_sqrt (by norm_num)
  have key : ∀ z : ℝ, PlaneFactor.residual eps ⟨![1, 0, 0], 0, ![0, 1, 0], 1 / 2⟩ 0 ![0, 0, 0, z] = z := by
    intro z
    unfold PlaneFactor.residual
    have e : PlaneFactor.moved eps ⟨![1, 0, 0], 0, ![0, 1, 0], 1 / 2⟩ 0 ![0, 0, 0, z] =
        (⟨Real.sqrt 2 / 2, 0, 0, Real.sqrt 2 / 2 * z⟩ : Quat).onVec ![1, 0, 0] := by
      show (1 / 2 : ℝ) • (0 : Fin 3 → ℝ) + (eigenSlerp eps ⟨1, 0, 0, 0⟩ ⟨0, 0, 0, z⟩ (1 / 2)).onVec ![1, 0, 0] = _
      rw [slerp_half h1, smul_zero, zero_add]
    rw [e, dotProd3]
    obtain ⟨-, a1, -⟩ := onVec_apply ⟨Real.sqrt 2 / 2, 0, 0, Real.sqrt 2 / 2 * z⟩ ![1, 0, 0]
    simp only [Pi.sub_apply, a1]
    simp
    linear_combination z / 2 * h2
  exact ⟨by apply mat3_ext <;> simp [Quat.toMat], key 1, key (-1)⟩

/-- C125: nothing keeps the four numbers a unit quaternion: with (0, 0, 0, 2) a point 1 m away ends up 7 m away. -/
theorem C125_length_fails {eps : ℝ} (he : 0 ≤ eps) :
    PlaneFactor.residual eps ⟨![1, 0, 0], 0, ![1, 0, 0], 1⟩ 0 ![0, 0, 0, 2] = -7 := by
  rw [(C125_ends he ⟨![1, 0, 0], 0, ![1, 0, 0], 1⟩ 0 ⟨0, 0, 0, 2⟩).2 rfl]
  simp [Fin.sum_univ_three, Quat.toMat, Matrix.mulVec, dotProduct]
  norm_num

/-- C125: the four numbers are w, x, y, z. In the order in which Eigen keeps them (x, y, z, w) no turn at all is taken
for a half turn. -/
theorem C125_order_fails {eps : ℝ} (he : 0 ≤ eps) :
    PlaneFactor.residual eps ⟨![1, 0, 0], ![1, 0, 0], ![1, 0, 0], 1⟩ 0 ![1, 0, 0, 0] = 0 ∧
    PlaneFactor.residual eps ⟨![1, 0, 0], ![1, 0, 0], ![1, 0, 0], 1⟩ 0 ![0, 0, 0, 1] = -2 := by
  rw [(C125_ends he ⟨![1, 0, 0], ![1, 0, 0], ![1, 0, 0], 1⟩ 0 ⟨1, 0, 0, 0⟩).2 rfl,
    (C125_ends he ⟨![1, 0, 0], ![1, 0, 0], ![1, 0, 0], 1⟩ 0 ⟨0, 0, 0, 1⟩).2 rfl]
  constructor
  · simp [Fin.sum_univ_three, Quat.toMat, Matrix.mulVec, dotProduct]
  · simp [Fin.sum_univ_three, Quat.toMat, Matrix.mulVec, dotProduct]

/-- A quarter turn about the vertical axis: the hypotheses of `C125_residual` and `C125_sign` hold for it. -/
example : 0 ≤ Real.pi / 2 ∧ Real.pi / 2 < Real.pi ∧ Real.cos (Real.pi / 2 / 2) < 1 - 1 / 2 ^ 52 ∧ lenSq ![0, 0, 1] = 1 := by
  have hp := Real.pi_pos
  refine ⟨by linarith, by linarith, ?_, by simp [lenSq]⟩
  rw [show Real.pi / 2 / 2 = Real.pi / 4 by ring, Real.cos_pi_div_four]
  have : Real.sqrt 2 < 3 / 2 := by
    rw [Real.sqrt_lt' (by norm_num)]
    norm_num
  have : (1 : ℝ) / 2 ^ 52 ≤ 1 / 8 := by norm_num
  linarith

end
end Verif
