import Verif.Props.ImuTracker
/-! C70: the orientation depends on the poses added in between. -/
namespace Verif
open Spec

/-- The tracker advanced to a time. -/
noncomputable def advanced (s : ImuState) (t : ℝ) : ImuState :=
  { s with
    time := t
    o := (s.o.mul (eulerQuat ⟨s.omega 0 * (t - s.time), s.omega 1 * (t - s.time), s.omega 2 * (t - s.time)⟩)).normalize
    g := (eulerQuat ⟨s.omega 0 * (t - s.time), s.omega 1 * (t - s.time), s.omega 2 * (t - s.time)⟩).conj.act s.g }

theorem advance_ok (axis : (Fin 3 → ℝ) → (Fin 3 → ℝ) → Fin 3 → ℝ) (tau : ℝ) (s : ImuState) (t : ℝ) (h : s.time ≤ t) :
    imuStep axis tau s (.advance t) = .ok (advanced s t) := by
  unfold imuStep
  dsimp only
  rw [Outcome.check_pos h]
  rfl

/-- C70 fails for the value of the orientation: with the same turn rate (a quarter turn per second about x
and y) the tracker is at a different rotation after two seconds if it was advanced after one second, as it
is when a pose is added then. -/
theorem C70_split_fails (axis : (Fin 3 → ℝ) → (Fin 3 → ℝ) → Fin 3 → ℝ) (tau : ℝ) : ∃ s1 s2 : ImuState,
    imuRun axis tau (imuStart 0) [.rotation ![Real.pi / 2, Real.pi / 2, 0], .advance 2] = .ok s1 ∧
    imuRun axis tau (imuStart 0) [.rotation ![Real.pi / 2, Real.pi / 2, 0], .advance 1, .advance 2] = .ok s2 ∧
    s1.o.toMat 0 0 = -1 ∧ s2.o.toMat 0 0 = 0 := by
  have hone : (⟨1, 0, 0, 0⟩ : Quat).IsUnit := by
    show (1 : ℝ) ^ 2 + 0 ^ 2 + 0 ^ 2 + 0 ^ 2 = 1
    norm_num
  have h1 : ∀ q : Quat, q.IsUnit → ((⟨1, 0, 0, 0⟩ : Quat).mul q).normalize = q := by
    intro q hq
    rw [Quat.normalize_unit (Quat.unit_mul hone hq)]
    simp [Quat.mul]
  have hs2 := Real.sq_sqrt (by norm_num : (0 : ℝ) ≤ 2)
  have e1 : eulerQuat ⟨Real.pi / 2, Real.pi / 2, 0⟩ = ⟨1 / 2, 1 / 2, 1 / 2, -1 / 2⟩ := by
    have : Real.pi / 2 / 2 = Real.pi / 4 := by ring
    simp only [eulerQuat, Quat.mul, this, Real.cos_pi_div_four, Real.sin_pi_div_four, zero_div, Real.cos_zero, Real.sin_zero,
      Quat.mk.injEq]
    refine ⟨?_, ?_, ?_, ?_⟩ <;> nlinarith
  have e2 : eulerQuat ⟨Real.pi, Real.pi, 0⟩ = ⟨0, 0, 0, -1⟩ := by
    simp [eulerQuat, Quat.mul]
  have u1 : (⟨1 / 2, 1 / 2, 1 / 2, -1 / 2⟩ : Quat).IsUnit := by
    show ((1 : ℝ) / 2) ^ 2 + (1 / 2) ^ 2 + (1 / 2) ^ 2 + (-1 / 2) ^ 2 = 1
    norm_num
  have u2 : (⟨0, 0, 0, -1⟩ : Quat).IsUnit := by
    show (0 : ℝ) ^ 2 + 0 ^ 2 + 0 ^ 2 + (-1) ^ 2 = 1
    norm_num
  have r1 : (![Real.pi / 2, Real.pi / 2, 0] : Fin 3 → ℝ) 0 = Real.pi / 2 := rfl
  have r2 : (![Real.pi / 2, Real.pi / 2, 0] : Fin 3 → ℝ) 1 = Real.pi / 2 := rfl
  have r3 : (![Real.pi / 2, Real.pi / 2, 0] : Fin 3 → ℝ) 2 = 0 := rfl
  have two : (⟨Real.pi / 2 * (2 - 0), Real.pi / 2 * (2 - 0), 0 * (2 - 0)⟩ : Euler) = ⟨Real.pi, Real.pi, 0⟩ := by
    simp
  have onestep : ∀ a b : ℝ, b - a = 1 → (⟨Real.pi / 2 * (b - a), Real.pi / 2 * (b - a), 0 * (b - a)⟩ : Euler) = ⟨Real.pi / 2, Real.pi / 2, 0⟩ := by
    intro a b h
    rw [h]
    simp
  let s0 : ImuState := { imuStart 0 with omega := ![Real.pi / 2, Real.pi / 2, 0] }
  refine ⟨advanced s0 2, advanced (advanced s0 1) 2, ?_, ?_, ?_, ?_⟩
  · show (imuStep axis tau s0 (.advance 2) >>= fun s => imuRun axis tau s []) = _
    rw [advance_ok axis tau s0 2 (by show (0 : ℝ) ≤ 2; norm_num)]
    rfl
  · show (imuStep axis tau s0 (.advance 1) >>= fun s => imuStep axis tau s (.advance 2) >>= fun s => imuRun axis tau s []) = _
    rw [advance_ok axis tau s0 1 (by show (0 : ℝ) ≤ 1; norm_num), Outcome.bind_ok,
      advance_ok axis tau _ 2 (by show (1 : ℝ) ≤ 2; norm_num)]
    rfl
  · show ((⟨1, 0, 0, 0⟩ : Quat).mul (eulerQuat ⟨Real.pi / 2 * (2 - 0), Real.pi / 2 * (2 - 0), 0 * (2 - 0)⟩)).normalize.toMat 0 0 = -1
    rw [two, e2, h1 _ u2]
    simp [Quat.toMat]
    norm_num
  · show ((((⟨1, 0, 0, 0⟩ : Quat).mul (eulerQuat ⟨Real.pi / 2 * (1 - 0), Real.pi / 2 * (1 - 0), 0 * (1 - 0)⟩)).normalize).mul
      (eulerQuat ⟨Real.pi / 2 * (2 - 1), Real.pi / 2 * (2 - 1), 0 * (2 - 1)⟩)).normalize.toMat 0 0 = 0
    rw [onestep 0 1 (by norm_num), onestep 1 2 (by norm_num), e1, h1 _ u1, Quat.normalize_unit (Quat.unit_mul u1 u1)]
    simp [Quat.toMat, Quat.mul]
    norm_num

end Verif
