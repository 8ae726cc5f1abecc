import Verif.Props.LoopCheck
import Verif.Props.Euler
import Mathlib.Analysis.SpecialFunctions.Trigonometric.Bounds
/-! Property theorem C39, rotations: with the Euler angles of `common/math.h` (Model/Euler). -/
namespace Verif
open Matrix Spec

/-- `RotationMatrixToEulerAngles(..).norm()`. -/
noncomputable def eulerNorm (M : Mat3) : ℝ :=
  Real.sqrt ((toEuler M).x ^ 2 + (toEuler M).y ^ 2 + (toEuler M).z ^ 2)

theorem level_of_small {M : Mat3} (h : IsRot3 M) (hs : eulerNorm M ≤ 1 / 50) : 1 / 1000000 ≤ level M := by
  by_contra hl
  have hl := not_le.1 hl
  have q := rotEq h
  have hsq := sq_sqrt_level (R := M)
  have h0 : 0 ≤ level M := Real.sqrt_nonneg _
  have hy : Real.sin (toEuler M).y = -M 2 0 := by
    unfold toEuler
    dsimp only
    rw [level_eq, if_pos hl]
    dsimp only
    rw [sin_atan2 one_pos (by rw [hsq]; linarith [q.c0]), div_one]
  have hyn : |(toEuler M).y| ≤ eulerNorm M := by
    unfold eulerNorm
    rw [← Real.sqrt_sq_eq_abs]
    exact Real.sqrt_le_sqrt (by nlinarith [sq_nonneg (toEuler M).x, sq_nonneg (toEuler M).z])
  have h1 : |Real.sin (toEuler M).y| ≤ 1 / 50 := le_trans Real.abs_sin_le_abs (le_trans hyn hs)
  rw [hy, abs_neg] at h1
  have h2 : M 2 0 ^ 2 ≤ (1 / 50) ^ 2 := by
    rw [← sq_abs]
    exact pow_le_pow_left₀ (abs_nonneg _) h1 2
  have := q.c0
  nlinarith

theorem trace_small (x y z : ℝ) (h : Real.sqrt (x ^ 2 + y ^ 2 + z ^ 2) ≤ 1 / 50) :
    3 - (Real.cos z * Real.cos y + (Real.sin z * Real.sin y * Real.sin x + Real.cos z * Real.cos x) + Real.cos y * Real.cos x) ≤
      101 / 100 * (x ^ 2 + y ^ 2 + z ^ 2) := by
  have hx := Real.one_sub_sq_div_two_le_cos (x := x)
  have hy := Real.one_sub_sq_div_two_le_cos (x := y)
  have hz := Real.one_sub_sq_div_two_le_cos (x := z)
  have h1 : 1 - Real.cos z * Real.cos y ≤ (1 - Real.cos z) + (1 - Real.cos y) := by
    nlinarith [Real.cos_le_one z, Real.cos_le_one y]
  have h2 : 1 - Real.cos z * Real.cos x ≤ (1 - Real.cos z) + (1 - Real.cos x) := by
    nlinarith [Real.cos_le_one z, Real.cos_le_one x]
  have h3 : 1 - Real.cos y * Real.cos x ≤ (1 - Real.cos y) + (1 - Real.cos x) := by
    nlinarith [Real.cos_le_one y, Real.cos_le_one x]
  have hxn : |x| ≤ 1 / 50 := by
    refine le_trans ?_ h
    rw [← Real.sqrt_sq_eq_abs]
    exact Real.sqrt_le_sqrt (by nlinarith [sq_nonneg y, sq_nonneg z])
  have h4 : |Real.sin z * Real.sin y * Real.sin x| ≤ (|z| * |y|) * (1 / 50) := by
    rw [abs_mul, abs_mul]
    exact mul_le_mul (mul_le_mul Real.abs_sin_le_abs Real.abs_sin_le_abs (abs_nonneg _) (abs_nonneg _))
      (le_trans Real.abs_sin_le_abs hxn) (abs_nonneg _) (by positivity)
  have h5 : |z| * |y| ≤ (z ^ 2 + y ^ 2) / 2 := by
    nlinarith [sq_nonneg (|z| - |y|), sq_abs z, sq_abs y]
  have h6 := neg_abs_le (Real.sin z * Real.sin y * Real.sin x)
  nlinarith [sq_nonneg x]

theorem frob2_sub_one {M : Mat3} (h : IsRot3 M) : frob2 (M - 1) = 2 * (3 - (M 0 0 + M 1 1 + M 2 2)) := by
  have q := rotEq h
  have c0 := q.c0
  have c1 := q.c1
  have c2 := q.c2
  simp only [frob2, Fin.sum_univ_three, Matrix.sub_apply]
  simp
  linarith

theorem eulerNorm_bound {M : Mat3} (h : IsRot3 M) (hs : eulerNorm M ≤ 1 / 50) :
    0 ≤ eulerNorm M ∧ frob2 (M - 1) ≤ 202 / 100 * eulerNorm M ^ 2 := by
  refine ⟨Real.sqrt_nonneg _, ?_⟩
  have he := C63_exact M h (level_of_small h hs)
  rw [C63_meaning, rot_product] at he
  have e0 := congrFun (congrFun he 0) 0
  have e1 := congrFun (congrFun he 1) 1
  have e2 := congrFun (congrFun he 2) 2
  simp at e0 e1 e2
  rw [frob2_sub_one h, ← e0, ← e1, ← e2]
  have := trace_small _ _ _ hs
  unfold eulerNorm
  rw [Real.sq_sqrt (by positivity)]
  linarith

/-- C39, rotation: if the edges are accepted, the rotation that takes the orientation from one edge to the
orientation from another one has an angle of at most 0.0404 rad, that is, twice the tolerance and one
per cent (the trace of a rotation by an angle t is 1 + 2 cos t). Missing: the one per cent; the norm of
the Euler angles is not a distance. -/
theorem C39_rotation_partial {pose : Nat → Rigid ℝ} {edges : List (LoopEdge ℝ)} (hp : ∀ i, IsRot3 (pose i).rot)
    (hr : ∀ e ∈ edges, IsRot3 e.transform.rot) (h : checkResult eulerNorm pose edges = true) :
    ∀ a ∈ edges, ∀ b ∈ edges,
      1 + 2 * Real.cos (2 * (1 / 50) * (101 / 100)) ≤ ((impliedRotation pose a).transpose * impliedRotation pose b).trace := by
  have conv : ∀ M : Mat3, IsRot3 M → IsRot M := fun M hM => ⟨mul_eq_one_comm.1 hM.1, hM.1⟩
  have hm : ∀ e ∈ edges, IsRot (impliedRotation pose e) := fun e he => isRot_mul (conv _ (hp _)) (conv _ (hr e he))
  have hd : ∀ e ∈ edges, (impliedRotation pose e).det = 1 := by
    intro e he
    unfold impliedRotation
    rw [Matrix.det_mul, (hp _).2, (hr e he).2, one_mul]
  have key := source_rotation (euler := eulerNorm) (pose := pose) (edges := edges) hm (κ := 202 / 100) (by norm_num)
    (fun M hM hdM hs => eulerNorm_bound ⟨hM.2, hdM⟩ hs) hd h
  intro a ha b hb
  have hk : frob2 (impliedRotation pose a - impliedRotation pose b) ≤ 202 / 100 * (2 * (1 / 50)) ^ 2 := key a ha b hb
  have hM : IsRot3 ((impliedRotation pose a).transpose * impliedRotation pose b) := by
    refine ⟨?_, ?_⟩
    · rw [Matrix.transpose_mul, Matrix.transpose_transpose, Matrix.mul_assoc, ← Matrix.mul_assoc (impliedRotation pose a),
        (hm a ha).1, Matrix.one_mul, (hm b hb).2]
    · rw [Matrix.det_mul, Matrix.det_transpose, hd a ha, hd b hb, one_mul]
  have hf : frob2 ((impliedRotation pose a).transpose * impliedRotation pose b - 1) = frob2 (impliedRotation pose a - impliedRotation pose b) := by
    have h1 := frob2_rot (hm a ha).1 (impliedRotation pose b - impliedRotation pose a)
    rw [Matrix.mul_sub, (hm a ha).2] at h1
    rw [h1]
    unfold frob2
    refine Finset.sum_congr rfl fun i _ => Finset.sum_congr rfl fun j _ => ?_
    simp only [Matrix.sub_apply]
    ring
  rw [frob2_sub_one hM] at hf
  have ht : ((impliedRotation pose a).transpose * impliedRotation pose b).trace =
      ((impliedRotation pose a).transpose * impliedRotation pose b) 0 0 + ((impliedRotation pose a).transpose * impliedRotation pose b) 1 1 +
      ((impliedRotation pose a).transpose * impliedRotation pose b) 2 2 := by
    rw [Matrix.trace_fin_three]
  rw [ht]
  have hc := Real.cos_bound (x := 2 * (1 / 50) * (101 / 100)) (by norm_num [abs_of_pos])
  have hc' := (abs_le.1 hc).2
  rw [abs_of_pos (by norm_num : (0 : ℝ) < 2 * (1 / 50) * (101 / 100))] at hc'
  norm_num at hc' hk ⊢
  linarith

theorem eulerNorm_one : eulerNorm (1 : Mat3) = 0 := by
  unfold eulerNorm toEuler
  have h : Real.sqrt ((1 : Mat3) 0 0 * (1 : Mat3) 0 0 + (1 : Mat3) 1 0 * (1 : Mat3) 1 0) = 1 := by simp
  dsimp only
  rw [h, if_neg (by norm_num)]
  have h0 : atan2 0 1 = 0 := by
    unfold atan2
    exact Complex.arg_one
  simp [h0]

/-- The hypotheses of `C39_rotation_partial` are met by two edges 0.1 m apart. -/
example : ∃ (pose : Nat → Rigid ℝ) (edges : List (LoopEdge ℝ)), (∀ i, IsRot3 (pose i).rot) ∧
    (∀ e ∈ edges, IsRot3 e.transform.rot) ∧ checkResult eulerNorm pose edges = true := by
  refine ⟨fun _ => ⟨1, 0⟩, [⟨0, ⟨1, 0⟩⟩, ⟨1, ⟨1, ![1 / 10, 0, 0]⟩⟩], fun _ => by simp [IsRot3], ?_, ?_⟩
  · intro e he
    simp only [List.mem_cons, List.not_mem_nil, or_false] at he
    rcases he with rfl | rfl <;> simp [IsRot3]
  · simp [checkResult, edgeAgrees, LoopEdge.source, Rigid.mul, Rigid.between, sqNorm_eq, eulerNorm_one]
    norm_num

end Verif
