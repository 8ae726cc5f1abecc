import Verif.Spec.NdtDeriv
import Mathlib.Analysis.Calculus.Deriv.Add
import Mathlib.Analysis.Calculus.Deriv.Mul
import Mathlib.Analysis.SpecialFunctions.Trigonometric.Deriv
import Mathlib.Analysis.SpecialFunctions.ExpDeriv
import Mathlib.Analysis.SpecialFunctions.Pow.Real
import Mathlib.Tactic.LinearCombination
import Mathlib.Tactic.Linarith
import Mathlib.Tactic.FinCases
import Mathlib.Tactic.FieldSimp
import Mathlib.Tactic.NormNum
/-! Proofs about the derivatives of the normal distributions transform. -/
namespace Verif
open Spec

/-! ### sums over threads -/

theorem fold_threads {n : Nat} (f : NdtItem → NdtSum) (schedule : List (Fin n × NdtItem)) (acc : Fin n → NdtSum) :
    (List.ofFn (schedule.foldl (fun (acc : Fin n → NdtSum) e => Function.update acc e.1 (acc e.1 + f e.2)) acc)).sum =
    (List.ofFn acc).sum + (schedule.map (fun e => f e.2)).sum := by
  induction schedule generalizing acc with
  | nil => simp
  | cons e rest ih =>
    rw [List.foldl_cons, ih, List.map_cons, List.sum_cons, ← add_assoc]
    congr 1
    rw [List.sum_ofFn, List.sum_ofFn]
    have : ∀ i, Function.update acc e.1 (acc e.1 + f e.2) i = acc i + Function.update (0 : Fin n → NdtSum) e.1 (f e.2) i := by
      intro i
      by_cases h : i = e.1
      · subst h; simp
      · simp [Function.update_of_ne h]
    simp only [this]
    rw [Finset.sum_add_distrib]
    congr 1
    rw [Finset.sum_update_of_mem (Finset.mem_univ _)]
    simp

/-! ### derivatives of a transformed point -/

macro "trig_deriv" : tactic => `(tactic| (
  apply HasDerivAt.congr_deriv
  case h =>
    repeat first
      | exact hasDerivAt_const _ _
      | exact Real.hasDerivAt_cos _
      | exact Real.hasDerivAt_sin _
      | exact hasDerivAt_id' _
      | apply HasDerivAt.fun_add
      | apply HasDerivAt.fun_sub
      | apply HasDerivAt.fun_mul
      | apply HasDerivAt.fun_neg
  case h' => ring))

/-- The true sines and cosines. -/
noncomputable def trueTrig (p : NdtPose) : NdtTrig :=
  ⟨Real.cos (p 3), Real.sin (p 3), Real.cos (p 4), Real.sin (p 4), Real.cos (p 5), Real.sin (p 5)⟩

theorem plain_trig (p : NdtPose) (h : ∀ i, 3 ≤ i → Plain (p i)) : ndtTrig p = trueTrig p := by
  have hc : ∀ a, Plain a → nearCos a = Real.cos a ∧ nearSin a = Real.sin a := by
    intro a ha
    unfold nearCos nearSin
    rcases ha with ha | ha
    · subst ha; simp
    · rw [if_neg (by norm_num; norm_num at ha; linarith), if_neg (by norm_num; norm_num at ha; linarith)]
      exact ⟨rfl, rfl⟩
  unfold ndtTrig trueTrig
  rw [(hc _ (h 3 (by decide))).1, (hc _ (h 3 (by decide))).2, (hc _ (h 4 (by decide))).1, (hc _ (h 4 (by decide))).2,
    (hc _ (h 5 (by decide))).1, (hc _ (h 5 (by decide))).2]

theorem move_deriv (p : NdtPose) (x : Fin 3 → ℝ) (i : Fin 6) (k : Fin 3) :
    HasDerivAt (fun t => ndtTransform (Function.update p i t) x k) (pointGradient (trueTrig p) x i k) (p i) := by
  fin_cases i <;> fin_cases k <;>
    simp [ndtTransform, pointGradient, trueTrig, jAng, dot3, Function.update] <;> trig_deriv

/-- What the second derivative by the angle about y, twice, lacks. -/
noncomputable def missing (p : NdtPose) (x : Fin 3 → ℝ) (i j : Fin 6) : Fin 3 → ℝ :=
  if i = 4 ∧ j = 4 then ![-2 * Real.sin (p 4) * x 2, 0, 0] else 0

set_option maxHeartbeats 1600000 in
theorem gradient_deriv (p : NdtPose) (x : Fin 3 → ℝ) (i j : Fin 6) (k : Fin 3) :
    HasDerivAt (fun t => pointGradient (trueTrig (Function.update p j t)) x i k)
      (pointHessian (trueTrig p) x i j k + missing p x i j k) (p j) := by
  fin_cases i <;> fin_cases j <;> fin_cases k <;>
    simp [pointGradient, pointHessian, missing, trueTrig, jAng, hAng, dot3, Function.update] <;>
    first | exact hasDerivAt_const _ _ | trig_deriv

end Verif
