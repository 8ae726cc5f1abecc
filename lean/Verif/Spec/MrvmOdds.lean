import Verif.Model.MrvmOdds
/-! What is asked of the numerical pieces of the probability update. -/
namespace Verif.Spec

/-- Log-odds of a probability. -/
noncomputable def logOdds (p : ℝ) : ℝ := Real.log (p / (1 - p))

/-- The inverse. -/
noncomputable def logistic (x : ℝ) : ℝ := 1 - 1 / (1 + Real.exp x)

/-- Every piece is within `δ` of its exact value.  Single precision is much better: all log-odds in use
are below 2.2 in size, so a rounding is off by at most 2^-23. -/
structure Accurate (I : OddsImpl) (hit miss δ : ℝ) : Prop where
  table : ∀ n : ℕ, 25 ≤ n → n ≤ 230 → |I.table n - logOdds (n / 256)| ≤ δ
  hit : |I.hit - logOdds hit| ≤ δ
  miss : |I.miss - logOdds miss| ≤ δ
  add : ∀ x y, |x| ≤ 5 / 2 → |y| ≤ 5 / 2 → |I.add x y - (x + y)| ≤ δ
  back : ∀ x, |x| ≤ 5 → |I.back x - logistic x| ≤ δ
  lo : |I.lo - 1 / 10| ≤ δ
  hi : |I.hi - 9 / 10| ≤ δ

/-- The index after a history of hits (`true`) and misses (`false`), starting from unknown. -/
noncomputable def indexAfter (upd : Bool → ℕ → ℕ) (history : List Bool) : ℕ :=
  history.foldl (fun n h => upd h n) 128

end Verif.Spec
