import Verif.Model.Mrvm
import Mathlib.Analysis.SpecialFunctions.Log.Basic
/-
The probability update of the static map as it is computed: by a table of log-odds, an addition and a
logistic function, all in single precision with the C library's `log` and `exp`
(builder/multi_resolution_voxel_map.{h,cc}).  `Model/Mrvm.updateProb` is the exact value.
-/
namespace Verif

/-- The computed pieces: `odds_table_` (multi_resolution_voxel_map.cc:36-40), the log-odds of the hit and
miss probabilities (63-64), the `float` addition (67), `OddToProbability` (multi_resolution_voxel_map.h:
130-132) and the constants `kMinProb`, `kMaxProb` (.cc:33-34).  Their values depend on rounding and on
the C library; how far they may be off is a hypothesis (`Spec.Accurate`). -/
structure OddsImpl where
  table : ℕ → ℝ
  hit : ℝ
  miss : ℝ
  add : ℝ → ℝ → ℝ
  back : ℝ → ℝ
  lo : ℝ
  hi : ℝ

/-- common/math.h:66-75 `Clamp`. -/
noncomputable def clampReal (v lo hi : ℝ) : ℝ := if v > hi then hi else if v < lo then lo else v

/-- multi_resolution_voxel_map.cc:65-69, 99, 114 : the update of a table index (the product with 256 is
exact, the conversion to `uint8_t` cuts off the fraction). -/
noncomputable def OddsImpl.update (I : OddsImpl) (hit : Bool) (former : ℕ) : ℕ :=
  (⌊clampReal (I.back (I.add (I.table former) (if hit then I.hit else I.miss))) I.lo I.hi * 256⌋).toNat

end Verif
