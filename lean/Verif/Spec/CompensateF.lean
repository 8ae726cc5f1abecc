import Verif.Model.CompensateF
import Verif.Spec.Slerp
namespace Verif.Spec
noncomputable section

/-- What IEEE 754 and the C library promise: results are off by half a unit in the last place at most (integers up to
2^53 are exact), arc cosine and sine by four units. -/
structure IeeeTrig (o : TrigOps) : Prop where
  int : ∀ n : Int, |n| ≤ 2 ^ 53 → o.f64 n = n
  f64 : ∀ x, |x| ≤ 2 ^ 1023 → |o.f64 x - x| ≤ 1 / 2 ^ 53 * |x| + 1 / 2 ^ 1075
  f32 : ∀ x, |x| ≤ 2 ^ 127 → |o.f32 x - x| ≤ 1 / 2 ^ 24 * |x| + 1 / 2 ^ 150
  acos : ∀ x, 0 ≤ x → x ≤ 1 → |o.acos x - Real.arccos x| ≤ 1 / 2 ^ 50 * Real.arccos x + 1 / 2 ^ 1072
  sin : ∀ x, |x| ≤ 4 → |o.sin x - Real.sin x| ≤ 1 / 2 ^ 50 * |Real.sin x| + 1 / 2 ^ 1072

/-- The place of a point after a rigid body has turned by `S` and moved by `v`. -/
def placeAfter (S : Mat3) (v : Fin 3 → ℝ) (p : InnerPoint ℝ) : Fin 3 → ℝ :=
  fun i => S i 0 * p.x + S i 1 * p.y + S i 2 * p.z + v i

end
end Verif.Spec
