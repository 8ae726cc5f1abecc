import Verif.Model.CloudIO
import Verif.Model.Geom
import Mathlib.Algebra.Order.Field.Basic
/-! Specification of point cloud filtering, independent of how the filters compute. -/
namespace Verif.Spec

/-- `inl` and `outl` are increasing, disjoint, and list each of `0..n-1` exactly once. -/
structure Splits (n : Nat) (inl outl : List Nat) : Prop where
  inl_increasing : inl.Pairwise (· < ·)
  outl_increasing : outl.Pairwise (· < ·)
  disjoint : ∀ i ∈ inl, i ∉ outl
  complete : ∀ i, i < n ↔ i ∈ inl ∨ i ∈ outl

/-- The output of a filter for `input`: the inlier points in order, with the input's stamp. -/
structure Filtered {R : Type} (input : InnerCloud R) (inl outl : List Nat) (out : InnerCloud R) : Prop where
  splits : Splits input.points.length inl outl
  points : out.points.map some = inl.map (fun i => input.points[i]?)
  stamp : out.stamp = input.stamp

/-- The distance of the point from the origin is in the closed interval `[min, max]`, written with
squares. -/
def InRange {R : Type} [Field R] [LinearOrder R] (min max : R) (p : InnerPoint R) : Prop :=
  (min ≤ 0 ∨ min ^ 2 ≤ p.x ^ 2 + p.y ^ 2 + p.z ^ 2) ∧ 0 ≤ max ∧ p.x ^ 2 + p.y ^ 2 + p.z ^ 2 ≤ max ^ 2

/-- What is needed of a square root function. -/
def IsSqrt {R : Type} [Field R] [LinearOrder R] (sqrt : R → R) : Prop :=
  ∀ a, 0 ≤ a → 0 ≤ sqrt a ∧ sqrt a ^ 2 = a

/-- Mean of a list. -/
def mean (xs : List Rat) : Rat := xs.sum / xs.length

end Verif.Spec
