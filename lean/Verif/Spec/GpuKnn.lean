import Verif.Model.GpuKnn
/-! The eight nearest neighbours. -/
namespace Verif.Spec

/-- The points of an array of coordinates. -/
def arrayPoint (a : List Rat) (i : Nat) : Fin 3 → Rat :=
  ![a.getD (3 * i) 0, a.getD (3 * i + 1) 0, a.getD (3 * i + 2) 0]

def distSq (p q : Fin 3 → Rat) : Rat := (p 0 - q 0) ^ 2 + (p 1 - q 1) ^ 2 + (p 2 - q 2) ^ 2

/-- `ks` are eight different ones of the points `0 … n - 1`, and no other is nearer to `q`. -/
def EightNearest (n : Nat) (point : Nat → (Fin 3 → Rat)) (q : Fin 3 → Rat) (ks : List Nat) : Prop :=
  ks.length = 8 ∧ ks.Nodup ∧ (∀ k ∈ ks, k < n) ∧
  ∀ k ∈ ks, ∀ l < n, l ∉ ks → distSq (point k) q ≤ distSq (point l) q

/-- Every pair of neighbour and query once, in any order. -/
def AllPairs (m : Nat) (order : List (Nat × Nat)) : Prop :=
  order.Nodup ∧ ∀ i j : Nat, (i, j) ∈ order ↔ i < 8 ∧ j < m

end Verif.Spec
