import Verif.Model.PathMatch
import Verif.Spec.Euler
import Verif.Spec.MathHelpers
/-! What matching a GPS track to a path is to give (C105). -/
namespace Verif.Spec
noncomputable section

/-- Every map position is the GPS position turned by `a` about the vertical axis and moved by `t`. -/
def SameTrack {n : Nat} (l : List (TrackPoint n)) (a : ℝ) (t : PathVec n) : Prop :=
  ∀ p ∈ l, p.map 0 = Real.cos a * p.enu 0 - Real.sin a * p.enu 1 + t 0 ∧
    p.map 1 = Real.sin a * p.enu 0 + Real.cos a * p.enu 1 + t 1 ∧
    ∀ i : Fin n, p.map i.succ.succ = p.enu i.succ.succ + t i.succ.succ

/-- Two positions half the track apart are at least five metres from each other (seen from above). -/
def LongTrack {n : Nat} (l : List (TrackPoint n)) : Prop :=
  ∃ i p q, l[i]? = some p ∧ l[l.length / 2 + i]? = some q ∧ i < l.length / 2 ∧
    25 ≤ (q.map 0 - p.map 0) ^ 2 + (q.map 1 - p.map 1) ^ 2

/-- The solver of a linear system gives zero when zero is a least squares solution (as one that takes
the unknowns which are not determined to be zero). -/
def KeepsZero (solve : List ((Fin 3 → ℝ) × ℝ) → Fin 3 → ℝ) : Prop :=
  ∀ rows, (∀ k, (rows.map fun r => r.1 k * r.2).sum = 0) → solve rows = 0

/-- A minimiser stays where all residuals are zero. -/
def StaysAt {T : Type} (residual : (Fin 3 → ℝ) → Euler → T → ℝ)
    (minimise : List T → (Fin 3 → ℝ) × Euler → (Fin 3 → ℝ) × Euler) : Prop :=
  ∀ l s, (∀ p ∈ l, residual s.1 s.2 p = 0) → minimise l s = s

/-- The odometer pose (rotation `A`, translation `b`) puts the vehicle at `x` when the odometer is mounted
at rotation `R` and translation `t`: mounting and then driving is the same as going to `x` and mounting. -/
def OdomPosition (R : Mat3) (t : Fin 3 → ℝ) (A : Mat3) (b : Fin 3 → ℝ) (x : Fin 3 → ℝ) : Prop :=
  R.mulVec x + t = A.mulVec t + b

/-- Matching a track by moving its positions themselves: a step turns all of them about the origin and
shifts them; the equations of a step are made by `row` from a moved position and its place on the path;
the last step is one that changes next to nothing. -/
def movedTrack (row : PathVec 0 → TrackPoint 0 → (Fin 3 → ℝ) × ℝ)
    (solve : List ((Fin 3 → ℝ) × ℝ) → Fin 3 → ℝ) (l : List (TrackPoint 0)) :
    Nat → (TrackPoint 0 → PathVec 0) → TrackPoint 0 → PathVec 0
  | 0, f => f
  | steps + 1, f =>
    let s := solve (l.map fun p => row (f p) p)
    let g : TrackPoint 0 → PathVec 0 := fun p =>
      ![Real.cos (s 0) * f p 0 - Real.sin (s 0) * f p 1 + s 1,
        Real.sin (s 0) * f p 0 + Real.cos (s 0) * f p 1 + s 2]
    if Real.sqrt (s 1 ^ 2 + s 2 ^ 2) < 1 / 10000000000 ∧
        Real.sqrt (2 * (Real.cos (s 0) - 1) ^ 2 + 2 * Real.sin (s 0) ^ 2) < 1 / 10000000000 then g
    else movedTrack row solve l steps g

end
end Verif.Spec
