import Mathlib.Geometry.Euclidean.Angle.Unoriented.Basic
import Mathlib.Analysis.InnerProductSpace.PiL2
import Mathlib.LinearAlgebra.CrossProduct
import Verif.Model.GpsInit
/-! What it means that the readings determine the GPS frame. -/
namespace Verif.Spec

/-- A rotation. -/
def IsTurn3 (r : Matrix (Fin 3) (Fin 3) ℝ) : Prop := r.transpose * r = 1 ∧ r.det = 1

/-- The direction the vehicle looks: the first column. -/
noncomputable def heading (r : Matrix (Fin 3) (Fin 3) ℝ) : EuclideanSpace ℝ (Fin 3) :=
  WithLp.toLp 2 fun i => r i 0

/-- The angle between two headings, in [0, π]. -/
noncomputable def headingChange (a b : Matrix (Fin 3) (Fin 3) ℝ) : ℝ :=
  InnerProductGeometry.angle (heading a) (heading b)

/-- The frame `coord` explains the readings: each is where the antenna of the vehicle was. -/
def Explains (coord : Rigid ℝ) (lever : Fin 3 → ℝ) (poses : Nat → Rigid ℝ)
    (readings : List (Nat × (Fin 3 → ℝ))) : Prop :=
  IsTurn3 coord.rot ∧ ∀ c ∈ readings, antennaAt coord (poses c.1) lever = c.2

/-- Position of the antenna in the map. -/
noncomputable def antenna (pose : Rigid ℝ) (lever : Fin 3 → ℝ) : Fin 3 → ℝ :=
  fun i => (pose.rot.mulVec lever) i + pose.trans i

/-- Three points span a triangle. -/
def Triangle (p q r : Fin 3 → ℝ) : Prop := crossProduct (q - p) (r - p) ≠ 0

/-- A rotation about the vertical. -/
def IsLevel (r : Matrix (Fin 3) (Fin 3) ℝ) : Prop :=
  IsTurn3 r ∧ r 0 2 = 0 ∧ r 1 2 = 0 ∧ r 2 2 = 1

/-- The readings of a list of frames, with their numbers from `k` on. -/
def readingsFrom : Nat → List GpsInitStep → List (Nat × (Fin 3 → ℝ))
  | _, [] => []
  | k, s :: ss =>
    match s.reading with
    | some e => (k, e) :: readingsFrom (k + 1) ss
    | none => readingsFrom (k + 1) ss

/-- Enough seen when the frame `s` comes with `before` ahead of it: enough readings before it, a
reading itself, and a heading that has turned far enough from the first. -/
def Ready (num : Int) (angle : ℝ) (before : List GpsInitStep) (s : GpsInitStep) : Prop :=
  s.reading.isSome ∧ 0 ≤ num ∧ num ≤ ((readingsFrom 0 before).length : Int) ∧
    ∃ p ∈ s.poses, ∃ p0, s.poses.head? = some p0 ∧ angle ≤ headingChange p0.rot p.rot

end Verif.Spec
