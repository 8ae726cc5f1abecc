import Verif.Model.SaveMaps
/-! Vocabulary for C34. -/
namespace Verif.Spec
open Verif
variable {P : Type}

/-- All global points of some submaps, in order. -/
def points (g : List (SaveSubmap P)) : List P :=
  g.flatMap fun s => s.flatMap fun f => f.cloud.map f.toGlobal

/-- All (position, global cloud) pairs of some submaps, in order. -/
def scans (g : List (SaveSubmap P)) : List (P × List P) :=
  g.flatMap fun s => s.map fun f => (f.position, f.cloud.map f.toGlobal)

/-- `groups` splits `submaps` into consecutive runs of `step` submaps, only the last may be
shorter, none is empty. -/
structure Split (step : Nat) (submaps : List (SaveSubmap P)) (groups : List (List (SaveSubmap P))) :
    Prop where
  all : groups.flatten = submaps
  nonempty : ∀ g ∈ groups, g ≠ []
  size : ∀ g ∈ groups, g.length ≤ step
  full : ∀ i (h : i < groups.length), i + 1 < groups.length → groups[i].length = step

end Verif.Spec
