import Verif.Model.ViewGraph
/-! What a history of calls should leave in the view graph. -/
namespace Verif.Spec

/-- The poses given to vertex `i`, oldest first. -/
def posesOf {P : Type} (i : Int) : List (VgOp P) → List P
  | [] => []
  | .vertex j p :: l => if j = i then p :: posesOf i l else posesOf i l
  | _ :: l => posesOf i l

/-- The edges leaving `a` that should be kept: those given when both ends had been inserted. `past`
is the history before the list. -/
def keptFrom {P : Type} (a : Int) (past : List (VgOp P)) : List (VgOp P) → List (Int × P)
  | [] => []
  | .edge x b t :: l =>
    (if x = a ∧ posesOf a past ≠ [] ∧ posesOf b past ≠ [] then [(b, t)] else []) ++
      keptFrom a (past ++ [.edge x b t]) l
  | op :: l => keptFrom a (past ++ [op]) l

/-- All positions inserted. -/
def positions {P : Type} (pos : P → Rat × Rat) : List (VgOp P) → List (Rat × Rat)
  | [] => []
  | .vertex _ p :: l => pos p :: positions pos l
  | _ :: l => positions pos l

end Verif.Spec
