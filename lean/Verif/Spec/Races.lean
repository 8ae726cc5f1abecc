import Verif.Model.Races
/-! Specification for C77: what a data race is. -/
namespace Verif.Spec

/-- The datum an operation touches, and whether it changes it. -/
def touches : RaceOp → Option (Datum × Bool)
  | .lock _ => none
  | .read d => some (d, false)
  | .write d => some (d, true)

/-- Two threads are about to touch the datum `d`, and at least one of them changes it. -/
def RaceOn {n : Nat} (d : Datum) (w : Fin n → RThread) : Prop :=
  ∃ i j, i ≠ j ∧ ∃ a b : Bool, ((w i).rest.head?.bind touches = some (d, a)) ∧
    ((w j).rest.head?.bind touches = some (d, b)) ∧ (a || b) = true

/-- A call that takes a lock before it touches anything. -/
def TakesLocks : RaceCall → Prop
  | .cloudPointer _ => False
  | .insertFrame _ => False
  | .transformToNext _ => False
  | .framePose _ => False
  | _ => True

/-- A call that remembers a file name. -/
def Saves : RaceCall → Prop
  | .setMatchedSave _ _ _ => True
  | .cloudSave _ => True
  | _ => False

end Verif.Spec
