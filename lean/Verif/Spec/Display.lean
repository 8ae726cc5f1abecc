import Verif.Model.Display
import Verif.Spec.Isam
/-! What the display should show. -/
namespace Verif.Spec

/-- A loop between submaps that do not follow one another directly. -/
def IsFarLoop {T : Type} (e : Nat × Nat × T) : Bool := e.2.1 ≠ e.1 + 1

/-- Within 30 m on the ground and 2 m in height. -/
def Nearby {C : Type} (n s : ShownMap C) : Prop :=
  (s.x - n.x) ^ 2 + (s.y - n.y) ^ 2 < 30 ^ 2 ∧ |s.z - n.z| < 2

end Verif.Spec
