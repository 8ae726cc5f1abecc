import Verif.Model.LoopCheck
/-! Vocabulary for C39: where a loop edge puts the newest frame. -/
namespace Verif.Spec
open Verif
variable {R : Type} [Field R] [LinearOrder R] [IsStrictOrderedRing R]

/-- Position of the newest frame: the edge gives it in the frame of the earlier one. -/
def impliedPosition (pose : Nat → Rigid R) (e : LoopEdge R) (i : Fin 3) : R :=
  (pose e.target).rot i 0 * e.transform.trans 0 + (pose e.target).rot i 1 * e.transform.trans 1 +
    (pose e.target).rot i 2 * e.transform.trans 2 + (pose e.target).trans i

/-- Orientation of the newest frame. -/
def impliedRotation (pose : Nat → Rigid R) (e : LoopEdge R) : Matrix (Fin 3) (Fin 3) R :=
  (pose e.target).rot * e.transform.rot

def sqDistance (a b : Fin 3 → R) : R := (a 0 - b 0) ^ 2 + (a 1 - b 1) ^ 2 + (a 2 - b 2) ^ 2

end Verif.Spec
