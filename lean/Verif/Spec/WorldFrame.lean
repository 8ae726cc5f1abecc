import Verif.Model.Loop
import Verif.Model.CloseLoop
import Verif.Model.LoopCheck
import Mathlib.Analysis.SpecialFunctions.Sqrt
/-! Specification for C139: the map in another frame of the world. -/
namespace Verif.Spec

/-- A rigid motion. -/
def TurnsRigidly (g : Rigid ℝ) : Prop := g.rot.transpose * g.rot = 1

/-- A motion that keeps the vertical: any shift, and a turn about the vertical axis. -/
def KeepsVertical (g : Rigid ℝ) : Prop :=
  ∃ c s : ℝ, c ^ 2 + s ^ 2 = 1 ∧ g.rot = !![c, -s, 0; s, c, 0; 0, 0, 1]

/-- The distances a new frame at `pos cur` reports are those of the positions. -/
structure SeesPositions (f : LoopFrame) (pos : Nat → Fin 3 → ℝ) (cur : Nat) : Prop where
  xy : ∀ i, (f.xy i : ℝ) = Real.sqrt ((pos cur 0 - pos i 0) ^ 2 + (pos cur 1 - pos i 1) ^ 2)
  z : ∀ i, (f.z i : ℝ) = |pos cur 2 - pos i 2|

/-- Where a point is after a motion. -/
def movedTo (g : Rigid ℝ) (p : Fin 3 → ℝ) : Fin 3 → ℝ := fun i => g.rot.mulVec p i + g.trans i

/-- Two uses of the detector, with the positions before every frame: the same, but in frames of the world that differ by the motion `g`;
`n` frames are known before.  The positions may have been changed by the optimiser in between. -/
inductive SameLoops (g : Rigid ℝ) : Nat → List LoopEv → List LoopEv → Prop
  | nil (n) : SameLoops g n [] []
  | window {n es es'} (a b) : SameLoops g n es es' → SameLoops g n (.window a b :: es) (.window a b :: es')
  | frame {n es es'} (f f' : LoopFrame) (pos : Nat → Fin 3 → ℝ) :
      SeesPositions f pos n → SeesPositions f' (fun i => movedTo g (pos i)) n →
      f'.detect = f.detect → f'.descriptor = f.descriptor → f'.close = f.close →
      SameLoops g (n + 1) es es' → SameLoops g n (.frame f :: es) (.frame f' :: es')
end Verif.Spec
