import Mathlib.Analysis.SpecialFunctions.Log.Basic
import Verif.Model.LoopCheck
import Verif.Model.Outcome
/-
back_end/loop_detector.cc:215-232 and 282-316: matching the candidates of a loop.

Outside the model: the matcher itself (`align`: source, target, guess ↦ transform and score; see C61
and C110 for the matchers).  Poses are rigid (C71), so `inverse` is the rigid inverse.  The tasks of
216-231 end in any order; the model takes the order as a parameter.
-/
namespace Verif

/-- 282-301: the relative pose with its third coordinate set to zero. -/
noncomputable def loopGuess (target source : Rigid ℝ) : Rigid ℝ :=
  { rot := (target.between source).rot
    trans := fun i => if i = 2 then 0 else (target.between source).trans i }

/-- `DetectResult::LoopEdge`. -/
structure ClosedEdge where
  target : Nat
  source : Nat
  guess : Rigid ℝ
  transform : Rigid ℝ
  score : ℝ

/-- `all_frames_[i]` after the check of 286 (an index is an `int`, the size is unsigned). -/
def frameAt (poses : List (Rigid ℝ)) (i : Int) : Outcome (Rigid ℝ) :=
  match (if 0 ≤ i then poses[i.toNat]? else none) with
  | none => .abort
  | some p => .ok p

/-- 282-316 `CloseLoop`; `hasCloud`: whether a submap has a cloud, as `Submap::Cloud` checks
(submap.cc:217-222) in 305-306. -/
noncomputable def closeLoop (accept : ℝ) (poses : List (Rigid ℝ)) (hasCloud : Nat → Bool)
    (align : Nat → Nat → Rigid ℝ → Rigid ℝ × ℝ) (p : Int × Int) : Outcome (Option ClosedEdge) := do
  let t ← frameAt poses p.1
  let s ← frameAt poses p.2
  Outcome.check (hasCloud p.2.toNat = true)
  Outcome.check (hasCloud p.1.toNat = true)
  let m := align p.2.toNat p.1.toNat (loopGuess t s)
  return if accept < m.2 then
    some { target := p.1.toNat, source := p.2.toNat, guess := loopGuess t s, transform := m.1
           score := -Real.log m.2 }
  else none

/-- 215-231: all candidates, in the order in which the tasks end. -/
noncomputable def closeLoops (accept : ℝ) (poses : List (Rigid ℝ)) (hasCloud : Nat → Bool)
    (align : Nat → Nat → Rigid ℝ → Rigid ℝ × ℝ) : List (Int × Int) → Outcome (List ClosedEdge)
  | [] => .ok []
  | p :: ps => do
    let e ← closeLoop accept poses hasCloud align p
    let es ← closeLoops accept poses hasCloud align ps
    return e.toList ++ es

/-- multi_trajectory_map_builder.cc:178-207: a submap read from a map package is given an id, a pose,
connections, a path and a file name, but no cloud, and the constructor (submap.cc:69-75) leaves it
empty. -/
def loadedHasCloud (_ : Nat) : Bool := false

/-- 233-234 `close_succeed`. -/
noncomputable def closeSucceeds (euler : Matrix (Fin 3) (Fin 3) ℝ → ℝ) (poses : Nat → Rigid ℝ)
    (es : List ClosedEdge) : Bool :=
  !es.isEmpty && checkResult euler poses (es.map fun e => ⟨e.target, e.transform⟩)

end Verif
