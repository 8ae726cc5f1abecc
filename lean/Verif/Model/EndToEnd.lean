import Verif.Model.FrontEnd
import Verif.Model.GpsAlign
/-
A whole mapping run, from the incoming clouds to the saved maps: the composition of the models of the
front end (`FrontEnd`), the submap thread (`Submap`), the optimiser (`Isam`) and the end of a run
(`GpsAlign`, `SaveMaps`).  builder/map_builder.cc 221-229, 261-397, 430-520, 562-613.

Simplified: the two threads are joined by the list of key frames only, and the schedule says when the
submap thread sees each of them.  What the optimiser is given for each submap (`obs`) and what it
computes (`est`, `coord`) are parameters.
-/
namespace Verif

/-- map_builder.cc:221-229 `InsertFrameForSubmap`.  `pts` and `stampOf` read the points and the time of
a cloud (`SetCloud`, `SetTimeStamp`); the id and the local pose are those of a new frame. -/
def keyFrameOf {G P C : Type} [Group G] (pts : C → List P) (stampOf : C → Int) (k : C × G) :
    Frame G P :=
  { id := ⟨0, 0, 0⟩, globalPose := k.2, localPose := 1, stamp := stampOf k.1, cloud := pts k.1 }

/-- A step of the schedule of the submap thread: the next key frame is inserted by the front end, the
front end stops, the submap thread reads the number of frames, the submap thread acts on it. -/
inductive WeaveStep where
  | insert | stop | read | act
deriving DecidableEq

/-- The events the submap thread sees: the key frames are inserted in the order of the front end. -/
def weave {G P : Type} : List WeaveStep → List (Frame G P) → List (SubmapEv G P)
  | [], _ => []
  | .insert :: w, [] => weave w []
  | .insert :: w, f :: fs => .insert f :: weave w fs
  | .stop :: w, fs => .stop :: weave w fs
  | .read :: w, fs => .read :: weave w fs
  | .act :: w, fs => .act :: weave w fs

/-- What is left of a run. -/
structure BuiltMap (G P C : Type) where
  keys : List (C × G)            -- the key frames of the front end
  submaps : List (Submap G P)    -- the submaps, as built
  files : List (MapFile P)       -- the saved maps
  seen : Option Nat              -- frames seen by the submap thread at its end, if it has ended

/-- The configuration of a run. -/
structure RunCfg (G P C E : Type) where
  fe : FeCfg G C
  pts : C → List P
  stampOf : C → Int
  act : G → P → P
  origin : P
  sub : SubmapOpts P
  traj : Int
  save : SaveOptions
  useGps : Bool
  isam : IsamOpts

/-- map_builder.cc:261-397 (front end), 430-520 (submap thread), 562-613 (end of the run).  `n` is the
number of frames of a submap. -/
def buildMap {G P C E : Type} [Group G] (r : RunCfg G P C E) (n start : Nat)
    (es : List (FeEvent G C)) (sched : List WeaveStep)
    (obs : List (Submap G P) → List (IsamFrame G E)) (est : Nat → G) (coord : G) :
    Outcome (BuiltMap G P C) := do
  let fe ← feRun r.fe es (feInit start)
  let th ← SubmapThread.run r.act r.sub r.traj n SubmapThread.init
    (weave sched (fe.1.frames.map (keyFrameOf r.pts r.stampOf)))
  let st ← isamRun r.isam (obs th.submaps) (isamInit G E)
  let files ← finishMap r.act r.origin r.save r.useGps r.isam st est coord th.submaps
  return { keys := fe.1.frames, submaps := th.submaps, files := files,
           seen := match th.pc with | .finished m => some m | _ => none }

end Verif
