import Mathlib.Analysis.Normed.Group.Basic
import Verif.Model.MultiTraj
/-
back_end/multi_trajectory/multi_trajectory_optimizer.cc and
builder/multi_trajectory/multi_trajectory_map_builder.cc: which constraints the optimiser of several
trajectories is given when maps are joined.

These two directories are not part of the build at the pinned commit; the code is modelled as it is
written.  The numerical optimiser (gtsam ISAM2) and the loop detector are outside the model: loops
are inputs of `AddSubmap`, poses inputs of the final step.  What gtsam requires is modelled: a
variable inserted twice, a constraint on an unknown variable and a `Symbol` index of more than 56
bits throw (`abort`).  `update` keeps every constraint it is given, also one it was given before.
Poses are of any type `G`; rounding to `float` on the way is not modelled.
-/
namespace Verif

/-- A submap as far as the optimiser uses it. -/
structure JoinSubmap (G : Type) where
  id : SubmapId
  pose : G
  connected : List SubmapId

/-- Constraints: 157-160 the prior of a first submap, 135-138 `between(target, source)`. -/
inductive JoinFactor (G : Type) where
  | prior (k : UInt64) (p : G)
  | link (target source : UInt64) (t : G) (loop : Bool)

structure JoinState (G : Type) where
  frames : List (JoinSubmap G)         -- the frames of loop_detector_; trajectories_ sorts them
  keys : List UInt64                   -- variables of isam_
  pend : List (JoinFactor G)           -- isam_factor_graph_
  done : List (JoinFactor G)           -- constraints given to isam_

def joinInit (G : Type) : JoinState G := { frames := [], keys := [], pend := [], done := [] }

section
variable {G : Type}

/-- `gtsam::Symbol`: the index must leave room for the letter. -/
def symbolFits (k : UInt64) : Bool := decide (k.toNat < 72057594037927936)

/-- multi_trajectory_optimizer.cc:150-166 `AddVertex`.  `isam_factor_graph_` is not cleared. -/
def joinVertex (k : UInt64) (pose : G) (st : JoinState G) : Outcome (JoinState G) :=
  if symbolFits k = false ∨ k ∈ st.keys then .abort
  else
    let pend := if submapIndexOfKey k = 0 then st.pend ++ [.prior k pose] else st.pend
    .ok { st with keys := st.keys ++ [k], pend := pend, done := st.done ++ pend }

/-- `trajectories_[t]`. -/
def joinTrajectory (t : Int) (st : JoinState G) : List (JoinSubmap G) :=
  st.frames.filter fun s => decide (s.id.trajectory = t)

/-- `target_submap->AddConnectedSubmap(source)`: the submap with that id gets a connection. -/
def joinNote (target source : SubmapId) (l : List (JoinSubmap G)) : List (JoinSubmap G) :=
  l.map fun s => if s.id = target then { s with connected := s.connected ++ [source] } else s

/-- multi_trajectory_optimizer.cc:135-146: the constraint, and `update`; then the graph is cleared. -/
def joinFactor (target source : SubmapId) (t : G) (loop : Bool) (st : JoinState G) :
    Outcome (JoinState G) :=
  if submapKey target ∈ st.keys ∧ submapKey source ∈ st.keys then
    .ok { st with
      pend := []
      done := st.done ++ (st.pend ++ [.link (submapKey target) (submapKey source) t loop]) }
  else .abort

/-- multi_trajectory_optimizer.cc:115-147 `AddSubmapConnection`.  `at` throws outside the trajectory. -/
def joinConnect (target source : SubmapId) (t : G) (loop : Bool) (st : JoinState G) :
    Outcome (JoinState G) :=
  if loop then
    match (if 0 ≤ target.submap then (joinTrajectory target.trajectory st)[target.submap.toNat]?
      else none) with
    | none => .abort
    | some s =>
      if s.id = target then
        joinFactor target source t loop { st with frames := joinNote target source st.frames }
      else .abort
  else joinFactor target source t loop st

/-- multi_trajectory_optimizer.cc:99-109: the loops found for the submap that was added last.  `frames[i]` is unchecked. -/
def joinLoops (source : SubmapId) : List (Nat × G) → JoinState G → Outcome (JoinState G)
  | [], st => .ok st
  | (i, t) :: r, st =>
    match st.frames[i]? with
    | none => .ub
    | some target =>
      if target.id.trajectory = source.trajectory then .abort
      else do
        let st ← joinConnect target.id source t true st
        joinLoops source r st

/-- Calls of the optimiser: `AddSubmap` with what the loop detector answers, and
`AddSubmapConnection` with `is_loop_constraint` false. -/
inductive JoinCall (G : Type) where
  | submap (s : JoinSubmap G) (loops : List (Nat × G))
  | link (target source : SubmapId) (t : G)

/-- multi_trajectory_optimizer.cc:88-112 `AddSubmap`, 115-147 `AddSubmapConnection`. -/
def joinStep (st : JoinState G) : JoinCall G → Outcome (JoinState G)
  | .submap s loops => do
    let st ← joinVertex (submapKey s.id) s.pose { st with frames := st.frames ++ [s] }
    joinLoops s.id loops st
  | .link target source t => joinConnect target source t false st

def joinRun : List (JoinCall G) → JoinState G → Outcome (JoinState G)
  | [], st => .ok st
  | c :: cs, st => do
    let st ← joinStep st c
    joinRun cs st

/-- multi_trajectory_map_builder.cc:71-74 and 118-121: looking up a connected submap.  `operator[]`
of the trajectories is unchecked, `at` throws. -/
def joinFind (trajs : List (List (JoinSubmap G))) (id : SubmapId) : Outcome (JoinSubmap G) :=
  match (if 0 ≤ id.trajectory then trajs[id.trajectory.toNat]? else none) with
  | none => .ub
  | some l =>
    match (if 0 ≤ id.submap then l[id.submap.toNat]? else none) with
    | none => .abort
    | some s => .ok s

/-- multi_trajectory_map_builder.cc:67-79 and 114-126: the connections of one submap; `rel` is `target⁻¹ * source`. -/
def joinLinks (rel : G → G → G) (trajs : List (List (JoinSubmap G))) (s : JoinSubmap G) :
    List SubmapId → Outcome (List (JoinCall G))
  | [] => .ok []
  | c :: cs => do
    let source ← joinFind trajs c
    let r ← joinLinks rel trajs s cs
    return .link s.id source.id (rel s.pose source.pose) :: r

/-- The loops of multi_trajectory_map_builder.cc:65-81 and 112-128 over the submaps. -/
def joinAllLinks (rel : G → G → G) (trajs : List (List (JoinSubmap G))) :
    List (JoinSubmap G) → Outcome (List (JoinCall G))
  | [] => .ok []
  | s :: r => do
    let a ← joinLinks rel trajs s s.connected
    let b ← joinAllLinks rel trajs r
    return a ++ b

/-- multi_trajectory_map_builder.cc:57-81 `LoadBaseMap` after loading: first all submaps, then all connections.  Simplification: the
look-ups of connected submaps are done before the first call, so a failing look-up comes first. -/
def baseCalls (rel : G → G → G) (trajs : List (List (JoinSubmap G))) : Outcome (List (JoinCall G)) := do
  let links ← joinAllLinks rel trajs trajs.flatten
  return trajs.flatten.map (fun s => JoinCall.submap s []) ++ links

/-- multi_trajectory_map_builder.cc:94-104: the ids of incremental submaps are shifted. -/
def joinShift (offset : Nat) (s : JoinSubmap G) : JoinSubmap G :=
  { s with id := ⟨s.id.trajectory + offset, s.id.submap⟩ }

/-- multi_trajectory_map_builder.cc:94-128 `LoadIncrementalMap` after loading; `answer i` is what the loop detector answers for the
`i`-th submap.  The connections are looked up by their old ids among the shifted submaps.  Simplification: loops found with another incremental
submap would be among the connections too; with a base map of at least one submap the loop detector
only answers base submaps (`C113_last_fails`). -/
def incrementalCalls (rel : G → G → G) (offset : Nat) (trajs : List (List (JoinSubmap G)))
    (answer : Nat → List (Nat × G)) : Outcome (List (JoinCall G)) := do
  let moved := trajs.map fun l => l.map (joinShift offset)
  let links ← joinAllLinks rel moved moved.flatten
  return moved.flatten.zipIdx.map (fun p => JoinCall.submap p.1 (answer p.2)) ++ links

/-- multi_trajectory_optimizer.cc:180-191 `RunFinalOptimizing`: every submap gets the pose of its own variable (`at` throws). -/
def joinFinal (est : UInt64 → G) (st : JoinState G) : Outcome (List (JoinSubmap G)) :=
  if st.frames.all fun s => decide (submapKey s.id ∈ st.keys) then
    .ok (st.frames.map fun s => { s with pose := est (submapKey s.id) })
  else .abort
end

/-! The weights, for shifts (all rotations the identity), as in `Verif.Model.Objective`. -/
noncomputable section
variable {V : Type} [NormedAddCommGroup V]

/-- gtsam's Huber loss with constant 1. -/
def huberLoss (z : ℝ) : ℝ := if z ≤ 1 then z ^ 2 / 2 else z - 1 / 2

/-- multi_trajectory_optimizer.cc:66-81: the noise models: priors 0.1 m, connections Huber with 0.01 m, loops Huber with 0.025 m. -/
def joinCostOf (x : UInt64 → V) : JoinFactor V → ℝ
  | .prior k p => (‖x k - p‖ / (1 / 10)) ^ 2 / 2
  | .link a b t loop => huberLoss (‖x b - x a - t‖ / (if loop then 25 / 1000 else 1 / 100))

def joinCost (l : List (JoinFactor V)) (x : UInt64 → V) : ℝ := (l.map (joinCostOf x)).sum

end
end Verif
