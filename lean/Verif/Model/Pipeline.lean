import Verif.Model.Outcome
/-! Which clouds are in use and which are emptied while the map is being built: the front end, the submap
thread, the pair matches and the memory manager together (map_builder.cc 221-229, 260-446, 564-566, 644-713,
submap.cc 197-236, memory_manager.cc 40-75), with disk saving switched on.

A key frame is its number in `frames_`, a submap its number in the trajectory. `frames_` is a
`tbb::concurrent_vector` (map_builder.h 258): `push_back` first takes a slot, which `size()` counts from then
on, and then builds the element in it. Left out: poses, points (other models). Each step is the part of a
thread between two accesses to shared data; saving and clearing in `SetMatchedTransformedToNext` happens under
the submap's lock and is one step. -/
namespace Verif

inductive PipePc where
  | head
  | got (size : Nat)
  | done

structure Pipe where
  /-- `frames_.size()`, and how many of the slots hold a frame -/
  slots : Nat
  filled : Nat
  /-- the key frame the front end matches against, if that is a key frame (map_builder.cc 278, 389; 293) -/
  target : Option Nat
  running : Bool
  pc : PipePc
  /-- `current_index` -/
  cur : Nat
  /-- `current_trajectory_->size()` -/
  subs : Nat
  /-- pair matches queued and being worked on; `i`: submap `i + 1` against submap `i` -/
  jobs : List Nat
  active : List Nat
  matched : Nat → Bool
  /-- the points of a frame, of a submap are not in memory -/
  frameOut : Nat → Bool
  subOut : Nat → Bool
  /-- `cloud_inactive_time_` -/
  idle : Nat → Nat
  /-- the connecting thread has left its loop -/
  ended : Bool

inductive PipeEv where
  /-- front end: the two halves of `frames_.push_back`, 228 -/
  | take
  | fill
  /-- front end: a cloud from before the last pose becomes the target, 291-295 -/
  | late
  /-- front end: the loop ends, 395 -/
  | stop
  /-- submap thread: 661, and the rest of the round 662-709 -/
  | read
  | act
  /-- a worker begins and ends a pair match -/
  | start (i : Nat)
  | finish (i : Nat)
  /-- memory manager: `UpdateInactiveTime` of a submap -/
  | tick (s d : Nat)
  /-- any other thread: `Submap::Cloud` -/
  | use (s : Nat)
  /-- connecting thread: the end of 564-566 (any time after the submap thread has ended) -/
  | last

/-- `Submap::Cloud`, submap.cc 217-222: the points are in memory afterwards. -/
def Pipe.cloud (st : Pipe) (s : Nat) : Pipe :=
  { st with
    idle := fun k => if k = s then 0 else st.idle k
    subOut := fun k => if k = s then false else st.subOut k }

/-- `SetMatchedTransformedToNext`, submap.cc 197-215: the submap and its frames must have points (238-241,
frame.cc ToPcdFile); the clouds of the frames are cleared. -/
def Pipe.setMatched (n : Nat) (st : Pipe) (i : Nat) : Outcome Pipe := do
  Outcome.check (st.matched i = false)
  Outcome.check (st.subOut i = false)
  Outcome.check (∀ k ∈ List.range n, st.frameOut (i * n + k) = false)
  return { st with
    matched := fun k => if k = i then true else st.matched k
    frameOut := fun k => if i * n ≤ k ∧ k < (i + 1) * n then true else st.frameOut k }

/-- One step; `n`: frames per submap, `delay`: `disk_saving_delay`. A step that is not possible leaves the
state as it is. -/
def Pipe.step (n delay : Nat) (st : Pipe) : PipeEv → Outcome Pipe
  | .take => .ok (if st.running ∧ st.filled = st.slots then { st with slots := st.slots + 1 } else st)
  | .fill =>
    .ok (if st.running ∧ st.filled < st.slots then { st with filled := st.filled + 1, target := some st.filled } else st)
  | .late => .ok (if st.running ∧ st.filled = st.slots then { st with target := none } else st)
  | .stop => .ok (if st.filled = st.slots then { st with running := false } else st)
  | .read => match st.pc with
    | .head => .ok { st with pc := .got st.slots }
    | _ => .ok st
  | .act => match st.pc with
    | .got size =>
      if size - st.cur < n then
        .ok { st with pc := if st.running then .head else .done }
      else if st.filled < st.cur + n then .ub
      else do
        -- InsertFrame reads the points of every frame, submap.cc 109-132
        Outcome.check (∀ k ∈ List.range n, st.frameOut (st.cur + k) = false)
        return { st with
          pc := .head
          cur := st.cur + n
          subs := st.subs + 1
          jobs := if 0 < st.subs then st.jobs ++ [st.subs - 1] else st.jobs }
    | _ => .ok st
  | .start i =>
    if i ∈ st.jobs then
      .ok ((({ st with jobs := st.jobs.erase i, active := st.active ++ [i] } : Pipe).cloud (i + 1)).cloud i)
    else .ok st
  | .finish i =>
    if i ∈ st.active then
      Pipe.setMatched n { st with active := st.active.erase i } i
    else .ok st
  | .tick s d =>
    if s < st.subs ∧ st.matched s = true then
      if delay < st.idle s + d then
        .ok { st with
          idle := fun k => if k = s then st.idle s + d else st.idle k
          subOut := fun k => if k = s then true else st.subOut k }
      else .ok { st with idle := fun k => if k = s then st.idle s + d else st.idle k }
    else .ok st
  | .use s => .ok (if s < st.subs then st.cloud s else st)
  | .last => match st.pc with
    | .done =>
      if st.ended = false ∧ 0 < st.subs then Pipe.setMatched n { st with ended := true } (st.subs - 1) else .ok st
    | _ => .ok st

def Pipe.run (n delay : Nat) (st : Pipe) : List PipeEv → Outcome Pipe
  | [] => .ok st
  | e :: es => do
    let st' ← st.step n delay e
    st'.run n delay es

def Pipe.init : Pipe :=
  { slots := 0, filled := 0, target := none, running := true, pc := .head, cur := 0, subs := 0, jobs := [], active := [],
    matched := fun _ => false, frameOut := fun _ => false, subOut := fun _ => false, idle := fun _ => 0, ended := false }

end Verif
