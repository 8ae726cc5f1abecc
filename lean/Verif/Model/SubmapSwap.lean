import Verif.Model.CloudHolder
import Verif.Model.Names
/-
Swapping the clouds of all submaps and frames to disk: builder/submap.cc:197-236, builder/frame.cc:51-61,
builder/memory_manager.cc:52-63, on top of the cloud holder of `CloudHolder`.

All submaps and frames share one directory.  Simplifications: each call is one atomic step (the
submap and the holder have their own locks); the poses are left out; the normals of a submap are
left out; the memory manager's pass over all submaps is a sequence of single ticks, one per submap,
with an arbitrary number of seconds (kTimeStepSec is 1).
-/
namespace Verif

/-- Everything that owns a swappable cloud. -/
inductive CloudKey where
  | submap (id : SubmapId)
  | frame (id : FrameId)
  deriving DecidableEq

/-- The options used here: `enable_disk_saving`, `disk_saving_delay`, `saving_name_prefix` and the
directory (`SetSavePath`). -/
structure SwapCfg where
  disk : Bool
  delay : Int
  pre : List Char
  dir : List Char

/-- submap.cc:165-172, 204, 209 : the file a cloud is saved to. -/
def SwapCfg.file (cfg : SwapCfg) : CloudKey → String
  | .submap id => String.ofList (cfg.dir ++ submapFileName cfg.pre id)
  | .frame id => String.ofList (cfg.dir ++ frameFileName id)

structure SwapState where
  holder : CloudKey → Option Holder
  files : Files
  /-- number of frames of a submap -/
  count : SubmapId → Nat
  /-- `got_matched_transform_to_next_` -/
  got : SubmapId → Bool
  /-- `cloud_inactive_time_` -/
  inactive : SubmapId → Int

inductive SwapEv where
  | build (id : SubmapId) (cloud : BitsCloud) (frames : List BitsCloud)
  | matched (id : SubmapId)
  | tick (id : SubmapId) (sec : Int)
  | access (k : CloudKey)

/-- A method of the holder of `k` (nothing happens if there is none). -/
def SwapState.apply (maxPoints : Nat) (st : SwapState) (k : CloudKey) (op : HolderOp) :
    Outcome SwapState :=
  match st.holder k with
  | none => .ok st
  | some h => do
    let r ← Holder.step maxPoints (h, st.files) op
    return { st with holder := fun j => if j = k then some r.1 else st.holder j, files := r.2 }

/-- Construct the holder of `k`. -/
def SwapState.create (st : SwapState) (k : CloudKey) (c : BitsCloud) : Outcome SwapState := do
  let h ← Holder.new c
  return { st with holder := fun j => if j = k then some h else st.holder j }

/-- Construct the holders of frames `i`, `i+1`, ... of a submap. -/
def SwapState.createFrames (st : SwapState) (id : SubmapId) (i : Nat) :
    List BitsCloud → Outcome SwapState
  | [] => .ok st
  | c :: cs => do
    let st' ← st.create (.frame ⟨id.trajectory, id.submap, i⟩) c
    st'.createFrames id (i + 1) cs

/-- submap.cc:207-211 : save and clear the frames. -/
def SwapState.saveFrames (maxPoints : Nat) (cfg : SwapCfg) (st : SwapState) (id : SubmapId) :
    List Nat → Outcome SwapState
  | [] => .ok st
  | i :: is => do
    let k := CloudKey.frame ⟨id.trajectory, id.submap, i⟩
    let st1 ← st.apply maxPoints k (.save (cfg.file k))
    let st2 ← st1.apply maxPoints k .clear
    st2.saveFrames maxPoints cfg id is

/-- One call.  `build` is ignored if the submap exists already, calls on a missing submap are
ignored. -/
def SwapState.step (maxPoints : Nat) (cfg : SwapCfg) (st : SwapState) :
    SwapEv → Outcome SwapState
  | .build id cloud frames =>
    match st.holder (.submap id) with
    | some _ => .ok st
    | none => do
      let st1 ← st.createFrames id 0 frames
      let st2 ← st1.create (.submap id) cloud
      return { st2 with
        count := fun j => if j = id then frames.length else st2.count j
        got := fun j => if j = id then false else st2.got j
        inactive := fun j => if j = id then 0 else st2.inactive j }
  -- 197-215
  | .matched id =>
    match st.holder (.submap id) with
    | none => .ok st
    | some _ => do
      Outcome.check (st.got id = false)
      let st1 ← (if cfg.disk then do
          let k := CloudKey.submap id
          let st0 ← st.apply maxPoints k (.save (cfg.file k))
          st0.saveFrames maxPoints cfg id (List.range (st.count id))
        else .ok st)
      return { st1 with got := fun j => if j = id then true else st1.got j }
  -- 224-236
  | .tick id sec =>
    if cfg.disk = true ∧ st.got id = true then
      let st1 := { st with inactive := fun j => if j = id then st.inactive id + sec
                                        else st.inactive j }
      if cfg.delay < st.inactive id + sec then st1.apply maxPoints (.submap id) .clear
      else .ok st1
    else .ok st
  -- 217-222 and frame.cc:58-61
  | .access k =>
    let st1 := match k with
      | .submap id => { st with inactive := fun j => if j = id then 0 else st.inactive j }
      | .frame _ => st
    st1.apply maxPoints k .cloudInMemory

def SwapState.run (maxPoints : Nat) (cfg : SwapCfg) (st : SwapState) :
    List SwapEv → Outcome SwapState
  | [] => .ok st
  | e :: es => do
    let st' ← st.step maxPoints cfg e
    st'.run maxPoints cfg es

/-- No submaps yet. -/
def SwapState.init : SwapState :=
  { holder := fun _ => none, files := fun _ => none, count := fun _ => 0,
    got := fun _ => false, inactive := fun _ => 0 }

end Verif
