import Verif.Model.Outcome
import Verif.Model.Names
import Mathlib.Algebra.Group.Defs
/-
builder/submap.cc:67-275, builder/frame.cc, builder/frame_base.cc : frames, submaps, insertion,
lookup and poses.

Simplifications: poses are the elements of an arbitrary group `G` acting on points `P` (exact rigid
motions, for which `NormalizeRotation` in `SetGlobalPose`/`SetLocalPose` changes nothing); a frame
holds its cloud as a plain list (swapping is modelled in `SubmapSwap`); a frame is a value, so the
list of key frames keeps the frame as it was and the submap holds the updated one (in the program
they are the same object); the not-a-number checks of `enable_check` are left out, the points here
are always numbers.
-/
namespace Verif

/-- A key frame: identity, poses, time and cloud. -/
structure Frame (G P : Type) where
  id : FrameId
  globalPose : G
  localPose : G
  stamp : Int
  cloud : List P

/-- submap_options.h : the options used here.  `voxelFilter` is the filter applied to the points of
a full submap (the identity if `enable_voxel_filter` is off). -/
structure SubmapOpts (P : Type) where
  frameCount : Int
  innerMrvm : Bool
  voxelFilter : List P → List P

structure Submap (G P : Type) where
  id : SubmapId
  frames : List (Frame G P)
  full : Bool
  globalPose : G
  stamp : Int
  cloud : Option (List P)

section
variable {G P : Type} [Group G]

/-- submap.cc:67-73 followed by `SetId` : no frames, not full, no cloud.  The pose is the identity
matrix (frame_base.h), the time 0. -/
def Submap.new (id : SubmapId) : Submap G P :=
  { id := id, frames := [], full := false, globalPose := 1, stamp := 0, cloud := none }

/-- submap.cc:98-160 : the cloud of a full submap.  With the inner voxel map enabled nothing is
copied to the output (114, "TODO Output to the cloud"); otherwise the frames' points, moved by the
local poses, are concatenated and filtered.  An empty result stops the program: the constructor
of the holder checks that there are points (cloud_types.cc:330). -/
def Submap.build (act : G → P → P) (o : SubmapOpts P) (frames : List (Frame G P)) :
    Outcome (List P) :=
  let processed : List P :=
    if o.innerMrvm then [] else frames.flatMap (fun f => f.cloud.map (act f.localPose))
  let out := if processed.isEmpty then processed else o.voxelFilter processed
  do
    Outcome.check (out.length ≠ 0)
    return out

/-- submap.cc:76-163 `InsertFrame`. -/
def Submap.insertFrame (act : G → P → P) (o : SubmapOpts P) (s : Submap G P) (f : Frame G P) :
    Outcome (Submap G P) := do
  -- 78
  Outcome.check (s.full = false)
  -- 80-88
  let pose := if s.frames.length = 0 then f.globalPose else s.globalPose
  let stamp := if s.frames.length = 0 then f.stamp else s.stamp
  let loc := if s.frames.length = 0 then 1 else s.globalPose⁻¹ * f.globalPose
  -- 90-93
  let f' : Frame G P := { f with
    localPose := loc
    id := ⟨s.id.trajectory, s.id.submap, s.frames.length⟩ }
  let frames := s.frames ++ [f']
  -- 94-96 : `size_t == int`, a negative count is never reached
  if (frames.length : Int) = o.frameCount then do
    let c ← Submap.build act o frames
    return { s with frames := frames, full := true, globalPose := pose, stamp := stamp,
                    cloud := some c }
  else
    return { s with frames := frames, globalPose := pose, stamp := stamp }

/-- submap.cc:184-195 `GetFrame`.  `frame_index >= frames_.size()` compares an `int` with a
`size_t`, so a negative index counts as huge. -/
def Submap.getFrame (s : Submap G P) (id : FrameId) : Option (Frame G P) :=
  if id.submap ≠ s.id.submap ∨ id.trajectory ≠ s.id.trajectory then none
  else if id.frame < 0 ∨ (s.frames.length : Int) ≤ id.frame then none
  else s.frames[id.frame.toNat]?

/-- frame_base.cc `SetGlobalPose` on the submap. -/
def Submap.setPose (s : Submap G P) (g : G) : Submap G P := { s with globalPose := g }

/-- submap.cc:268-274 `UpdateInnerFramePose`. -/
def Submap.updateFrames (s : Submap G P) : Submap G P :=
  { s with frames := s.frames.map (fun f => { f with globalPose := s.globalPose * f.localPose }) }

/-- map_builder.cc:671-687 : create a submap, insert `frames` one after the other, check that it
is full. -/
def makeSubmap (act : G → P → P) (o : SubmapOpts P) (id : SubmapId) (frames : List (Frame G P)) :
    Outcome (Submap G P) := do
  let s ← frames.foldlM (Submap.insertFrame act o) (Submap.new id)
  Outcome.check (s.full = true)
  return s

/-- map_builder.cc:644-713, the submap thread, and the part of the scan-matching thread it
interacts with (`InsertFrameForSubmap` 221-229, the running flag 263/395). -/
inductive SubmapPc where
  | head                -- before line 660
  | got (size : Nat)    -- `frames_size` has been read (661)
  | finished (size : Nat)  -- left the loop (711), having last read this size

structure SubmapThread (G P : Type) where
  frames : List (Frame G P)
  running : Bool
  pc : SubmapPc
  cur : Nat
  submaps : List (Submap G P)

/-- Steps of the two threads. -/
inductive SubmapEv (G P : Type) where
  | insert (f : Frame G P)   -- scan matching: frames_.push_back
  | stop                     -- scan matching: scan_match_thread_running_ = false
  | read                     -- submap thread: read frames_.size()
  | act                      -- submap thread: the rest of the loop body

/-- One step.  A step that is not possible in the state leaves it unchanged.  The vector of frames
is treated as if its accesses were atomic (in the program they are not synchronised). -/
def SubmapThread.step (act : G → P → P) (o : SubmapOpts P) (traj : Int) (n : Nat)
    (st : SubmapThread G P) : SubmapEv G P → Outcome (SubmapThread G P)
  | .insert f =>
    if st.running then .ok { st with frames := st.frames ++ [f] } else .ok st
  | .stop => .ok { st with running := false }
  | .read =>
    match st.pc with
    | .head => .ok { st with pc := .got st.frames.length }
    | _ => .ok st
  | .act =>
    match st.pc with
    | .got size =>
      -- 662-669
      if size - st.cur < n then
        if st.running then .ok { st with pc := .head } else .ok { st with pc := .finished size }
      -- 671-709
      else do
        let s ← makeSubmap act o ⟨traj, st.submaps.length⟩ ((st.frames.drop st.cur).take n)
        return { st with pc := .head, cur := st.cur + n, submaps := st.submaps ++ [s] }
    | _ => .ok st

/-- A schedule. -/
def SubmapThread.run (act : G → P → P) (o : SubmapOpts P) (traj : Int) (n : Nat)
    (st : SubmapThread G P) : List (SubmapEv G P) → Outcome (SubmapThread G P)
  | [] => .ok st
  | e :: es => do
    let st' ← SubmapThread.step act o traj n st e
    SubmapThread.run act o traj n st' es

/-- map_builder.cc:103-110 : the submap thread is started once the scan-matching thread has set its
running flag. -/
def SubmapThread.init : SubmapThread G P :=
  { frames := [], running := true, pc := .head, cur := 0, submaps := [] }

end
end Verif
