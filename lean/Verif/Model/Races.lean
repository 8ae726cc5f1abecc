import Verif.Model.Locks
/-! Which data the calls on submaps and clouds touch, and under which locks.

Adds to the lock operations of `Model/Locks.lean` the accesses between them: `builder/submap.cc` 77-160,
179-274, `builder/frame_base.cc` 40-130, `builder/data/cloud_types.cc` 370-468. Atomic members
(`full_`, `got_matched_transform_to_next_`, `cloud_inactive_time_`, `is_cloud_in_memory_`) and the
concurrent vectors are left out: they need no lock. -/
namespace Verif

/-- A piece of shared data that is not atomic. -/
inductive Datum where
  | frames (s : Nat)      -- `Submap::frames_`
  | next (s : Nat)        -- `transform_to_next_frame_` of a submap
  | framePoses (s : Nat)  -- the global poses of the frames of a submap
  | points (c : Nat)      -- `inner_cloud_`, `eigen_cloud_`, `time_` of a cloud
  | fileName (c : Nat)    -- `filename_` of a cloud
  | guarded (m : Nat)     -- what a plain mutex protects
  deriving DecidableEq

inductive RaceOp where
  | lock (op : LockOp)
  | read (d : Datum)
  | write (d : Datum)
  deriving DecidableEq

structure RThread where
  held : List (LockId × LockMode)
  rest : List RaceOp

/-- The lock operations among the operations to come. -/
def lockOps : List RaceOp → List LockOp
  | [] => []
  | .lock op :: r => op :: lockOps r
  | .read _ :: r => lockOps r
  | .write _ :: r => lockOps r

def RThread.view (t : RThread) : LThread := ⟨t.held, lockOps t.rest⟩

/-- Thread `i` performs its next operation: an access always can be performed, a lock operation if it
does not block. -/
def raceStep {n : Nat} (w : Fin n → RThread) (i : Fin n) : Option (Fin n → RThread) :=
  match (w i).rest with
  | [] => none
  | .lock op :: r =>
    if enabled (fun j => (w j).view) i then some (Function.update w i ⟨afterOp (w i).held op, r⟩) else none
  | .read _ :: r => some (Function.update w i ⟨(w i).held, r⟩)
  | .write _ :: r => some (Function.update w i ⟨(w i).held, r⟩)

def raceRun {n : Nat} (w : Fin n → RThread) : List (Fin n) → Option (Fin n → RThread)
  | [] => some w
  | i :: is => match raceStep w i with
    | none => none
    | some w' => raceRun w' is

/-- The calls. -/
inductive RaceCall where
  /-- `Submap::GetFrame` (184-195) -/
  | getFrame (s : Nat)
  /-- `Submap::Cloud` (217-222), `load`: the cloud is read from its file -/
  | cloud (s c : Nat) (load : Bool)
  /-- `Submap::SetMatchedTransformedToNext` (197-215) without and with saving; `frames`: the clouds of the
  frames, and whether they are in memory -/
  | setMatched (s : Nat)
  | setMatchedSave (s c : Nat) (frames : List (Nat × Bool))
  /-- `Submap::UpdateInactiveTime` (224-236) -/
  | tick (s c : Nat) (idle inMem : Bool)
  /-- `Submap::UpdateInnerFramePose` (268-274) -/
  | updatePoses (s : Nat)
  /-- `InnerPointCloudData::Empty` (374-377) -/
  | cloudEmpty (c : Nat)
  /-- `SaveToFile` (428-439) -/
  | cloudSave (c : Nat)
  /-- `TransformCloud` (395-404), `SetInnerCloud` (412-416) -/
  | cloudTransform (c : Nat)
  | cloudSet (c : Nat)
  /-- `Clear` (383-393) -/
  | cloudClear (c : Nat) (inMem : Bool)
  /-- `CloudInMemory` (441-459) -/
  | cloudInMemory (c : Nat) (load : Bool)
  /-- a call of the data collector or the pose extrapolator -/
  | single (m : Nat)
  /-- `GetInnerCloud`, `GetEigenCloud`, `GetTime` (461-468): no lock -/
  | cloudPointer (c : Nat)
  /-- `Submap::InsertFrame` (77-160): no lock -/
  | insertFrame (s : Nat)
  /-- `FrameBase::TransformToNext` (frame_base.cc 74-76): no lock -/
  | transformToNext (s : Nat)
  /-- `FrameBase::GlobalPose` of a frame of the submap (frame_base.cc 45): no lock -/
  | framePose (s : Nat)

def emptyAcc (c : Nat) : List RaceOp := [.lock (.acquire (.cloud c) .sh), .read (.points c), .lock .release]
def saveAcc (c : Nat) : List RaceOp :=
  [.lock (.acquire (.cloud c) .sh), .read (.points c), .write (.fileName c), .lock .release]
def transformAcc (c : Nat) : List RaceOp :=
  [.lock (.acquire (.cloud c) .up), .lock .promote, .read (.points c), .write (.points c), .lock .demote, .lock .release]
def setAcc (c : Nat) : List RaceOp :=
  [.lock (.acquire (.cloud c) .up), .lock .promote, .write (.points c), .lock .demote, .lock .release]
def clearAcc (c : Nat) (inMem : Bool) : List RaceOp := if inMem then setAcc c else []
def loadAcc (c : Nat) (load : Bool) : List RaceOp :=
  .lock (.acquire (.cloud c) .up) ::
    ((if load then [.lock .promote, .read (.fileName c), .write (.points c), .lock .demote] else []) ++ [.lock .release])

/-- The operations of a call. -/
def raceScript : RaceCall → List RaceOp
  | .getFrame s => [.lock (.acquire (.submap s) .sh), .read (.frames s), .lock .release]
  | .cloud s c load => .lock (.acquire (.submap s) .sh) :: (loadAcc c load ++ [.lock .release])
  | .setMatched s =>
    [.lock (.acquire (.submap s) .up), .lock .promote, .write (.next s), .lock .demote, .lock .release]
  | .setMatchedSave s c frames =>
    [.lock (.acquire (.submap s) .up), .lock .promote, .write (.next s), .lock .demote] ++
    (emptyAcc c ++ saveAcc c ++ [.read (.frames s)] ++
      frames.flatMap (fun f => emptyAcc f.1 ++ saveAcc f.1 ++ clearAcc f.1 f.2)) ++ [.lock .release]
  | .tick s c idle inMem =>
    .lock (.acquire (.submap s) .up) ::
      ((if idle then .lock .promote :: (clearAcc c inMem ++ [.lock .demote]) else []) ++ [.lock .release])
  | .updatePoses s =>
    [.lock (.acquire (.submap s) .up), .lock .promote, .read (.frames s), .write (.framePoses s), .lock .demote, .lock .release]
  | .cloudEmpty c => emptyAcc c
  | .cloudSave c => saveAcc c
  | .cloudTransform c => transformAcc c
  | .cloudSet c => setAcc c
  | .cloudClear c inMem => clearAcc c inMem
  | .cloudInMemory c load => loadAcc c load
  | .single m => [.lock (.acquire (.plain m) .ex), .read (.guarded m), .write (.guarded m), .lock .release]
  | .cloudPointer c => [.read (.points c)]
  | .insertFrame s => [.read (.frames s), .write (.frames s)]
  | .transformToNext s => [.read (.next s)]
  | .framePose s => [.read (.framePoses s)]

/-- Threads that will make the given calls. -/
def raceStart {n : Nat} (calls : Fin n → List RaceCall) : Fin n → RThread :=
  fun i => ⟨[], (calls i).flatMap raceScript⟩

end Verif
