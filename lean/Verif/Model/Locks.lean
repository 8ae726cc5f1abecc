import Mathlib.Data.Fintype.Basic
/-! The locks taken by calls on submaps, clouds and the other shared objects.

Models `common/mutex.h` 98-103 (`boost::shared_mutex` with `shared_lock`, `upgrade_lock` and
`upgrade_to_unique_lock`) and the places that use it: `builder/submap.cc` 179-274,
`builder/data/cloud_types.cc` 374-455, `builder/memory_manager.cc` 51-61; and the plain mutexes of
`builder/data/data_collector.{h,cc}` and `builder/pose_extrapolator.cc`, each of which is taken alone.

Lockers are scoped objects: they are destroyed in the reverse order of their construction, so the locks of
a thread form a stack and every operation except taking a lock acts on its top. What a call does between
two lock operations is left out; where the data decide which locks are taken, the call has an argument. -/
namespace Verif

inductive LockId where
  | submap (s : Nat)   -- `Submap::mutex_`
  | cloud (c : Nat)    -- `InnerPointCloudData::mutex_`
  | plain (m : Nat)    -- a `std::mutex`
  deriving DecidableEq

/-- How a lock is held. -/
inductive LockMode where
  | sh   -- `boost::shared_lock`
  | up   -- `boost::upgrade_lock`
  | ex   -- `boost::upgrade_to_unique_lock`, or a `std::mutex`
  deriving DecidableEq

inductive LockOp where
  | acquire (l : LockId) (m : LockMode)
  | promote   -- constructor of `upgrade_to_unique_lock`
  | demote    -- its destructor
  | release
  deriving DecidableEq

structure LThread where
  held : List (LockId × LockMode)
  rest : List LockOp

/-- The locks of a thread after an operation of its own. -/
def afterOp (held : List (LockId × LockMode)) : LockOp → List (LockId × LockMode)
  | .acquire l m => (l, m) :: held
  | .promote => match held with
    | [] => []
    | (l, _) :: t => (l, .ex) :: t
  | .demote => match held with
    | [] => []
    | (l, _) :: t => (l, .up) :: t
  | .release => held.tail

/-- Whether a lock may be taken in a mode while it is held in another (`boost::shared_mutex`): shared
locks exclude only the exclusive one, an upgrade lock excludes everything but shared ones. -/
def modesAgree : LockMode → LockMode → Bool
  | .sh, .sh => true
  | .sh, .up => true
  | .up, .sh => true
  | _, _ => false

/-- Whether the next operation of thread `i` does not block. Taking a lock looks at all threads,
also the own one; promoting waits until nobody else holds the lock. -/
def enabled {n : Nat} (w : Fin n → LThread) (i : Fin n) : Bool :=
  match (w i).rest with
  | [] => false
  | .acquire l m :: _ => decide (∀ j, ∀ h ∈ (w j).held, h.1 = l → modesAgree m h.2 = true)
  | .promote :: _ => match (w i).held with
    | [] => true
    | (l, _) :: _ => decide (∀ j, j ≠ i → ∀ h ∈ (w j).held, h.1 ≠ l)
  | .demote :: _ => true
  | .release :: _ => true

/-- Thread `i` performs its next operation. -/
def lockStep {n : Nat} (w : Fin n → LThread) (i : Fin n) : Option (Fin n → LThread) :=
  if enabled w i then
    match (w i).rest with
    | [] => none
    | op :: r => some (Function.update w i ⟨afterOp (w i).held op, r⟩)
  else none

/-- A schedule: which thread performs an operation at each step. -/
def lockRun {n : Nat} (w : Fin n → LThread) : List (Fin n) → Option (Fin n → LThread)
  | [] => some w
  | i :: is => match lockStep w i with
    | none => none
    | some w' => lockRun w' is

/-- The calls. `s`, `c` and `m` are the submap, cloud or mutex concerned. -/
inductive LockCall where
  /-- `Submap::GetFrames` (179-182) -/
  | getFrames (s : Nat)
  /-- `Submap::GetFrame` (184-195); `mine`: the id belongs to this submap -/
  | getFrame (s : Nat) (mine : Bool)
  /-- `Submap::Cloud` (217-222); `load`: the cloud is read from its file -/
  | cloud (s c : Nat) (load : Bool)
  /-- `Submap::SetMatchedTransformedToNext` (197-215); `disk`: clouds are saved; `frames`: the cloud of each
  frame, and whether it is in memory -/
  | setMatched (s c : Nat) (disk : Bool) (frames : List (Nat × Bool))
  /-- `Submap::UpdateInactiveTime` (224-236); `on`: swapping is enabled and the submap is matched; `idle`: the
  delay has passed; `inMem`: the cloud is in memory -/
  | tick (s c : Nat) (on idle inMem : Bool)
  /-- `Submap::UpdateInnerFramePose` (268-274) -/
  | updatePoses (s : Nat)
  /-- `InnerPointCloudData::Empty`, `SaveToFile` (374-377, 428-439) -/
  | cloudRead (c : Nat)
  /-- `InnerPointCloudData::TransformCloud`, `SetInnerCloud` (395-404, 412-416) -/
  | cloudWrite (c : Nat)
  /-- `InnerPointCloudData::Clear` (383-393) -/
  | cloudClear (c : Nat) (inMem : Bool)
  /-- `InnerPointCloudData::CloudInMemory` (441-459) -/
  | cloudInMemory (c : Nat) (load : Bool)
  /-- a call of the data collector or the pose extrapolator -/
  | single (m : Nat)

def readScript (c : Nat) : List LockOp := [.acquire (.cloud c) .sh, .release]
def writeScript (c : Nat) : List LockOp := [.acquire (.cloud c) .up, .promote, .demote, .release]
def clearScript (c : Nat) (inMem : Bool) : List LockOp := if inMem then writeScript c else []
def loadScript (c : Nat) (load : Bool) : List LockOp :=
  .acquire (.cloud c) .up :: ((if load then [.promote, .demote] else []) ++ [.release])

/-- The lock operations of a call. -/
def lockScript : LockCall → List LockOp
  | .getFrames s => [.acquire (.submap s) .sh, .release]
  | .getFrame s mine => if mine then [.acquire (.submap s) .sh, .release] else []
  | .cloud s c load => .acquire (.submap s) .sh :: (loadScript c load ++ [.release])
  | .setMatched s c disk frames =>
    [.acquire (.submap s) .up, .promote, .demote] ++
    (if disk then
      -- `ToPcdFile`: `Empty`, then `SaveToFile`
      readScript c ++ readScript c ++
      frames.flatMap (fun f => readScript f.1 ++ readScript f.1 ++ clearScript f.1 f.2)
    else []) ++ [.release]
  | .tick s c on idle inMem =>
    if on then
      .acquire (.submap s) .up :: ((if idle then .promote :: (clearScript c inMem ++ [.demote]) else []) ++ [.release])
    else []
  | .updatePoses s => [.acquire (.submap s) .up, .promote, .demote, .release]
  | .cloudRead c => readScript c
  | .cloudWrite c => writeScript c
  | .cloudClear c inMem => clearScript c inMem
  | .cloudInMemory c load => loadScript c load
  | .single m => [.acquire (.plain m) .ex, .release]

/-- Threads that will make the given calls. -/
def lockStart {n : Nat} (calls : Fin n → List LockCall) : Fin n → LThread :=
  fun i => ⟨[], (calls i).flatMap lockScript⟩

end Verif
