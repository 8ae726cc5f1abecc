import Verif.Model.Outcome
/-
builder/pose_extrapolator.cc:48-66, 90-133, 177-197, 242-304: how IMU messages reach the two IMU
trackers (mode `kDefaultWithImu`).

A tracker is its time and the list of calls made on it, oldest first; what the calls compute is
modelled in Model/ImuTracker.  Stamps are nanoseconds.  Odometry is never given (see
Model/Extrapolator).  Positions are left out.
-/
namespace Verif

/-- An IMU message: stamp and content. -/
structure ImuItem (α : Type) where
  stamp : Nat
  data : α
  deriving DecidableEq

/-- Calls on a tracker: `Advance`; the two observations of a message; the two made-up observations of
lines 262-266. -/
inductive TrackOp (α : Type) where
  | advance (t : Nat)
  | message (m : ImuItem α)
  | pretend
  deriving DecidableEq

structure QTracker (α : Type) where
  time : Nat
  log : List (TrackOp α)

/-- The members that matter: stamp of the newest pose, `imu_data_`, `imu_tracker_`,
`extrapolation_imu_tracker_` (none: null), stamp of the cached pose. -/
structure ImuQueue (α : Type) where
  newest : Nat
  queue : List (ImuItem α)
  tracker : QTracker α
  ext : Option (QTracker α)
  cache : Nat

section
variable {α : Type}

/-- imu_tracker.cc:40-41. -/
def qAdvance (t : Nat) (k : QTracker α) : Outcome (QTracker α) := do
  Outcome.check (k.time ≤ t)
  return ⟨t, k.log ++ [.advance t]⟩

/-- 278-283. -/
def qMessages (time : Nat) : List (ImuItem α) → QTracker α → Outcome (QTracker α)
  | [], k => .ok k
  | m :: r, k =>
    if m.stamp < time then do
      let k ← qAdvance m.stamp k
      qMessages time r ⟨k.time, k.log ++ [.message m]⟩
    else .ok k

/-- 256-285.  The binary search of line 273 is a linear one here. -/
def qAdvanceTracker (time : Nat) (queue : List (ImuItem α)) (k : QTracker α) : Outcome (QTracker α) := do
  Outcome.check (k.time ≤ time)
  match queue with
  | [] => do
    let k ← qAdvance time k
    return ⟨k.time, k.log ++ [.pretend]⟩
  | f :: r =>
    if time < f.stamp then do
      let k ← qAdvance time k
      return ⟨k.time, k.log ++ [.pretend]⟩
    else do
      let k ← if k.time < f.stamp then qAdvance f.stamp k else pure k
      let k ← qMessages time ((f :: r).dropWhile (fun m => decide (m.stamp < k.time))) k
      qAdvance time k

/-- 242-247. -/
def qTrim (last : Nat) : List (ImuItem α) → List (ImuItem α)
  | a :: b :: r => if b.stamp ≤ last then qTrim last (b :: r) else a :: b :: r
  | l => l

/-- 48-66: `InitializeWithImu`, including the first pose (90-97). -/
def qStart (m : ImuItem α) : ImuQueue α :=
  { newest := m.stamp, queue := [m], tracker := ⟨m.stamp, [.message m, .advance m.stamp]⟩, ext := none
    cache := m.stamp }

/-- 124-133. -/
def qImu (m : ImuItem α) (s : ImuQueue α) : Outcome (ImuQueue α) := do
  Outcome.check (s.newest ≤ m.stamp)
  return { s with queue := qTrim s.newest (s.queue ++ [m]) }

/-- 90-122, not the first pose. -/
def qPose (t : Nat) (s : ImuQueue α) : Outcome (ImuQueue α) := do
  let k ← qAdvanceTracker t s.queue s.tracker
  return { s with newest := t, queue := qTrim t s.queue, tracker := k, ext := some k }

/-- 177-197 with simple_time.cc:61-67: nothing is done if the stamp is that of the cached pose, up to a
nanosecond; before the second pose the extrapolation tracker is null. -/
def qQuery (t : Nat) (s : ImuQueue α) : Outcome (ImuQueue α) := do
  Outcome.check (s.newest ≤ t)
  if s.cache ≤ t + 1 ∧ t ≤ s.cache + 1 then return s
  match s.ext with
  | none => .ub
  | some e => do
    Outcome.check (e.time ≤ t)
    let e ← qAdvanceTracker t s.queue e
    return { s with ext := some e, cache := t }

inductive QEvent (α : Type) where
  | imu (m : ImuItem α)
  | pose (t : Nat)
  | query (t : Nat)
  deriving DecidableEq

def iqStep (s : ImuQueue α) : QEvent α → Outcome (ImuQueue α)
  | .imu m => qImu m s
  | .pose t => qPose t s
  | .query t => qQuery t s

def iqRun : ImuQueue α → List (QEvent α) → Outcome (ImuQueue α)
  | s, [] => .ok s
  | s, e :: r => do
    let s ← iqStep s e
    iqRun s r

end
end Verif
