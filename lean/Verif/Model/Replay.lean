import Verif.Model.EndToEnd
import Verif.Model.ImuQueue
/-
builder/map_builder.cc:156-191, 260-397 with the pose extrapolator inside the loop: the recorded messages come in
their order, and the scan-matching thread takes clouds from the queue whenever it gets to it.  One round has two
steps, since messages may come while the matcher is running: the cloud is taken and its pose predicted (270-304),
and the result is added (337-393).

Simplified: filters and accumulation (C18-C23) are left out, as in `FrontEnd`; with an IMU the recording begins with
the first inertial message (before it clouds are dropped, line 157).
-/
namespace Verif

/-- What the loop asks of the extrapolator: `AddPose`, `ExtrapolatePose`, `AddImuData`. -/
structure Extr (X G I : Type) where
  tell : X → Nat → G → Outcome X
  ask : X → Nat → Outcome (X × G)
  imu : X → I → Outcome X

/-- A recorded message arrives, or the scan-matching thread makes a step. -/
inductive PlayEvent (C I : Type) where
  | cloud (c : C) (t : Nat)
  | imu (i : I)
  | take
  | done

/-- `busy`: the cloud being matched, its stamp and its predicted pose. -/
structure PlayState (G C X : Type) where
  fe : FeState G C
  ex : X
  busy : Option (C × Nat × G)

section
variable {G C X I : Type} [Group G]

/-- map_builder.cc:270-304: the next cloud, if any; the pose is predicted unless the cloud is the first (279) or
before the newest pose (291). -/
def playTake (e : Extr X G I) (s : PlayState G C X) : Outcome (PlayState G C X) :=
  match s.busy, s.fe.waiting with
  | none, (c, t) :: rest =>
    if s.fe.got = true ∧ s.fe.last ≤ t then do
      let a ← e.ask s.ex t
      return ⟨{ s.fe with waiting := rest }, a.1, some (c, t, a.2)⟩
    else .ok ⟨{ s.fe with waiting := rest }, s.ex, some (c, t, 1)⟩
  | _, _ => .ok s

/-- map_builder.cc:279-297, 305-393: the rest of the round; every pose is added to the extrapolator (287, 356). -/
def playDone (cfg : FeCfg G C) (e : Extr X G I) (s : PlayState G C X) : Outcome (PlayState G C X) :=
  match s.busy with
  | none => .ok s
  | some (c, t, pred) => do
    let r ← feProcess cfg pred c t s.fe
    match r.2 with
    | .late _ => return ⟨r.1, s.ex, none⟩
    | .placed _ _ pose _ _ => do
      let x ← e.tell s.ex t pose
      return ⟨r.1, x, none⟩

def playStep (cfg : FeCfg G C) (e : Extr X G I) (s : PlayState G C X) : PlayEvent C I → Outcome (PlayState G C X)
  | .cloud c t => .ok { s with fe := feArrive c t s.fe }
  | .imu i => do
    let x ← e.imu s.ex i
    return { s with ex := x }
  | .take => playTake e s
  | .done => playDone cfg e s

def playRun (cfg : FeCfg G C) (e : Extr X G I) : List (PlayEvent C I) → PlayState G C X → Outcome (PlayState G C X)
  | [], s => .ok s
  | ev :: es, s => do
    let s ← playStep cfg e s ev
    playRun cfg e es s

/-- The extrapolator with inertial messages (pose_extrapolator.cc:90-133, 177-197, 287-295), rotations only: the
queue and the trackers (`ImuQueue`), the newest pose and the cached one.  `turn` gives the orientation a tracker has
after its calls (`ImuTracker`). -/
def imuExtr {α : Type} (turn : List (TrackOp α) → G) : Extr (ImuQueue α × G × G) G (ImuItem α) where
  tell x t g := do
    let q ← qPose t x.1
    return (q, g, x.2.2)
  ask x t := do
    let q ← qQuery t x.1
    if x.1.cache ≤ t + 1 ∧ t ≤ x.1.cache + 1 then return ((q, x.2.1, x.2.2), x.2.2)
    else
      match q.ext with
      | none => .ub
      | some k =>
        let p := x.2.1 * ((turn q.tracker.log)⁻¹ * turn k.log)
        return ((q, x.2.1, p), p)
  imu x m := do
    let q ← qImu m x.1
    return (q, x.2.1, x.2.2)

/-- The start with an IMU: the first message and a pose at its time (48-66). -/
def playImu {α : Type} (first : G) (m : ImuItem α) : PlayState G C (ImuQueue α × G × G) :=
  ⟨feInit m.stamp, (qStart m, first, first), none⟩

/-- The whole run: scan matching, submaps, optimiser, saving, as `buildMap`.  What the optimiser is given and what it
computes are functions of the submaps. -/
def playMap {P E : Type} (r : RunCfg G P C E) (e : Extr X G I) (x0 : X) (n start : Nat) (es : List (PlayEvent C I))
    (sched : List WeaveStep) (obs : List (Submap G P) → List (IsamFrame G E)) (est : List (Submap G P) → Nat → G)
    (coord : List (Submap G P) → G) : Outcome (BuiltMap G P C) := do
  let s ← playRun r.fe e es ⟨feInit start, x0, none⟩
  let th ← SubmapThread.run r.act r.sub r.traj n SubmapThread.init
    (weave sched (s.fe.frames.map (keyFrameOf r.pts r.stampOf)))
  let st ← isamRun r.isam (obs th.submaps) (isamInit G E)
  let files ← finishMap r.act r.origin r.save r.useGps r.isam st (est th.submaps) (coord th.submaps) th.submaps
  return { keys := s.fe.frames, submaps := th.submaps, files := files,
           seen := match th.pc with | .finished m => some m | _ => none }
end
end Verif
