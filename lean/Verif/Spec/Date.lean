import Verif.Model.Extrapolator
import Verif.Model.ImuTracker
import Verif.Model.Replay
/-! Specification for C138: the same recording at a later date. -/
namespace Verif.Spec

/-- Apply a function to the result, keep failures. -/
def okMap {A B : Type} (f : A → B) : Outcome A → Outcome B
  | .ok a => .ok (f a)
  | .abort => .abort
  | .ub => .ub

/-! ### the extrapolator -/
section
variable {R W : Type}

def laterPose (d : Nat) (p : TPose R) : TPose R := { p with time := p.time + d }

/-- The same state with all times later by `d`. -/
def laterExtrap (d : Nat) (s : Extrap R W) : Extrap R W :=
  { s with
    queue := s.queue.map (laterPose d)
    cache := laterPose d s.cache
    tracker := s.tracker.map (· + d)
    extTracker := s.extTracker.map (· + d)
    imu := s.imu.map (· + d) }

def laterOp (d : Nat) : ExOp R → ExOp R
  | .add p => .add (laterPose d p)
  | .query t => .query (t + d)
  | .imu t => .imu (t + d)
  | .rough v => .rough v

/-- The rotation arithmetic with later inertial messages: what is computed depends on them, not on their date. -/
structure LaterOps (d : Nat) (ops ops' : RotOps R W) : Prop where
  angVel : ops'.angVel = ops.angVel
  turn : ops'.turn = ops.turn
  imuTurn : ∀ r a b, ops'.imuTurn r (a + d) (b + d) = ops.imuTurn r a b

/-- The stamps of a call are after the beginning of time. -/
def OpAfterZero : ExOp R → Prop
  | .add p => 0 < p.time
  | .query t => 0 < t
  | .imu t => 0 < t
  | .rough _ => True

def laterEvent (d : Nat) : DrvEvent R → DrvEvent R
  | .arrive t => .arrive (t + d)
  | .imu t r => .imu (t + d) r
  | .process p r => .process p r

def EventAfterZero : DrvEvent R → Prop
  | .arrive t => 0 < t
  | .imu t _ => 0 < t
  | .process _ _ => True

/-- The same, but before the first pose the cached pose has no date. -/
def laterEx (d : Nat) (s : Extrap R W) : Extrap R W :=
  if s.queue = [] then { laterExtrap d s with cache := s.cache } else laterExtrap d s

def laterDriver (d : Nat) (s : Driver R W) : Driver R W :=
  { s with
    ex := s.ex.map (laterEx d)
    waiting := s.waiting.map (· + d) }
end

/-! ### the inertial tracker -/

/-- The same tracker at a later date; no acceleration yet stays so. -/
noncomputable def laterImu (d : ℝ) (s : ImuState) : ImuState :=
  { s with time := s.time + d, lastAcc := if s.lastAcc = 0 then 0 else s.lastAcc + d }

def laterImuEvent (d : ℝ) : ImuEvent → ImuEvent
  | .advance t => .advance (t + d)
  | .acceleration a => .acceleration a
  | .rotation w => .rotation w

/-! ### the run -/
section
variable {G C X I : Type}

def laterPlay (d : Nat) (li : I → I) : PlayEvent C I → PlayEvent C I
  | .cloud c t => .cloud c (t + d)
  | .imu i => .imu (li i)
  | .take => .take
  | .done => .done

/-- An extrapolator that sees no date: with later calls (`lx`: the state with later times) it answers the same, in the
states `ok`, which it does not leave. -/
structure SeesNoDate (d : Nat) (ok : X → Prop) (lx : X → X) (li : I → I) (e : Extr X G I) : Prop where
  tell : ∀ x t g, ok x → e.tell (lx x) (t + d) g = okMap lx (e.tell x t g)
  ask : ∀ x t, ok x → e.ask (lx x) (t + d) = okMap (fun r => (lx r.1, r.2)) (e.ask x t)
  imu : ∀ x i, ok x → e.imu (lx x) (li i) = okMap lx (e.imu x i)
  told : ∀ x t g x', ok x → e.tell x t g = .ok x' → ok x'
  asked : ∀ x t r, ok x → e.ask x t = .ok r → ok r.1
  heard : ∀ x i x', ok x → e.imu x i = .ok x' → ok x'

variable {α : Type}
def laterItem (d : Nat) (m : ImuItem α) : ImuItem α := { m with stamp := m.stamp + d }
def laterTrackOp (d : Nat) : TrackOp α → TrackOp α
  | .advance t => .advance (t + d)
  | .message m => .message (laterItem d m)
  | .pretend => .pretend
def laterTracker (d : Nat) (k : QTracker α) : QTracker α := ⟨k.time + d, k.log.map (laterTrackOp d)⟩
def laterQueue (d : Nat) (q : ImuQueue α) : ImuQueue α :=
  { newest := q.newest + d, queue := q.queue.map (laterItem d), tracker := laterTracker d q.tracker
    ext := q.ext.map (laterTracker d), cache := q.cache + d }

/-- Both trackers have begun with a message after the beginning of time. -/
def BegunAfterZero (k : QTracker α) : Prop := ∃ m l, k.log = .message m :: l ∧ 0 < m.stamp
end
end Verif.Spec
