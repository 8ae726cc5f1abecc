import Verif.Model.ImuQueue
/-! Vocabulary for C70. -/
namespace Verif.Spec
variable {α : Type}

/-- The IMU messages of a history, in the order given. -/
def imuGiven : List (QEvent α) → List (ImuItem α)
  | [] => []
  | .imu m :: r => m :: imuGiven r
  | _ :: r => imuGiven r

/-- The messages a tracker has used, in order. -/
def used : List (TrackOp α) → List (ImuItem α)
  | [] => []
  | .message m :: r => m :: used r
  | _ :: r => used r

/-- Stamps increase. -/
def StampsIncrease (l : List (ImuItem α)) : Prop := l.Pairwise fun a b => a.stamp < b.stamp

/-- The messages stamped before `t`. -/
def before (t : Nat) (l : List (ImuItem α)) : List (ImuItem α) := l.filter fun m => decide (m.stamp < t)

/-- Starting at time `τ`: time never goes back, every message is used at its own time, and no observation
is made up. -/
def OnTime : Nat → List (TrackOp α) → Prop
  | _, [] => True
  | τ, .advance t :: r => τ ≤ t ∧ OnTime t r
  | τ, .message m :: r => m.stamp = τ ∧ OnTime τ r
  | _, .pretend :: _ => False

/-- No message comes with a stamp before the time of a guess already made (since the newest pose). -/
def NoLate : Nat → List (QEvent α) → Prop
  | _, [] => True
  | q, .imu m :: r => q ≤ m.stamp ∧ NoLate q r
  | _, .pose t :: r => NoLate t r
  | q, .query t :: r => NoLate (max q t) r

end Verif.Spec
