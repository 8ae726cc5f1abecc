import Verif.Model.Switches
/-! Which messages count, in terms of the calls made before them. -/
namespace Verif.Spec
variable {M : Type}

/-- Whether GPS is switched on after these calls: by the last switch, off without one. -/
def gpsOn (cs : List (BuilderCall M)) : Bool :=
  cs.foldl (fun b c => match c with | .enableGps x => x | _ => b) false

def isFinish : BuilderCall M → Bool
  | .finish => true
  | _ => false

/-- The run has been ended. -/
def finished (cs : List (BuilderCall M)) : Bool := cs.any isFinish

def asksImu : BuilderCall M → Bool
  | .init f => f.imu.getD false
  | _ => false

/-- The settings file asks for the inertial sensor. -/
def imuOn (cs : List (BuilderCall M)) : Bool :=
  cs.any asksImu

/-- The GPS messages sent while GPS was switched on and the run had not been ended. -/
def gpsWanted (cs : List (BuilderCall M)) : List M :=
  cs.zipIdx.filterMap fun
    | (.gps m, i) => if gpsOn (cs.take i) && !finished (cs.take i) then some m else none
    | _ => none

/-- The inertial messages sent after the file asked for them and before the end. -/
def imuWanted (cs : List (BuilderCall M)) : List M :=
  cs.zipIdx.filterMap fun
    | (.imu m, i) => if imuOn (cs.take i) && !finished (cs.take i) then some m else none
    | _ => none

/-- The clouds sent before the end, not older than the last matched pose (known once there is an
extrapolator), and, with the inertial sensor, after its first message. -/
def cloudWanted (cs : List (BuilderCall M)) : List M :=
  cs.zipIdx.filterMap fun
    | (.cloud m stamp lastPose, i) =>
      if !finished (cs.take i) && decide (lastPose ≤ stamp) &&
          (!imuOn (cs.take i) || !(imuWanted (cs.take i)).isEmpty) then some m else none
    | _ => none

end Verif.Spec
