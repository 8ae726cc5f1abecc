import Verif.Model.Names
import Verif.Model.Geom
/-
builder/trajectory.cc:71-143 `Trajectory::OutputPathToPointcloud`: the path files.

Numbers are rational; `std::to_string(double)` (`%f`: six decimals, rounded to nearest, ties to even)
is modelled on them, so "-0.000000" can appear for a small negative number.  Not-a-number and
infinities are left out.  Storing a value in a `float` is the parameter `f32`.  A frame is the six
numbers of its pose (C63); a submap also has its GPS and odometry positions, if any.
-/
namespace Verif

/-- Rounding to nearest, ties to even, of a rational that is not negative. -/
def roundEven (m : Rat) : Nat :=
  let fl := m.floor.toNat
  let r := m - fl
  if r < 1 / 2 then fl else if 1 / 2 < r then fl + 1 else if fl % 2 = 0 then fl else fl + 1

/-- The last `k` decimal digits of `n`, with leading zeros. -/
def padDigits : Nat → Nat → List Char
  | 0, _ => []
  | k + 1, n => padDigits k (n / 10) ++ [digitChar (n % 10)]

/-- `std::to_string(double)`. -/
def fixed6 (x : Rat) : List Char :=
  let micro := roundEven ((if x < 0 then -x else x) * 1000000)
  (if x < 0 then ['-'] else []) ++ decNat (micro / 1000000) ++ '.' :: padDigits 6 (micro % 1000000)

/-- The six numbers of a pose (`TransformToVector6`). -/
structure PathPose where
  tx : Rat
  ty : Rat
  tz : Rat
  rx : Rat
  ry : Rat
  rz : Rat

structure PathSubmap where
  gps : Option (Vec3 Rat)
  odom : Option (Vec3 Rat)
  frames : List PathPose

/-- A point of a path cloud: position and intensity. -/
structure PathPoint where
  p : Vec3 Rat
  intensity : Rat
  deriving DecidableEq

/-- The files: `none` is a file that is not written. -/
structure PathFiles where
  csv : Option (List Char)
  path : Option (List PathPoint)
  enu : Option (List PathPoint)
  odom : Option (List PathPoint)

structure PathState where
  index : Nat                  -- path_point_index
  content : List Char          -- path_content
  path : List PathPoint
  enu : List PathPoint
  odom : List PathPoint

def commaSpace : List Char := [',', ' ']

/-- 115-123: one line of the text. -/
def pathLine (index : Nat) (q : PathPose) : List Char :=
  decNat index ++ commaSpace ++ fixed6 q.tx ++ commaSpace ++ fixed6 q.ty ++ commaSpace ++
    fixed6 q.tz ++ commaSpace ++ fixed6 q.rx ++ commaSpace ++ fixed6 q.ry ++ commaSpace ++
    fixed6 q.rz ++ [' ', '\n']

section
variable (f32 : Rat → Rat)

def pathVec (v : Vec3 Rat) (i : Rat) : PathPoint := ⟨⟨f32 v.x, f32 v.y, f32 v.z⟩, f32 i⟩

/-- 105-126: one frame. -/
def pathFrame (write : Bool) (st : PathState) (q : PathPose) : PathState :=
  { st with path := st.path ++ [pathVec f32 ⟨q.tx, q.ty, q.tz⟩ st.index]
            content := if write then st.content ++ pathLine st.index q else st.content
            index := st.index + 1 }

/-- 83-127: one submap. -/
def pathSubmap (write : Bool) (st : PathState) (s : PathSubmap) : PathState :=
  let st := match s.gps with
    | some v => { st with enu := st.enu ++ [pathVec f32 v 0] }
    | none => st
  let st := match s.odom with
    | some v => { st with odom := st.odom ++ [pathVec f32 v 0] }
    | none => st
  s.frames.foldl (pathFrame f32 write) st

/-- A file that is written only if it has points (128-138). -/
def ifAny (l : List PathPoint) : Option (List PathPoint) := if l.isEmpty then none else some l

/-- 71-143.  `dir`: the directory exists; `opens`: the text file could be opened. -/
def exportPath (dir opens : Bool) (ss : List PathSubmap) : PathFiles :=
  if !dir then ⟨none, none, none, none⟩
  else
    let st := ss.foldl (pathSubmap f32 opens) ⟨0, [], [], [], []⟩
    { csv := if opens then some st.content else none
      path := ifAny st.path
      enu := ifAny st.enu
      odom := ifAny st.odom }

end
end Verif
