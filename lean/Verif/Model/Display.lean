import Verif.Model.Connect
import Verif.Model.Isam
import Mathlib.Algebra.Order.Ring.Rat
import Mathlib.Algebra.Order.AbsoluteValue.Basic
/-!
What is shown while mapping: builder/map_builder.cc:483-556 (`ConnectAllSubmap`) and
ros_node/static_mapping_node.cpp:222-314 (publishing edges and path).

Simplifications: the 5 % random sample of the local map and the conversion into ROS messages are
left out; positions are rational.
-/
namespace Verif

section
variable {T V : Type}

/-- The lines of one item (static_mapping_node.cpp:290-310): the end is looked up with `at`. -/
def itemLines (pos : T → V) (items : List (Int × VgItem T)) (key : Int) (self : T) :
    List (Int × T) → Outcome (List (V × V))
  | [] => .ok []
  | c :: cs =>
    if c.1 - key = 1 then itemLines pos items key self cs
    else
      match vgFind c.1 items with
      | none => .abort
      | some w => do
        let rest ← itemLines pos items key self cs
        return (pos self, pos w.pose) :: rest

/-- `publish_edges` (static_mapping_node.cpp:269-314). -/
def edgeLines (pos : T → V) (items : List (Int × VgItem T)) :
    List (Int × VgItem T) → Outcome (List (V × V))
  | [] => .ok []
  | x :: xs =>
    if x.2.conns.length ≤ 1 then edgeLines pos items xs
    else do
      let l ← itemLines pos items x.1 x.2.pose x.2.conns
      let rest ← edgeLines pos items xs
      return l ++ rest

def publishEdges (pos : T → V) (items : List (Int × VgItem T)) : Outcome (List (V × V)) :=
  edgeLines pos items items

end

section
variable {G : Type} [Group G]

/-- The submaps shown during a run, with their poses (map_builder.cc:495-500): one call behind each
`AddFrame` of the loop. -/
def shownSubmaps (st : Conn G) : List (ConnEv G) → List (Nat × G)
  | [] => []
  | e :: es =>
    match st.step e with
    | .ok st' =>
      (match e, st.pc with
       | .connect _, .connect last => if st.fin < last then [(st'.fin, st'.pose st'.fin)] else []
       | _, _ => []) ++ shownSubmaps st' es
    | _ => []

/-- The path that is shown (map_builder.cc:503-511). -/
def shownPath (st : Conn G) : List G :=
  ((List.range st.size).filter fun i => decide (i ≤ st.fin)).map st.pose

end

/-- A submap as the display sees it: index, position and its cloud in map coordinates. -/
structure ShownMap (C : Type) where
  index : Int
  x : Rat
  y : Rat
  z : Rat
  cloud : List C

/-- The test of map_builder.cc:521-528, with `kLocalMapRange` = 30; the norm is compared squared. -/
def tooFar {C : Type} (s n : ShownMap C) : Bool :=
  decide (30 * 30 ≤ (s.x - n.x) * (s.x - n.x) + (s.y - n.y) * (s.y - n.y)) ||
    decide (2 ≤ |s.z - n.z|)

/-- The local map before sampling (map_builder.cc:513-539); `at` throws for a missing index. -/
def localMapFrom {C : Type} (all : List (ShownMap C)) (fin : Nat) :
    List (ShownMap C) → Outcome (List C)
  | [] => .ok []
  | s :: l =>
    if (fin : Int) < s.index then .ok []
    else
      match all[fin]? with
      | none => .abort
      | some n => do
        let rest ← localMapFrom all fin l
        return (if tooFar s n then [] else s.cloud) ++ rest

def localMap {C : Type} (all : List (ShownMap C)) (fin : Nat) : Outcome (List C) :=
  localMapFrom all fin all

end Verif
