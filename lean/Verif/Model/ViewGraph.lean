import Verif.Model.Filters
/-
back_end/view_graph.{h,cc}: the graph of frames and constraints that the optimiser keeps.

Poses are values of any type `P`; `pos` reads entries (0,3) and (1,3) of a pose.  Numbers are exact.
`std::map` is a list sorted by index.
-/
namespace Verif

/-- view_graph.h:49-54 `GraphItem`. -/
structure VgItem (P : Type) where
  pose : P
  conns : List (Int × P)

/-- view_graph.h:80-84. -/
structure ViewGraph (P : Type) where
  items : List (Int × VgItem P)
  minB : Rat × Rat
  maxB : Rat × Rat

/-- Look-up in `graph_map_`. -/
def vgFind {P : Type} (i : Int) : List (Int × VgItem P) → Option (VgItem P)
  | [] => none
  | (j, it) :: l => if i = j then some it else vgFind i l

/-- view_graph.cc:52 `graph_map_[index].self_pose = pose`. -/
def vgSetPose {P : Type} (i : Int) (p : P) : List (Int × VgItem P) → List (Int × VgItem P)
  | [] => [(i, ⟨p, []⟩)]
  | (j, it) :: l =>
    if i < j then (i, ⟨p, []⟩) :: (j, it) :: l
    else if i = j then (j, ⟨p, it.conns⟩) :: l
    else (j, it) :: vgSetPose i p l

/-- view_graph.cc:48 `graph_map_[a].connections.push_back(...)` for an index that is present. -/
def vgPush {P : Type} (a : Int) (c : Int × P) : List (Int × VgItem P) → List (Int × VgItem P)
  | [] => []
  | (j, it) :: l => if a = j then (j, ⟨it.pose, it.conns ++ [c]⟩) :: l else (j, it) :: vgPush a c l

/-- view_graph.cc:35-40; `big` is the largest double, `tiny` the smallest positive normal double. -/
def vgInit (P : Type) (big tiny : Rat) : ViewGraph P :=
  { items := [], minB := (big, big), maxB := (tiny, tiny) }

/-- view_graph.cc:42-49. -/
def ViewGraph.addEdge {P : Type} (g : ViewGraph P) (a b : Int) (t : P) : ViewGraph P :=
  if (vgFind a g.items).isNone || (vgFind b g.items).isNone then g
  else { g with items := vgPush a (b, t) g.items }

/-- view_graph.cc:51-66. -/
def ViewGraph.addVertex {P : Type} (pos : P → Rat × Rat) (g : ViewGraph P) (i : Int) (p : P) :
    ViewGraph P :=
  { items := vgSetPose i p g.items
    minB := (if (pos p).1 < g.minB.1 then (pos p).1 else g.minB.1,
             if (pos p).2 < g.minB.2 then (pos p).2 else g.minB.2)
    maxB := (if g.maxB.1 < (pos p).1 then (pos p).1 else g.maxB.1,
             if g.maxB.2 < (pos p).2 then (pos p).2 else g.maxB.2) }

/-- view_graph.cc:90-102: drawing widens the stored box by 1 m on every side (unless the graph is
empty). -/
def ViewGraph.widen {P : Type} (g : ViewGraph P) : ViewGraph P :=
  if g.items.isEmpty then g
  else { g with
    minB := (g.minB.1 - 1, g.minB.2 - 1)
    maxB := (g.maxB.1 + 1, g.maxB.2 + 1) }

/-- view_graph.cc:103-104, 117-119: size of the image drawn after `widen`. -/
def ViewGraph.imageSize {P : Type} (g : ViewGraph P) (res : Rat) : Int × Int :=
  (truncInt ((g.maxB.1 - g.minB.1) / res), truncInt ((g.maxB.2 - g.minB.2) / res))

/-- view_graph.cc:107-114 `pose_to_image`. -/
def ViewGraph.pixel {P : Type} (pos : P → Rat × Rat) (g : ViewGraph P) (res : Rat) (p : P) :
    Int × Int :=
  (truncInt (((pos p).1 - g.minB.1) / res), truncInt ((g.maxB.2 - (pos p).2) / res))

/-- view_graph.cc:122-137: the line segments drawn: end points and whether it is blue. -/
def ViewGraph.lines {P : Type} (pos : P → Rat × Rat) (g : ViewGraph P) (res : Rat) :
    List ((Int × Int) × Option (Int × Int) × Bool) :=
  g.items.flatMap fun it => it.2.conns.map fun c =>
    (g.pixel pos res it.2.pose, (vgFind c.1 g.items).map fun x => g.pixel pos res x.pose,
      decide (c.1 - it.1 = 1))

/-- One call of the interface. -/
inductive VgOp (P : Type) where
  | vertex (i : Int) (p : P)
  | edge (a b : Int) (t : P)
  | image

def ViewGraph.step {P : Type} (pos : P → Rat × Rat) (g : ViewGraph P) : VgOp P → ViewGraph P
  | .vertex i p => g.addVertex pos i p
  | .edge a b t => g.addEdge a b t
  | .image => g.widen

/-- Any sequence of calls on a new graph. -/
def vgRun {P : Type} (pos : P → Rat × Rat) (big tiny : Rat) (ops : List (VgOp P)) : ViewGraph P :=
  ops.foldl (ViewGraph.step pos) (vgInit P big tiny)

end Verif
