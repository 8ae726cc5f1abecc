import Verif.Model.Outcome
/-
builder/map_builder.cc:825-911 `MapBuilder::SaveMaps` : writing the map, whole or in parts.

A frame is its points, the map from its coordinates to the global ones, and its position.  The voxel
map is represented by what was inserted in it since it was created (position and cloud, in order);
what `OutputToPointCloud` writes is a function of that (C25, C26).  The index of a submap is its
position in the trajectory (map_builder.cc:695-705, C33).  Clearing the clouds afterwards (892-893)
and the messages are left out.
-/
namespace Verif

structure SaveFrame (P : Type) where
  cloud : List P
  toGlobal : P → P
  position : P

abbrev SaveSubmap (P : Type) := List (SaveFrame P)

/-- 843-844 `ApplyTransformToOutput(GlobalPose)`. -/
def SaveFrame.global {P : Type} (f : SaveFrame P) : List P := f.cloud.map f.toGlobal

/-- A file that is written: its kind, its number for parts, its content. -/
inductive MapFile (P : Type) where
  | part (i : Int) (pts : List P)                    -- part_map_<i>.pcd
  | staticPart (i : Int) (ins : List (P × List P))   -- static_part_map_<i>.pcd
  | whole (pts : List P)                             -- whole_map.pcd
  | static (ins : List (P × List P))                 -- static_map.pcd
deriving DecidableEq

/-- map_builder.h:68-116, the options used here. -/
structure SaveOptions where
  direct : Bool          -- output_direct_combined_map
  mrvm : Bool            -- output_mrvm
  separate : Bool        -- separate_output
  step : Int             -- separate_step

structure SaveState (P : Type) where
  whole : List P
  mrvm : List (P × List P)
  files : List (MapFile P)

/-- 841-855, one frame. -/
def saveFrame {P : Type} (o : SaveOptions) (st : SaveState P) (f : SaveFrame P) : SaveState P :=
  { st with
    mrvm := if o.mrvm then st.mrvm ++ [(f.position, f.global)] else st.mrvm
    whole := if o.direct then st.whole ++ f.global else st.whole }

/-- 862-889, writing part `i` and starting the next. -/
def savePart {P : Type} (o : SaveOptions) (i : Int) (st : SaveState P) : SaveState P :=
  let st1 : SaveState P :=
    if o.direct && !st.whole.isEmpty then
      { st with files := st.files ++ [.part i st.whole], whole := [] }
    else st
  if o.mrvm then { st1 with files := st1.files ++ [.staticPart i st1.mrvm], mrvm := [] }
  else st1

/-- 837-894, one submap.  `%` and `/` by zero are undefined; the remainder is not evaluated for the
last submap (858), the quotient is (861). -/
def saveOne {P : Type} (o : SaveOptions) (total idx : Nat) (st : SaveState P) (s : SaveSubmap P) :
    Outcome (SaveState P) :=
  let st1 := s.foldl (saveFrame o) st
  if o.separate then
    if o.step = 0 then .ub
    else if idx + 1 = total ∨ ((idx : Int) + 1).tmod o.step = 0 then
      .ok (savePart o ((idx : Int).tdiv o.step) st1)
    else .ok st1
  else .ok st1

def saveLoop {P : Type} (o : SaveOptions) (total : Nat) : Nat → SaveState P → List (SaveSubmap P) →
    Outcome (SaveState P)
  | _, st, [] => .ok st
  | idx, st, s :: ss => do
    let st' ← saveOne o total idx st s
    saveLoop o total (idx + 1) st' ss

/-- 825-911: the files written, in order. -/
def saveMaps {P : Type} (o : SaveOptions) (submaps : List (SaveSubmap P)) :
    Outcome (List (MapFile P)) :=
  if !o.direct && !o.mrvm then .ok []
  else do
    let st ← saveLoop o submaps.length 0 { whole := [], mrvm := [], files := [] } submaps
    if o.separate then return st.files
    else return st.files ++ (if o.mrvm then [.static st.mrvm] else []) ++
      (if o.direct && !st.whole.isEmpty then [.whole st.whole] else [])

end Verif
