import Verif.Model.Filters
/-
pre_processors/filter_range_image.{h,cc}: `DepthCluster` and `LabelOneComponent`, on top of the
range image filter of Model/Filters.

Parameters: the angle test (`atan2`, `sin`, `cos` of the two ranges, the larger one first).
Not modelled: wrap-around of the 32-bit label, `max_label_` (only used for colours). `ToPng` and the geometry are in Model/RangePixel.
-/
namespace Verif

variable {R : Type} [Field R] [LinearOrder R]

/-- Image size, the bound 1e-6 for empty cells, and the angle test `beta > threshold` of
filter_range_image.cc:289-303, as a function of "the step is horizontal", the larger and the smaller
range. -/
structure DepthCfg (R : Type) where
  rows : Int
  cols : Int
  tiny : R
  sep : Bool → R → R → Bool

/-- Inside the matrix. -/
def inImage (cfg : DepthCfg R) (c : Int × Int) : Bool :=
  decide (0 ≤ c.1) && decide (c.1 < cfg.rows) && decide (0 ≤ c.2) && decide (c.2 < cfg.cols)

/-- `matrix_image_(..) >= 1e-6`. -/
def occupied (cfg : DepthCfg R) (img : ImageState R) (c : Int × Int) : Bool :=
  decide (cfg.tiny ≤ img.cell c)

/-- `map_image_.at(c)`: throws if the cell is not in the map. -/
def pixelAt (img : ImageState R) (c : Int × Int) : Outcome Nat :=
  match img.index c with
  | none => .abort
  | some i => .ok i

/-- filter_range_image.cc:38-43. -/
def neighbourSteps : List (Int × Int) := [(0, 1), (0, -1), (0, 2), (0, -2), (1, 0), (-1, 0)]

/-- filter_range_image.cc:276-280: the column wraps around once. -/
def wrapCol (cols k : Int) : Int :=
  if k < 0 then k + cols else if k ≥ cols then k - cols else k

/-- filter_range_image.cc:271-303: whether the neighbour in direction `s` is pushed.  Reading the
matrix outside is undefined behaviour. -/
def neighbourOf (cfg : DepthCfg R) (img : ImageState R) (lab : Int × Int → Nat) (cur s : Int × Int) :
    Outcome (Option (Int × Int)) :=
  if cur.1 + s.1 < 0 ∨ cur.1 + s.1 ≥ cfg.rows then .ok none
  else if inImage cfg (cur.1 + s.1, wrapCol cfg.cols (cur.2 + s.2)) = false then .ub
  else if occupied cfg img (cur.1 + s.1, wrapCol cfg.cols (cur.2 + s.2)) = false then .ok none
  else do
    let _ ← pixelAt img (cur.1 + s.1, wrapCol cfg.cols (cur.2 + s.2))
    if lab (cur.1 + s.1, wrapCol cfg.cols (cur.2 + s.2)) > 0 then .ok none
    else if cfg.sep (decide (s.1 = 0))
        (max (img.cell cur) (img.cell (cur.1 + s.1, wrapCol cfg.cols (cur.2 + s.2))))
        (min (img.cell cur) (img.cell (cur.1 + s.1, wrapCol cfg.cols (cur.2 + s.2)))) = true then
      .ok (some (cur.1 + s.1, wrapCol cfg.cols (cur.2 + s.2)))
    else .ok none

/-- filter_range_image.cc:270-307: the neighbours pushed, in order. -/
def pushNeighbours (cfg : DepthCfg R) (img : ImageState R) (lab : Int × Int → Nat)
    (cur : Int × Int) : List (Int × Int) → Outcome (List (Int × Int))
  | [] => .ok []
  | s :: rest => do
    let n ← neighbourOf cfg img lab cur s
    let l ← pushNeighbours cfg img lab cur rest
    return n.toList ++ l

/-- The variables of `LabelOneComponent`. -/
structure LabelState where
  lab : Int × Int → Nat
  queue : List (Int × Int)
  indices : List Nat

/-- filter_range_image.cc:259-307: one round, with the front of the queue already taken off. -/
def labelStep (cfg : DepthCfg R) (img : ImageState R) (label : Nat) (lab : Int × Int → Nat)
    (cur : Int × Int) (q : List (Int × Int)) (indices : List Nat) : Outcome LabelState :=
  if inImage cfg cur = false then .ub
  else if occupied cfg img cur = false then .ok ⟨lab, q, indices⟩
  else do
    let i ← pixelAt img cur
    if lab cur > 0 then .ok ⟨lab, q, indices⟩
    else do
      let ps ← pushNeighbours cfg img (fun c => if c = cur then label else lab c) cur neighbourSteps
      return ⟨fun c => if c = cur then label else lab c, q ++ ps, indices ++ [i]⟩

/-- filter_range_image.cc:258-308: the loop.  The first argument bounds the number of rounds; the
outcome `ub` for a loop that is not finished then is never reached (C52). -/
def labelLoop (cfg : DepthCfg R) (img : ImageState R) (label : Nat) :
    Nat → (Int × Int → Nat) → List (Int × Int) → List Nat → Outcome LabelState
  | _, lab, [], indices => .ok ⟨lab, [], indices⟩
  | 0, _, _ :: _, _ => .ub
  | n + 1, lab, cur :: q, indices => do
    let s ← labelStep cfg img label lab cur q indices
    labelLoop cfg img label n s.lab s.queue s.indices

/-- More rounds than the loop can take. -/
def labelBound (cfg : DepthCfg R) : Nat := 7 * (cfg.rows.toNat * cfg.cols.toNat) + 1

/-- `clusters_[label] = indices` for a `std::map`, a list sorted by key. -/
def mapAssign {β : Type} (k : Nat) (v : β) : List (Nat × β) → List (Nat × β)
  | [] => [(k, v)]
  | e :: r =>
    if k < e.1 then (k, v) :: e :: r
    else if k = e.1 then (k, v) :: r
    else e :: mapAssign k v r

/-- The variables of `DepthCluster`: the labels in `map_image_`, the next label and `clusters_`. -/
structure DepthState where
  lab : Int × Int → Nat
  label : Nat
  clusters : List (Nat × List Nat)

/-- filter_range_image.cc:146-156 and 309-311: one cell. -/
def depthCell (cfg : DepthCfg R) (img : ImageState R) (s : DepthState) (c : Int × Int) :
    Outcome DepthState :=
  if occupied cfg img c = false then .ok s
  else do
    let _ ← pixelAt img c
    if s.lab c > 0 then .ok s
    else do
      let r ← labelLoop cfg img s.label (labelBound cfg) s.lab [c] []
      return { lab := r.lab, label := s.label + 1
               clusters := if r.indices.length ≥ 20 then mapAssign s.label r.indices s.clusters
                           else s.clusters }

/-- filter_range_image.cc:146-158: the loops over rows and columns. -/
def depthScan (cfg : DepthCfg R) (img : ImageState R) : List (Int × Int) → DepthState →
    Outcome DepthState
  | [], s => .ok s
  | c :: cs, s => do
    let s ← depthCell cfg img s c
    depthScan cfg img cs s

/-- The cells row by row. -/
def imageCells (cfg : DepthCfg R) : List (Int × Int) :=
  (List.range cfg.rows.toNat).flatMap fun (r : Nat) =>
    (List.range cfg.cols.toNat).map fun (c : Nat) => ((r : Int), (c : Int))

/-- The range image filter with labels and clusters. -/
structure DepthFilter (R : Type) where
  base : ImageFilter R
  lab : Int × Int → Nat
  clusters : List (Nat × List Nat)

/-- filter_range_image.cc:66-80: labels go with `map_image_`; `clusters_` is not cleared. -/
def DepthFilter.setInput (cfg : DepthCfg R) (st : DepthFilter R) (c : Option (InnerCloud R)) :
    DepthFilter R :=
  { base := st.base.setInput cfg.rows cfg.cols c
    lab := match c with
      | none => st.lab
      | some c => if c.points.isEmpty = true ∨ cfg.rows ≤ 0 ∨ cfg.cols ≤ 0 then st.lab else fun _ => 0
    clusters := st.clusters }

/-- filter_range_image.cc:82-141: `Filter` writes only cells that are empty, and those have no
label. -/
def DepthFilter.filter (near : R) (G : ImageGeom R) (cfg : DepthCfg R) (st : DepthFilter R)
    (out : InnerCloud R) : Outcome (DepthFilter R × InnerCloud R) := do
  let r ← st.base.filter near cfg.tiny G cfg.rows cfg.cols out
  return ({ st with base := r.1 }, r.2)

/-- filter_range_image.cc:161-171: the labelled points; an index outside the cloud is undefined. -/
def labelledPoints (pts : List (InnerPoint R)) (label : Nat) :
    List Nat → Outcome (List (Nat × InnerPoint R))
  | [] => .ok []
  | i :: is =>
    match pts[i]? with
    | none => .ub
    | some p => do
      let l ← labelledPoints pts label is
      return (label, p) :: l

/-- filter_range_image.cc:159-172. -/
def allLabelled (pts : List (InnerPoint R)) : List (Nat × List Nat) →
    Outcome (List (Nat × InnerPoint R))
  | [] => .ok []
  | c :: cs => do
    let l ← labelledPoints pts c.1 c.2
    let r ← allLabelled pts cs
    return l ++ r

/-- filter_range_image.cc:143-173 with an output cloud. -/
def DepthFilter.cluster (cfg : DepthCfg R) (st : DepthFilter R) :
    Outcome (DepthFilter R × List (Nat × InnerPoint R)) :=
  match st.base.base.input with
  | none => .abort
  | some cloud => do
    let r ← depthScan cfg st.base.image (imageCells cfg) ⟨st.lab, 1, st.clusters⟩
    let out ← allLabelled cloud.points r.clusters
    return ({ st with lab := r.lab, clusters := r.clusters }, out)

end Verif
