import Verif.Model.Outcome
import Mathlib.Data.List.Basic
/-
Aligning many clouds at once.

Models `registrators/multiview_registrator_interface.h` and `registrators/multiview_registrator_lum_pcl.h`.
Points have type `P` and poses type `T`; `act` moves a point (in the code a product in `float`s).  Of PCL,
`CorrespondenceEstimation::determineCorrespondences` is the parameter `corr target source`, and what
`LUM::compute` finds is the parameter `solve`; the graph of `LUM` is modelled: `addPointCloud` appends a
vertex with the pose zero, `setCorrespondences` replaces the pairs of an edge, `compute` reads
`cloud[index]` without a check for both ends of every pair (undefined outside of the cloud) when there are
two or more vertices, and `getTransformedCloud` moves the cloud of a vertex by its pose.  Null pointers are
`none`.  `submap.cc` 36, 66 names the class and does not use it.
-/
namespace Verif

/-- One pair of `pcl::Correspondences`: `index_query` in the source, `index_match` in the target. -/
structure PointPair where
  query : Nat
  mate : Nat
  deriving DecidableEq, Repr

/-- `InnerFrame` (multiview_registrator_interface.h:45-48). -/
structure ViewFrame (P T : Type) where
  cloud : List P
  pose : T

/-- The graph inside of `pcl::registration::LUM`: the vertices (cloud and pose) in the order of
`addPointCloud`, the pairs of an edge `(source, target)`. -/
structure LumGraph (P T : Type) where
  verts : List (List P × T) := []
  edges : Nat → Nat → Option (List PointPair) := fun _ _ => none

/-- multiview_registrator_interface.h:50-55 `AddNewCloud`. -/
def addNewCloud {P T : Type} (frames : List (ViewFrame P T)) (cloud : Option (List P)) (pose : T) : List (ViewFrame P T) :=
  match cloud with
  | none => frames
  | some c => frames ++ [⟨c, pose⟩]

/-- `LUM::setCorrespondences`. -/
def LumGraph.setPairs {P T : Type} (g : LumGraph P T) (s t : Nat) (ps : List PointPair) : LumGraph P T :=
  { g with edges := fun a b => if a = s ∧ b = t then some ps else g.edges a b }

/-- multiview_registrator_lum_pcl.h:66-74 : the pairs between cloud `i` and the clouds before it; an edge is
set only with three or more pairs.  `clouds` is `transformed_clouds`, whose entries `i` and `j` exist. -/
def matchEarlier {P T : Type} (corr : List P → List P → List PointPair) (clouds : List (List P)) (i : Nat) :
    List Nat → LumGraph P T → LumGraph P T
  | [], g => g
  | j :: js, g =>
    let ps := corr (clouds.getD i []) (clouds.getD j [])
    matchEarlier corr clouds i js (if 2 < ps.length then g.setPairs j i ps else g)

/-- multiview_registrator_lum_pcl.h:59-75 : one round over the frames from number `i` on. -/
def lumRound {P T : Type} (act : T → P → P) (zero : T) (corr : List P → List P → List PointPair) :
    List (ViewFrame P T) → Nat → LumGraph P T × List (List P) → LumGraph P T × List (List P)
  | [], _, s => s
  | f :: fs, i, s =>
    let c := f.cloud.map (act f.pose)
    let clouds := s.2 ++ [c]
    lumRound act zero corr fs (i + 1)
      (matchEarlier corr clouds i (List.range i) { s.1 with verts := s.1.verts ++ [(c, zero)] }, clouds)

/-- The cloud of a vertex. -/
def LumGraph.cloudAt {P T : Type} (g : LumGraph P T) (v : Nat) : List P := (g.verts.map Prod.fst).getD v []

/-- Every pair of every edge names points that exist. -/
def LumGraph.PairsExist {P T : Type} (g : LumGraph P T) : Prop :=
  ∀ a b ps, g.edges a b = some ps → ∀ p ∈ ps, p.query < (g.cloudAt a).length ∧ p.mate < (g.cloudAt b).length

open Classical in
/-- `LUM::compute`: nothing with less than two vertices; otherwise the poses become what `solve` finds. -/
noncomputable def LumGraph.compute {P T : Type} (solve : LumGraph P T → Nat → T) (g : LumGraph P T) :
    Outcome (LumGraph P T) :=
  if g.verts.length < 2 then .ok g
  else if g.PairsExist then
    .ok { g with verts := (List.range g.verts.length).map fun v => (g.cloudAt v, solve g v) }
  else .ub

/-- multiview_registrator_lum_pcl.h:58-77 : `n` more rounds (`max_iteration_num_` is 5).  `transformed_clouds`
is not cleared between the rounds. -/
noncomputable def lumRounds {P T : Type} (act : T → P → P) (zero : T) (corr : List P → List P → List PointPair)
    (solve : LumGraph P T → Nat → T) (frames : List (ViewFrame P T)) :
    Nat → LumGraph P T × List (List P) → Outcome (LumGraph P T)
  | 0, s => .ok s.1
  | n + 1, s => do
    let r := lumRound act zero corr frames 0 s
    let g ← r.1.compute solve
    lumRounds act zero corr solve frames n (g, r.2)

/-- `LUM::getTransformedCloud`. -/
def LumGraph.moved {P T : Type} (act : T → P → P) (g : LumGraph P T) (v : Nat) : List P :=
  match g.verts[v]? with
  | none => []
  | some c => c.1.map (act c.2)

/-- multiview_registrator_lum_pcl.h:47-85 `AlignAll`: the member `lum_` before and after, and what is written
to an output that exists (`output` null leaves out the last step).  `getTransformedCloud (i)` for
`i < frames.size ()` names a vertex that exists. -/
noncomputable def alignAll {P T : Type} (act : T → P → P) (zero : T) (corr : List P → List P → List PointPair)
    (solve : LumGraph P T → Nat → T) (frames : List (ViewFrame P T)) (g : LumGraph P T) :
    Outcome (LumGraph P T × List P) :=
  if frames = [] then .ok (g, [])
  else do
    let r ← lumRounds act zero corr solve frames 5 (g, [])
    return (r, ((List.range frames.length).map (r.moved act)).flatten)

end Verif
