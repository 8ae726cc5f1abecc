import Verif.Model.Outcome
/-
builder/data/cloud_types.cc:73-144, 347-368 : normal estimation on a point matrix.

`P` is the type of a column of `points`, `N` of a column of `normals`; both are opaque, so the
model holds for floating point values. The arithmetic of one group (mean, rank test, normal) is
the parameter `Estimator`; `std::nth_element` is the parameter `Selection`, of which only "it
permutes the range" is assumed. Bounds (min/max values) only choose the cut axis, which the
arbitrary selection covers. Eigen's out-of-range column access is undefined behaviour.
-/
namespace Verif

/-- The arithmetic of `CalculateNormals(data, first, last)` (73-102) on the points of one group:
mean (85), rank test (90), normal (94,102). -/
structure Estimator (P N : Type) where
  mean : List P → P
  rankOk : List P → Bool
  normal : List P → N

/-- `std::nth_element` on the range starting at `first` with the given content: any permutation.
(It may depend on everything; the range start and content identify the call.) -/
structure Selection where
  sel : Nat → List Nat → List Nat
  perm : ∀ first l, (sel first l).Perm l

/-- The fields of `EigenPointCloud` that matter: cloud_types.h:104-150. -/
structure NormalState (P N : Type) where
  points : List P
  normals : List N
  indices : List Nat
  toKeep : List Nat
  deriving DecidableEq, Repr

/-- Columns of the given indices; out of range is undefined. -/
def columns {P : Type} (pts : List P) : List Nat → Outcome (List P)
  | [] => .ok []
  | i :: is =>
    match pts[i]? with
    | none => .ub
    | some p => do
      let ps ← columns pts is
      return p :: ps

/-- `v.col(k) = x`. -/
def setCol {P : Type} (l : List P) (k : Nat) (x : P) : Outcome (List P) :=
  if k < l.length then .ok (l.set k x) else .ub

/-- cloud_types.cc:73-103 : one group. -/
def normalLeaf {P N : Type} (E : Estimator P N) (group : List Nat) (st : NormalState P N) :
    Outcome (NormalState P N) := do
  let d ← columns st.points group
  if !E.rankOk d then return st
  else
    match group with
    | [] => .ub
    | k :: _ =>
      let pts ← setCol st.points k (E.mean d)
      let nrm ← setCol st.normals k (E.normal d)
      return { st with points := pts, normals := nrm, toKeep := st.toKeep ++ [k] }

/-- cloud_types.cc:105-144 : `indices[first, last)` is the list `range`; the result also carries
the rearranged range. -/
def buildNormals {P N : Type} (S : Selection) (E : Estimator P N) (first : Nat)
    (range : List Nat) (st : NormalState P N) : Outcome (List Nat × NormalState P N) :=
  if h : range.length ≤ 7 then do
    let st ← normalLeaf E range st
    return (range, st)
  else
    let rightCount := range.length / 2
    let leftCount := range.length - rightCount
    let r := S.sel first range
    do
      let (l1, st) ← buildNormals S E first (r.take leftCount) st
      let (l2, st) ← buildNormals S E (first + leftCount) (r.drop leftCount) st
      return (l1 ++ l2, st)
termination_by range.length
decreasing_by
  all_goals
    have := (S.perm first range).length_eq
    simp only [List.length_take, List.length_drop, this]
    omega

/-- cloud_types.cc:360-365 : the compaction loop, from step `i` on; `keep` is what is left of
`indices_to_keep`. -/
def compactLoop {P N : Type} : Nat → List Nat → List P × List N → Outcome (List P × List N)
  | _, [], pn => .ok pn
  | i, k :: keep, (pts, nrm) => do
    Outcome.check (i ≤ k)
    match pts[k]?, nrm[k]? with
    | some p, some n => do
      let pts ← setCol pts i p
      let nrm ← setCol nrm i n
      compactLoop (i + 1) keep (pts, nrm)
    | _, _ => .ub

/-- cloud_types.cc:347-368 `EigenPointCloud::CalculateNormals`. `fresh` is the (unspecified)
content of `normals` after the resize. `minCoeff` of a matrix without columns (352) is undefined. -/
def calculateNormals {P N : Type} (S : Selection) (E : Estimator P N) (fresh : N)
    (st : NormalState P N) : Outcome (NormalState P N) :=
  let n := st.points.length
  if n = 0 then .ub
  else if st.indices.length < n then .ub
  else do
    let st := { st with normals := List.replicate n fresh }
    let (range, st) ← buildNormals S E 0 (st.indices.take n) st
    let keep := st.toKeep.mergeSort (fun a b => decide (a ≤ b))
    let m := keep.length
    let (pts, nrm) ← compactLoop 0 keep (st.points, st.normals)
    return { points := pts.take m, normals := nrm.take m,
             indices := range ++ st.indices.drop n, toKeep := keep }

/-- cloud_types.cc:328-345 : a cloud made from `pts` (non-empty, CHECK at 330). -/
def fromPoints {P N : Type} (pts : List P) : NormalState P N :=
  { points := pts, normals := [], indices := List.range pts.length, toKeep := [] }

end Verif
