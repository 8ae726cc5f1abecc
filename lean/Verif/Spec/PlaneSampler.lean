import Verif.Model.PlaneSampler
/-
What the plane keeping sampler is expected to do, without its map of voxels and its loop.
-/
namespace Verif.Spec

/-- The cell of edge `leaf` a point is in: the coordinates divided by the edge, without the fraction. -/
def planeCell (leaf : Rat) (p : Vec3 Rat) : Int × Int × Int :=
  (truncInt (toF32 (p.x / leaf)), truncInt (toF32 (p.y / leaf)), truncInt (toF32 (p.z / leaf)))

/-- The points of the cloud in the cell `k`, in order. -/
def cellMates (leaf : Rat) (c : List (Vec3 Rat)) (k : Int × Int × Int) : List Nat :=
  (List.range c.length).filter fun i => decide (c[i]?.map (planeCell leaf) = some k)

/-- The points with the given indices. -/
def pointsAt (c : List (Vec3 Rat)) (is : List Nat) : List (Vec3 Rat) := is.filterMap (c[·]?)

/-- Point `i` is a plane point: its cell has at least `minPoints` points and either lies at height 0 or below
and is flat to within `thr`, or lies above, has twice as many, more than 85 % of them are inliers of the
segmented plane, and `i` is one of these. -/
def onPlane (seg : List (Vec3 Rat) → List Nat) (leaf : Rat) (minPoints : Nat) (thr : Rat)
    (c : List (Vec3 Rat)) (i : Nat) : Bool :=
  match c[i]? with
  | none => false
  | some p =>
    let k := planeCell leaf p
    let ms := cellMates leaf c k
    decide (thr < leaf ∧ minPoints ≤ ms.length ∧
      ((k.2.2 ≤ 0 ∧ ∀ a ∈ pointsAt c ms, ∀ b ∈ pointsAt c ms, toF32 (a.z - b.z) ≤ thr) ∨
       (0 < k.2.2 ∧ minPoints * 2 ≤ ms.length ∧
        toF64 (85 / 100) < toF32 (toF32 (seg (pointsAt c ms)).length / toF32 ms.length) ∧
        ∃ j ∈ seg (pointsAt c ms), ms[j]? = some i)))

/-- A segmentation reports positions in the cloud it is given, each once. -/
def Segmentation (seg : List (Vec3 Rat) → List Nat) : Prop :=
  ∀ l, (seg l).Nodup ∧ ∀ j ∈ seg l, j < l.length

/-- The cells of all points have indices that fit an `int`, and all heights are within ±10⁹. -/
def CellsInReach (leaf : Rat) (c : List (Vec3 Rat)) : Prop :=
  leaf ≠ 0 ∧ ∀ p ∈ c, |p.z| ≤ 10 ^ 9 ∧
    ∀ v, v = p.x ∨ v = p.y ∨ v = p.z → |toF32 (v / leaf)| < 2147483648

/-- `out` is the cloud `c` without some of the points that are not plane points; of these, the share `rate`
(to within one point and a relative error of 2⁻²⁴) is left in every initial part of the cloud. -/
def Sampled (plane : Nat → Bool) (rate : Rat) (c out : List (Vec3 Rat)) : Prop :=
  ∃ keep : Nat → Bool,
    out = ((c.zipIdx 0).filter fun e => keep e.2).map Prod.fst ∧
    (∀ i < c.length, plane i = true → keep i = true) ∧
    ∀ n ≤ c.length,
      let others := (List.range n).countP fun i => !plane i
      let chosen := (List.range n).countP fun i => !plane i && keep i
      rate * others ≤ chosen * (1 + 1 / 2 ^ 24) ∧ (chosen : Rat) < rate * others + 1

end Verif.Spec
