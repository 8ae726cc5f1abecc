import Verif.Model.Mrvm
/-! What the probabilistic voxel map promises. -/
namespace Verif.Spec

/-- The point lies in the (half-open) voxel. -/
def InVoxel (res : Rat) (v : Voxel) (p : InnerPoint Rat) : Prop :=
  (v.x * res ≤ p.x ∧ p.x < (v.x + 1) * res) ∧ (v.y * res ≤ p.y ∧ p.y < (v.y + 1) * res) ∧
  (v.z * res ≤ p.z ∧ p.z < (v.z + 1) * res)

/-- What every stored voxel looks like between insertions. -/
structure GoodCell (maxPoints : Int) (res : Rat) (v : Voxel) (c : Cell) : Prop where
  prob_range : 25 ≤ c.prob ∧ c.prob ≤ 230
  some_point : c.points ≠ []
  bounded : (c.points.length : Int) ≤ maxPoints
  intensity : ∀ p ∈ c.points, p.intensity < c.maxIntensity + 1
  inside : ∀ p ∈ c.points, InVoxel res v p
  free : c.needUpdate = true

def GoodMap (maxPoints : Int) (res : Rat) (m : VMap) : Prop :=
  ∀ v c, m v = some c → GoodCell maxPoints res v c

/-- Admissible settings: what `Initialise` establishes. -/
structure Admissible (cfg : MrvmCfg) : Prop where
  points : 0 < cfg.maxPoints
  hit : 1 / 2 < cfg.hit ∧ cfg.hit ≤ 9 / 10
  miss : 1 / 10 ≤ cfg.miss ∧ cfg.miss < 1 / 2
  res : 0 < cfg.resolution

/-- The voxel a point ends in. -/
def endOf (res : Rat) (p : InnerPoint Rat) : Voxel := voxelOf ⟨p.x, p.y, p.z⟩ res

/-- The points of the cloud that end in `v`, in order. -/
def hitsIn (res : Rat) (v : Voxel) (ps : List (InnerPoint Rat)) : List (InnerPoint Rat) :=
  ps.filter (fun p => decide (endOf res p = v))

/-- The ray from the origin to `p` goes through `v` but does not end there. -/
def passes (res : Rat) (origin : Vec3 Rat) (v : Voxel) (p : InnerPoint Rat) : Bool :=
  match voxelCastingBresenham origin ⟨p.x, p.y, p.z⟩ res with
  | .ok path => decide (v ∈ path) && decide (endOf res p ≠ v)
  | _ => false

/-- How many rays go through `v` before the first point of the cloud that ends in `v`
(all rays through `v` if none ends there). -/
def passesBeforeHit (res : Rat) (origin : Vec3 Rat) (v : Voxel) (ps : List (InnerPoint Rat)) : Nat :=
  (ps.takeWhile (fun p => decide (endOf res p ≠ v))).countP (passes res origin v)

end Verif.Spec
