import Verif.Model.Mrvm
/-! Specification for C140: the same map with another origin. -/
namespace Verif.Spec

/-- Moving a voxel by `k` voxels, and back. -/
def voxelBy (k v : Voxel) : Voxel := ⟨v.x + k.x, v.y + k.y, v.z + k.z⟩
def voxelBack (k v : Voxel) : Voxel := ⟨v.x - k.x, v.y - k.y, v.z - k.z⟩

/-- A position, a point and a point of the coloured cloud moved by `d`. -/
def placeBy (d p : Vec3 Rat) : Vec3 Rat := ⟨p.x + d.x, p.y + d.y, p.z + d.z⟩
def pointBy (d : Vec3 Rat) (p : InnerPoint Rat) : InnerPoint Rat := { p with x := p.x + d.x, y := p.y + d.y, z := p.z + d.z }
def greyBy (d : Vec3 Rat) (p : GreyPoint) : GreyPoint := { p with x := p.x + d.x, y := p.y + d.y, z := p.z + d.z }

/-- A voxel's content moved by `d`: its points are elsewhere, all else is the same. -/
def cellBy (d : Vec3 Rat) (c : Cell) : Cell := { c with points := c.points.map (pointBy d) }

/-- `k` whole voxels as a length. -/
def wholeVoxels (res : Rat) (k : Voxel) : Vec3 Rat := ⟨k.x * res, k.y * res, k.z * res⟩

/-- The map moved by `k` whole voxels. -/
def mapBy (res : Rat) (k : Voxel) (m : VMap) : VMap := fun v => (m (voxelBack k v)).map (cellBy (wholeVoxels res k))

/-- Clouds and the places they were taken from, moved by `d`. -/
def cloudBy (d : Vec3 Rat) (c : Option (List (InnerPoint Rat)) × Vec3 Rat) : Option (List (InnerPoint Rat)) × Vec3 Rat :=
  (c.1.map fun l => l.map (pointBy d), placeBy d c.2)

/-- The stored voxels as a list, moved. -/
def entryBy (res : Rat) (k : Voxel) (e : Voxel × Cell) : Voxel × Cell := (voxelBy k e.1, cellBy (wholeVoxels res k) e.2)

/-- The same outcome, with `f` done to the result. -/
def sameWith {α β : Type} (f : α → β) : Outcome α → Outcome β
  | .ok a => .ok (f a)
  | .abort => .abort
  | .ub => .ub
end Verif.Spec
