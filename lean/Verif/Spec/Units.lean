import Verif.Model.CloudGeom
import Verif.Model.Mrvm
import Verif.Spec.MapOrigin
/-! Specification for C146: lengths in another unit, `s` of which make one of the old. -/
namespace Verif.Spec
section
variable {R : Type} [Field R] [LinearOrder R]

/-- A position, a point, a cloud and a filter holding a cloud, with lengths in the other unit. -/
def inUnit (s : R) (v : Vec3 R) : Vec3 R := ⟨s * v.x, s * v.y, s * v.z⟩
def pointUnit (s : R) (p : InnerPoint R) : InnerPoint R := { p with x := s * p.x, y := s * p.y, z := s * p.z }
def cloudUnit (s : R) (a : InnerCloud R) : InnerCloud R := { a with points := a.points.map (pointUnit s) }
def stateUnit (s : R) (st : FState R) : FState R := { st with input := st.input.map (cloudUnit s) }

/-- A pose whose position (the last column of the matrix, without its last entry) is in the other unit. -/
def poseUnit (s : R) (T : Mat4 R) : Mat4 R := fun i j => if j = 3 ∧ i ≠ 3 then s * T i j else T i j
end

/-- Settings of the ground filter and of the static map in the other unit. -/
def groundUnit (s : Rat) (c : GroundCfg) : GroundCfg := { c with leaf := s * c.leaf, height := s * c.height }
def mapUnit (s : Rat) (c : MrvmCfg) : MrvmCfg := { c with resolution := s * c.resolution, zOffset := s * c.zOffset }

/-- A voxel's content, a map, a list of voxels, and a scan with the place it was taken from, in the other unit.  Voxels are numbered the same. -/
def cellUnit (s : Rat) (c : Cell) : Cell := { c with points := c.points.map (pointUnit s) }
def cellsUnit (s : Rat) (m : VMap) : VMap := fun v => (m v).map (cellUnit s)
def entryUnit (s : Rat) (e : Voxel × Cell) : Voxel × Cell := (e.1, cellUnit s e.2)
def scanUnit (s : Rat) (c : Option (List (InnerPoint Rat)) × Vec3 Rat) : Option (List (InnerPoint Rat)) × Vec3 Rat :=
  (c.1.map fun l => l.map (pointUnit s), inUnit s c.2)
end Verif.Spec
