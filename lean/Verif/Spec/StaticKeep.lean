import Verif.Spec.Mrvm
/-
What happened to a voxel in a scan, in terms of the rays of the scan.
-/
namespace Verif.Spec

/-- A scan given to the map: the cloud (`none`: null pointer) and where it was taken. -/
abbrev MapScan := Option (List (InnerPoint Rat)) × Vec3 Rat

/-- Where the rays of a scan start: the settings can shift it upwards. -/
def rayStart (cfg : MrvmCfg) (s : MapScan) : Vec3 Rat := { s.2 with z := s.2.z + cfg.zOffset }

/-- Number of rays of the scan that end in the voxel. -/
def scanHits (cfg : MrvmCfg) (v : Voxel) (s : MapScan) : Nat :=
  match s.1 with
  | none => 0
  | some ps => (hitsIn cfg.resolution v ps).length

/-- Number of rays of the scan that go through the voxel and end elsewhere. -/
def scanPasses (cfg : MrvmCfg) (v : Voxel) (s : MapScan) : Nat :=
  match s.1 with
  | none => 0
  | some ps => ps.countP (passes cfg.resolution (rayStart cfg s) v)

/-- The exported cloud has a point in the voxel. -/
def HasPointIn (cfg : MrvmCfg) (v : Voxel) (out : List (InnerPoint Rat)) : Prop :=
  ∃ p ∈ out, InVoxel cfg.resolution v p

end Verif.Spec
