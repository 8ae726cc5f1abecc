import Verif.Model.Submap
import Verif.Model.SaveMaps
/-! Moving a whole map by one rigid motion. -/
namespace Verif.Spec
variable {G P : Type} [Group G]

/-- A submap moved by `m`: its pose and the poses of its frames, nothing else. -/
def moveSubmap (m : G) (s : Submap G P) : Submap G P :=
  { s with globalPose := m * s.globalPose
           frames := s.frames.map fun f => { f with globalPose := m * f.globalPose } }

/-- All frame poses of a map, in order. -/
def framePoses (ss : List (Submap G P)) : List G :=
  ss.flatMap fun s => s.frames.map fun f => f.globalPose

/-- A map file with every point and position moved. -/
def moveFile (a : P → P) : MapFile P → MapFile P
  | .part i pts => .part i (pts.map a)
  | .staticPart i ins => .staticPart i (ins.map fun x => (a x.1, x.2.map a))
  | .whole pts => .whole (pts.map a)
  | .static ins => .static (ins.map fun x => (a x.1, x.2.map a))

/-- An outcome of files, moved. -/
def moveFiles (a : P → P) : Outcome (List (MapFile P)) → Outcome (List (MapFile P))
  | .ok fs => .ok (fs.map (moveFile a))
  | .abort => .abort
  | .ub => .ub

end Verif.Spec
