import Verif.Model.XmlNum
import Verif.Model.PackageF
/-
The description files of maps, from the program that writes them to the programs that read them:
builder/map_package.cc:199-227 with tools/join_pieces.cc:34-84, and builder/trajectory.cc:32-58,
builder/map_builder.cc:807-815, builder/multi_trajectory/multi_trajectory_map_builder.cc:139-230.

A disk is what is stored under each name: a text (the bytes of an XML file) or a cloud.  Reading a
stored cloud as XML fails here, as does reading a text as a cloud; a directory that does not exist,
a full disk and write errors are not modelled.
-/
namespace Verif

inductive DiskFile where
  | text (s : List Char)
  | cloud (c : List (Vec3 Rat))

abbrev Disk := List Char → Option DiskFile

def Disk.write (d : Disk) (name : List Char) (f : DiskFile) : Disk := fun n => if n = name then some f else d n

/-- pugixml.cc:5715-5728 `append_child`, again and again with the same name. -/
def elems (name : List Char) : List (XmlAttrs × XmlForest) → XmlForest
  | [] => .nil
  | (a, k) :: r => .elem name a k (elems name r)

/-! Map packages -/

/-- map_package.cc:214-224. -/
def pieceAttrs (d : Rat × Rat × List Char) : XmlAttrs :=
  [(['x'], setDouble d.1), (['y'], setDouble d.2.1), (['f', 'i', 'l', 'e'], d.2.2)]

def mapPackageName : List Char := ['M', 'a', 'p', 'P', 'a', 'c', 'k', 'a', 'g', 'e']
def pieceName : List Char := ['P', 'i', 'e', 'c', 'e']

/-- map_package.cc:210-225. -/
def packageDoc (ds : List (Rat × Rat × List Char)) : XmlForest :=
  .elem mapPackageName [] (elems pieceName (ds.map fun d => (pieceAttrs d, .nil))) .nil

/-- map_package.cc:199-206 for every piece in turn, then 226-227. -/
def storePackage (d : Disk) (exportPath descr : List Char) (pkg : Package) : Disk :=
  (pkg.pieces.foldl (fun d p => d.write (exportPath ++ p.file) (.cloud p.cloud)) d).write
    (exportPath ++ descr) (.text (saveXml (packageDoc pkg.description)))

/-- join_pieces.cc:54-63, 70-72 : the centre and the file of every piece; `none`: "Format error". -/
def readPieces (f : XmlForest) : Option (List (Rat × Rat × List Char)) :=
  match f.named mapPackageName with
  | [] => none
  | (_, kids) :: _ => some ((kids.named pieceName).map fun p : XmlAttrs × XmlForest =>
      (asAttr getDouble 0 p.1 ['x'], asAttr getDouble 0 p.1 ['y'], asAttr id [] p.1 ['f', 'i', 'l', 'e']))

/-- join_pieces.cc:62-76 for one piece: a file that cannot be read adds nothing. -/
def joinPiece (d : Disk) (path : List Char) (p : Rat × Rat × List Char) : List (Vec3 Rat) :=
  match d (path ++ p.2.2) with
  | some (.cloud c) => c.map fun q => { x := pkgJoinF q.x p.1, y := pkgJoinF q.y p.2.1, z := q.z }
  | _ => []

/-- join_pieces.cc:34-84 with `-pkg file`: the points of `whole_static_map.pcd`; `none`: returned -1. -/
def joinTool (d : Disk) (file : List Char) : Option (List (Vec3 Rat)) :=
  match d file with
  | some (.text s) =>
    match loadXml s with
    | .ok f => (readPieces f).map fun l => l.flatMap (joinPiece d (filePath file))
    | .error _ => none
  | _ => none

/-! Maps of trajectories -/

def mapName : List Char := ['M', 'a', 'p']
def trajectoryName : List Char := ['T', 'r', 'a', 'j', 'e', 'c', 't', 'o', 'r', 'y']
def submapName : List Char := ['S', 'u', 'b', 'm', 'a', 'p']

/-- trajectory.cc:38-56 (`rest`: `tz`, `rx`, `ry`, `rz`). -/
def submapAttrs (s : TrajSubmap) : XmlAttrs :=
  [(['i', 'd'], setInt s.id.submap), (['f', 'i', 'l', 'e'], s.file),
   (['t', 'x'], setDouble s.x), (['t', 'y'], setDouble s.y),
   (['t', 'z'], setDouble (s.rest.getD 0 0)), (['r', 'x'], setDouble (s.rest.getD 1 0)),
   (['r', 'y'], setDouble (s.rest.getD 2 0)), (['r', 'z'], setDouble (s.rest.getD 3 0)),
   (['c', 'o', 'n', 'n', 'e', 'c', 't', 'i', 'o', 'n', 's'], connectionsStr s.connected)]

/-- trajectory.cc:33-58 `Trajectory::ToXmlNode`. -/
def trajectoryNode (t : TrajPkg) : XmlAttrs × XmlForest :=
  ([(['i', 'd'], setInt t.id), (['e', 'n', 'u', '_', 'x'], setDouble t.enuX),
    (['e', 'n', 'u', '_', 'y'], setDouble t.enuY)],
   elems submapName (t.submaps.map fun s => (submapAttrs s, .nil)))

/-- map_builder.cc:807-813 `GenerateMapPackage`; multi_trajectory_map_builder.cc:222-229. -/
def mapDoc (l : List TrajPkg) : XmlForest := .elem mapName [] (elems trajectoryName (l.map trajectoryNode)) .nil

/-- map_builder.cc:814; multi_trajectory_map_builder.cc:231. -/
def storeMap (d : Disk) (file : List Char) (l : List TrajPkg) : Disk := d.write file (.text (saveXml (mapDoc l)))

/-- multi_trajectory_map_builder.cc:178-201, the attributes of a submap. -/
def readSubmapNode (a : XmlAttrs) : XmlSubmap where
  id := asAttr getInt 0 a ['i', 'd']
  file := asAttr id [] a ['f', 'i', 'l', 'e']
  tx := asAttr getDouble 0 a ['t', 'x']
  ty := asAttr getDouble 0 a ['t', 'y']
  rest := [asAttr getDouble 0 a ['t', 'z'], asAttr getDouble 0 a ['r', 'x'], asAttr getDouble 0 a ['r', 'y'],
    asAttr getDouble 0 a ['r', 'z']]
  connections := asAttr id [] a ['c', 'o', 'n', 'n', 'e', 'c', 't', 'i', 'o', 'n', 's']

/-- 161-178, the attributes and submaps of a trajectory. -/
def readTrajectoryNode (t : XmlAttrs × XmlForest) : XmlTrajectory where
  attrs := t.1.map fun p => (p.1, getDouble p.2)
  submaps := (t.2.named submapName).map fun p => readSubmapNode p.1

/-- 144-158, 161 : the trajectories of a file; `none`: returned -1. -/
def readMapFile (d : Disk) (file : List Char) : Option (List XmlTrajectory) :=
  match d file with
  | some (.text s) =>
    match loadXml s with
    | .ok f =>
      match f.named mapName with
      | [] => none
      | (_, kids) :: _ => some ((kids.named trajectoryName).map readTrajectoryNode)
    | .error _ => none
  | _ => none

/-- 178-208 for the submaps of one trajectory, with `CHECK(FileExist)` of line 204. -/
def checkSubmaps (d : Disk) (path : List Char) : List XmlSubmap → Outcome Unit
  | [] => .ok ()
  | x :: r => do
    let _ ← connectionsStrToIds x.connections
    Outcome.check ((d (path ++ x.file)).isSome = true)
    checkSubmaps d path r

def checkTrajectories (d : Disk) (path : List Char) : List XmlTrajectory → Outcome Unit
  | [] => .ok ()
  | t :: r => do
    checkSubmaps d path t.submaps
    checkTrajectories d path r

/-- 51-55, 139-215 : `LoadBaseMap` up to the optimizer.  The checks of the submap files are done first here; nothing
is observable in between. -/
def loadBaseFile (d : Disk) (file : List Char) : Outcome MultiMap :=
  match readMapFile d file with
  | none => .abort
  | some l => do
    checkTrajectories d (filePath file) l
    loadBase l

end Verif
