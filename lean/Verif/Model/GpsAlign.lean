import Verif.Model.Isam
import Verif.Model.Submap
import Verif.Model.SaveMaps
/-
The end of a mapping run: final optimisation, frame poses, alignment with GPS coordinates, saving
(builder/map_builder.cc 562-613, 748-762; back_end/isam_optimizer.cc 350-383).

Poses are the elements of an arbitrary group (as in `Submap`).  The numbers the optimiser computes
(`est` for the submaps, `coord` for the GPS frame) are parameters.  The i-th frame of the optimiser
is the i-th submap of the trajectory (C33, C54).  The path files and the map package are left out.
-/
namespace Verif
section
variable {G P E : Type} [Group G]

/-- isam_optimizer.cc:106-115, 350-352 `RunFinalOptimazation`: every frame of the optimiser gets its
estimated pose.  `n` is the number of frames of the optimiser. -/
def finalEstimates (n : Nat) (est : Nat → G) (ss : List (Submap G P)) : List (Submap G P) :=
  ss.mapIdx fun i s => if i < n then s.setPose (est i) else s

/-- isam_optimizer.cc:370-383 `GetGpsCoordTransform`. -/
def gpsCoordTransform (o : IsamOpts) (st : IsamState G E) (coord : G) : G :=
  if o.useGps then
    if IsamKey.gpsCoord ∈ st.doneV then coord else 1
  else 1

/-- map_builder.cc:748-762 `CalculateCoordTransformToGps`; `useGps` is the member `use_gps_`. -/
def alignToGps (useGps : Bool) (o : IsamOpts) (st : IsamState G E) (coord : G)
    (ss : List (Submap G P)) : List (Submap G P) :=
  if !useGps then ss
  else ss.map fun s =>
    (s.setPose (gpsCoordTransform o st coord * s.globalPose)).updateFrames

/-- map_builder.cc:570-606: the submaps and frames as they are saved. -/
def finishPoses (useGps : Bool) (o : IsamOpts) (st : IsamState G E) (est : Nat → G) (coord : G)
    (ss : List (Submap G P)) : List (Submap G P) :=
  alignToGps useGps o st coord ((finalEstimates st.frames est ss).map Submap.updateFrames)

/-- map_builder.cc:837-848: what `SaveMaps` reads of a submap.  `origin` is the zero vector. -/
def toSave (act : G → P → P) (origin : P) (s : Submap G P) : SaveSubmap P :=
  s.frames.map fun f =>
    { cloud := f.cloud, toGlobal := act f.globalPose, position := act f.globalPose origin }

/-- map_builder.cc:570-612. -/
def finishMap (act : G → P → P) (origin : P) (so : SaveOptions) (useGps : Bool) (o : IsamOpts)
    (st : IsamState G E) (est : Nat → G) (coord : G) (ss : List (Submap G P)) :
    Outcome (List (MapFile P)) :=
  saveMaps so ((finishPoses useGps o st est coord ss).map (toSave act origin))

end
end Verif
