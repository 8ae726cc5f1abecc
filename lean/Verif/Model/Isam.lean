import Verif.Model.Outcome
import Verif.Model.ViewGraph
/-
back_end/isam_optimizer.{h,cc}: which variables and constraints the optimiser is given.

The numerical optimiser (gtsam ISAM2) is outside the model: the poses it returns are inputs.  What it
requires of its caller is modelled: inserting a variable twice, or a constraint on a variable that
does not exist, throws (`abort`).  Noise models are not modelled.  `T` is the type of poses, `E` of
ENU positions.
-/
namespace Verif

/-- Variables: 53-63 `POSE_KEY`, `GPS_COORD_KEY`, `GPS_CALIB_KEY`, `ODOM_CALIB_KEY`. -/
inductive IsamKey where
  | pose (i : Nat)
  | gpsCoord
  | gpsCalib
  | odomCalib
  deriving DecidableEq

/-- Constraints put in the factor graph. -/
inductive IsamFactor (T E : Type) where
  | prior (i : Nat) (p : T)
  | step (i : Nat) (t : T)                   -- between pose i-1 and pose i
  | loop (a b : Nat) (t : T)
  | gps (i : Nat) (e : E)
  | gpsCoordPrior
  | gpsCalibPrior
  | odomCalibPrior
  | odom (i : Nat) (t : T)

/-- The variables a constraint mentions; `calib` is `enable_extrinsic_calib`. -/
def IsamFactor.keys {T E : Type} (calib : Bool) : IsamFactor T E → List IsamKey
  | .prior i _ => [.pose i]
  | .step i _ => [.pose (i - 1), .pose i]
  | .loop a b _ => [.pose a, .pose b]
  | .gps i _ => if calib then [.gpsCoord, .pose i, .gpsCalib] else [.gpsCoord, .pose i]
  | .gpsCoordPrior => [.gpsCoord]
  | .gpsCalibPrior => [.gpsCalib]
  | .odomCalibPrior => [.odomCalib]
  | .odom i _ => [.odomCalib, .pose i]

/-- isam_optimizer.h:57-67 `IsamOptimizerOptions`. -/
structure IsamOpts where
  useGps : Bool
  useOdom : Bool
  calib : Bool
  initNum : Int          -- gps_factor_init_num
  sampleStep : Int       -- gps_factor_sample_step
  initAngle : Rat        -- gps_factor_init_angle_rad

/-- One submap given to `AddFrame`, with what the loop detector and the optimiser answer. -/
structure IsamFrame (T E : Type) where
  pose : T
  fromLast : T
  gps : Option E
  odom : Option T
  edges : List (Nat × Nat × T)     -- edges of the accepted loop, empty when none was accepted
  rotation : Rat                   -- AnalyseAllFramePoseForMaxRotation()
  estimate : Nat → T               -- poses after the last update

structure IsamState (T E : Type) where
  frames : Nat
  pendF : List (IsamFactor T E)    -- isam_factor_graph_
  pendV : List IsamKey             -- initial_estimate_
  doneF : List (IsamFactor T E)    -- constraints given to isam_
  doneV : List IsamKey             -- variables of isam_
  cached : List (Nat × E)          -- cached_enu_
  solved : Bool                    -- calculated_first_gps_coord_
  graph : List (VgOp T)            -- calls made on view_graph_, oldest first
  linked : List (Nat × Nat)        -- AddConnectedSubmap calls, oldest first

section
variable {T E : Type}

def isamInit (T E : Type) : IsamState T E :=
  { frames := 0, pendF := [], pendV := [], doneF := [], doneV := [], cached := [], solved := false,
    graph := [], linked := [] }

/-- `initial_estimate_.insert`. -/
def isamInsert (k : IsamKey) (st : IsamState T E) : Outcome (IsamState T E) :=
  if k ∈ st.pendV then .abort else .ok { st with pendV := st.pendV ++ [k] }

def isamAdd (f : IsamFactor T E) (st : IsamState T E) : IsamState T E :=
  { st with pendF := st.pendF ++ [f] }

/-- 96-104 `IsamUpdate`. -/
def isamUpdate (calib : Bool) (st : IsamState T E) : Outcome (IsamState T E) :=
  if (st.pendV.all fun k => !decide (k ∈ st.doneV)) &&
      (st.pendF.all fun f => (f.keys calib).all fun k => decide (k ∈ st.doneV ++ st.pendV)) then
    .ok { st with pendF := [], pendV := [], doneF := st.doneF ++ st.pendF,
                  doneV := st.doneV ++ st.pendV }
  else .abort

/-- 140-173 `AddVertex`. -/
def isamAddVertex (o : IsamOpts) (index : Nat) (pose fromLast : T) (st : IsamState T E) :
    Outcome (IsamState T E) := do
  let st ← isamInsert (.pose index) st
  let st := { st with graph := st.graph ++ [.vertex index pose] }
  if index = 0 then
    let st := isamAdd (.prior index pose) st
    if o.useOdom then
      let st ← isamInsert .odomCalib st
      isamUpdate o.calib (isamAdd .odomCalibPrior st)
    else isamUpdate o.calib st
  else
    let st := isamAdd (.step index fromLast) st
    isamUpdate o.calib { st with
      graph := st.graph ++ [.edge ((index - 1 : Nat) : Int) index fromLast],
      linked := st.linked ++ [(index - 1, index)] }

/-- 127-138 `AddLoopCloseEdge`, 224-230: one accepted edge.  `frames[i]` is unchecked. -/
def isamAddLoop (o : IsamOpts) (st : IsamState T E) (e : Nat × Nat × T) :
    Outcome (IsamState T E) :=
  if st.frames ≤ e.1 ∨ st.frames ≤ e.2.1 then .ub
  else
    let st := isamAdd (.loop e.1 e.2.1 e.2.2) st
    isamUpdate o.calib { st with
      graph := st.graph ++ [.edge e.1 e.2.1 e.2.2],
      linked := st.linked ++ [(e.1, e.2.1)] }

def isamAddLoops (o : IsamOpts) : List (Nat × Nat × T) → IsamState T E → Outcome (IsamState T E)
  | [], st => .ok st
  | e :: es, st => do
    let st ← isamAddLoop o st e
    isamAddLoops o es st

/-- 295-348 `SolveGpsCorrdAlone`: the poses of all cached frames are looked up (`at` throws). -/
def isamSolveGps (o : IsamOpts) (st : IsamState T E) : Outcome (IsamState T E) := do
  let st ← isamUpdate o.calib st
  if st.cached.all fun c => decide (IsamKey.pose c.1 ∈ st.doneV) then
    let st ← isamInsert .gpsCoord st
    let st := isamAdd .gpsCoordPrior st
    let st ← isamInsert .gpsCalib st
    pure (isamAdd .gpsCalibPrior st)
  else .abort

/-- 260-290: the GPS part of `AddFrame`.  `cached_enu_.size() < gps_factor_init_num` compares
unsigned: a negative setting is larger than any size. -/
def isamGps (o : IsamOpts) (index : Nat) (f : IsamFrame T E) (st : IsamState T E) :
    Outcome (IsamState T E) :=
  match f.gps with
  | none => .ok st
  | some e =>
    if !o.useGps then .ok st
    else if !st.solved then
      if (o.initNum < 0 ∨ (st.cached.length : Int) < o.initNum) ∨ f.rotation < o.initAngle then
        .ok { st with cached := st.cached ++ [(index, e)] }
      else do
        let st ← isamSolveGps o st
        let st := { st with pendF := st.pendF ++ st.cached.map fun c => .gps c.1 c.2 }
        let st ← isamUpdate o.calib st
        pure { st with solved := true }
    else if o.sampleStep ≤ 1 ∨ (index : Int) % o.sampleStep = 0 then
      isamUpdate o.calib (isamAdd (.gps index e) st)
    else .ok st

/-- 106-115 `UpdateAllPose`: every frame's pose is read (`at` throws) and put in the view graph. -/
def isamUpdateAllPose (est : Nat → T) (st : IsamState T E) : Outcome (IsamState T E) :=
  if (List.range st.frames).all fun i => decide (IsamKey.pose i ∈ st.doneV) then
    .ok { st with graph := st.graph ++ (List.range st.frames).map fun (i : Nat) =>
            VgOp.vertex (i : Int) (est i) }
  else .abort

/-- 219-223: the odometry constraint. -/
def isamOdom (o : IsamOpts) (index : Nat) (f : IsamFrame T E) (st : IsamState T E) :
    IsamState T E :=
  match f.odom with
  | some t => if o.useOdom then isamAdd (.odom index t) st else st
  | none => st

/-- 196-293 `AddFrame`. -/
def isamAddFrame (o : IsamOpts) (st : IsamState T E) (f : IsamFrame T E) :
    Outcome (IsamState T E) := do
  let index := st.frames
  let st ← isamAddVertex o index f.pose f.fromLast { st with frames := st.frames + 1 }
  let st ← isamAddLoops o f.edges (isamOdom o index f st)
  let st ← isamGps o index f st
  let st ← isamUpdate o.calib st
  Outcome.check (IsamKey.pose index ∈ st.doneV)
  isamUpdateAllPose f.estimate st

/-- Any sequence of frames. -/
def isamRun (o : IsamOpts) : List (IsamFrame T E) → IsamState T E → Outcome (IsamState T E)
  | [], st => .ok st
  | f :: fs, st => do
    let st ← isamAddFrame o st f
    isamRun o fs st

end
end Verif
