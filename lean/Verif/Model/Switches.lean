import Verif.Model.Outcome
/-
builder/map_builder.cc: which sensor messages the builder accepts, and which of its settings reach
the optimiser (54-114, 156-213, 715-717, 780-805; ros_node/static_mapping_node.cpp 357-369).

A message is its payload (`M`).  Reading the file is reduced to the four settings used here, each
present or absent in the file; the checks of `CheckOptions` and of the matcher are in `Config`.  The
time of the last matched pose, which the matching thread sets, comes with the cloud message.
-/
namespace Verif

/-- Settings of the file used here; `none`: the file does not give the value. -/
structure SwitchFile where
  imu : Option Bool        -- imu_options.enabled
  isamGps : Option Bool    -- isam_optimizer_options.use_gps
  isamOdom : Option Bool   -- isam_optimizer_options.use_odom
  loopGps : Option Bool    -- loop_detector_setting.use_gps

structure SwitchOpts where
  imu : Bool
  isamGps : Bool
  isamOdom : Bool
  loopGps : Bool
  deriving DecidableEq

/-- The public calls. -/
inductive BuilderCall (M : Type) where
  | init (f : SwitchFile)
  | enableOdom (b : Bool)
  | enableGps (b : Bool)
  | cloud (m : M) (stamp lastPose : Nat)
  | imu (m : M)
  | odom (m : M)
  | gps (m : M)
  | finish

structure SwitchState (M : Type) where
  useImu : Bool
  useOdom : Option Bool            -- `none`: never written (the constructor leaves it out, 53-58)
  useGps : Bool
  opts : SwitchOpts                -- options_
  backEnd : Option SwitchOpts      -- the copies the optimiser holds; `none` before `Initialise`
  extrapolator : Bool              -- extrapolator_ exists
  ended : Bool                     -- end_all_thread_
  clouds : List M                  -- given to the data collector, oldest first
  imus : List M
  gpss : List M

section
variable {M : Type}

/-- 53-58, and the defaults of map_builder.h, isam_optimizer.h:60-61, loop_detector_options.h:30. -/
def switchInit (M : Type) : SwitchState M :=
  { useImu := false, useOdom := none, useGps := false, opts := ⟨false, false, false, false⟩,
    backEnd := none, extrapolator := false, ended := false, clouds := [], imus := [], gpss := [] }

/-- One call.  A second `Initialise` destroys a running thread object, which terminates the program
(104-110). -/
def switchStep (st : SwitchState M) : BuilderCall M → Outcome (SwitchState M)
  -- map_builder_options.cc:112-320, map_builder.cc:62-114
  | .init f =>
    if st.backEnd.isSome then .abort
    else
      let o : SwitchOpts :=
        ⟨f.imu.getD st.opts.imu, f.isamGps.getD st.opts.isamGps, f.isamOdom.getD st.opts.isamOdom,
          f.loopGps.getD st.opts.loopGps⟩
      .ok { st with opts := o, useImu := o.imu, backEnd := some o,
                    extrapolator := if o.imu then st.extrapolator else true }
  -- 780-787
  | .enableOdom b =>
    .ok { st with useOdom := some b,
                  opts := if b then st.opts else { st.opts with isamOdom := false } }
  -- 789-805
  | .enableGps b =>
    .ok { st with useGps := b,
                  opts := if b then st.opts else { st.opts with loopGps := false, isamGps := false } }
  -- 156-170
  | .cloud m stamp lastPose =>
    if st.ended || (st.useImu && !st.extrapolator) then .ok st
    else if st.extrapolator && decide (stamp < lastPose) then .ok st
    else if st.backEnd.isNone then .ub
    else .ok { st with clouds := st.clouds ++ [m] }
  -- 172-193
  | .imu m =>
    if !st.useImu || st.ended then .ok st
    else if st.backEnd.isNone then .ub
    else .ok { st with imus := st.imus ++ [m], extrapolator := true }
  -- 195-206 : `LOG(FATAL)`
  | .odom _ =>
    match st.useOdom with
    | none => .ub
    | some u => if !u || st.ended then .ok st else .abort
  -- 208-213
  | .gps m =>
    if !st.useGps || st.ended then .ok st
    else if st.backEnd.isNone then .ub
    else .ok { st with gpss := st.gpss ++ [m] }
  -- 715-717
  | .finish => if st.backEnd.isNone then .ub else .ok { st with ended := true }

/-- Any sequence of calls. -/
def switchRun : List (BuilderCall M) → SwitchState M → Outcome (SwitchState M)
  | [], st => .ok st
  | c :: cs, st => do
    let st ← switchStep st c
    switchRun cs st

end
end Verif
