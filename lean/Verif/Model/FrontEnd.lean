import Verif.Model.Outcome
import Verif.Model.CloudIO
import Verif.Model.LoopCheck
import Mathlib.Algebra.Group.Basic
import Mathlib.Data.Fin.VecNotation
/-
builder/map_builder.cc : motion compensation of a cloud and the scan-matching thread that places
every incoming cloud relative to the newest key frame.
-/
namespace Verif

section
variable {R : Type} [Field R] [LinearOrder R]

/-- common/math.h:198-211 `InterpolateTransform(t1, t2, factor)`.  `slerp` is Eigen's quaternion
interpolation between the two rotations. -/
def interpolateTransform (slerp : Matrix (Fin 3) (Fin 3) R → Matrix (Fin 3) (Fin 3) R → R →
    Matrix (Fin 3) (Fin 3) R) (t1 t2 : Rigid R) (factor : R) : Outcome (Rigid R) := do
  Outcome.check (0 ≤ factor ∧ factor ≤ 1)
  return { rot := slerp t1.rot t2.rot factor
           trans := fun i => t1.trans i + (t2.trans i - t1.trans i) * factor }

/-- The identity transform. -/
def Rigid.id : Rigid R := { rot := 1, trans := 0 }

/-- map_builder.cc:240-255, the body of the loop for one point. -/
def compensatePoint (slerp : Matrix (Fin 3) (Fin 3) R → Matrix (Fin 3) (Fin 3) R → R →
    Matrix (Fin 3) (Fin 3) R) (delta : Rigid R) (p : InnerPoint R) : Outcome (InnerPoint R) := do
  let t ← interpolateTransform slerp Rigid.id delta p.factor
  let v : Fin 3 → R := fun i => (t.rot.mulVec ![p.x, p.y, p.z]) i + t.trans i
  return { x := v 0, y := v 1, z := v 2, intensity := p.intensity, factor := p.factor }

def compensatePoints (slerp : Matrix (Fin 3) (Fin 3) R → Matrix (Fin 3) (Fin 3) R → R →
    Matrix (Fin 3) (Fin 3) R) (delta : Rigid R) :
    List (InnerPoint R) → Outcome (List (InnerPoint R))
  | [] => .ok []
  | p :: ps => do
    let q ← compensatePoint slerp delta p
    let qs ← compensatePoints slerp delta ps
    return q :: qs

/-- map_builder.cc:232-257 `MotionCompensation`; `out` is the output cloud before the call. -/
def motionCompensation (slerp : Matrix (Fin 3) (Fin 3) R → Matrix (Fin 3) (Fin 3) R → R →
    Matrix (Fin 3) (Fin 3) R) (raw : InnerCloud R) (delta : Rigid R) (out : InnerCloud R) :
    Outcome (InnerCloud R) := do
  let ps ← compensatePoints slerp delta raw.points
  return { out with points := ps, stamp := raw.stamp }
end

/-! ### the scan-matching thread -/

/-- What the thread uses.  Poses are elements of a group (rigid motions; `NormalizeRotation` at 308
is the identity in exact arithmetic), clouds are opaque. -/
structure FeCfg (G C : Type) where
  fastIcp : Bool                     -- scan_matcher_->GetType() == kFastIcp
  compensate : Bool                  -- motion_compensation_options.enable
  average : Option (G → G → G)       -- use_average: AverageTransforms({align_result, guess})
  comp : G → C → Outcome C           -- MotionCompensation(raw, motion)
  align : C → C → G → G              -- target, source, guess ↦ align_result (361; the flag is ignored)
  key : G → Bool                     -- 370-383: motion since the last key frame reaches a limit
  normals : C → Outcome Bool         -- CalculateNormals; is there a normal afterwards

/-- Local variables of `ScanMatchProcessing`, the queue it reads and the frames it writes. -/
structure FeState (G C : Type) where
  waiting : List (C × Nat)           -- clouds delivered by the collector, with their stamps
  last : Nat                         -- extrapolator_->GetLastPoseTime()
  got : Bool                         -- got_first_point_cloud_
  target : Option (C × Bool)         -- target_cloud, and whether it has normals
  poseTarget : G                     -- pose_target
  acc : G                            -- accumulative_transform
  frames : List (C × G)              -- frames_ (cloud, global pose)

/-- What was done with one cloud (the observable part of one round of the loop). -/
inductive FeEntry (G C : Type) where
  | late (raw : C)
  | placed (raw : C) (reference : Option C) (pose : G) (cloud : C) (inserted : Bool)

/-- `start` is the time of the pose the extrapolator starts with: 0 without IMU, the stamp of the
first IMU message otherwise. -/
def feInit {G C : Type} [One G] (start : Nat) : FeState G C :=
  { waiting := [], last := start, got := false, target := none, poseTarget := 1, acc := 1,
    frames := [] }

section
variable {G C : Type} [Group G]

/-- map_builder.cc:156-169 `InsertPointcloudMsg`: a cloud older than the last pose is dropped.
(Accumulation, filters and the collector's queues are C18-C23; here the cloud goes straight to the
queue.) -/
def feArrive (c : C) (t : Nat) (st : FeState G C) : FeState G C :=
  if t < st.last then st else { st with waiting := st.waiting ++ [(c, t)] }

/-- map_builder.cc:281-286, 386-390: the cloud becomes the target, with normals for the fast ICP. -/
def feTarget (cfg : FeCfg G C) (c : C) : Outcome (C × Bool) :=
  if cfg.fastIcp then do
    let n ← cfg.normals c
    return (c, n)
  else .ok (c, false)

/-- map_builder.cc:316-328: the cloud given to the matcher. -/
def feSource (cfg : FeCfg G C) (motion : G) (raw : C) : Outcome C :=
  if cfg.compensate then cfg.comp motion raw else .ok raw

/-- map_builder.cc:336-345: the transform that is kept. -/
def feResult (cfg : FeCfg G C) (result guess : G) : G :=
  if cfg.compensate then
    match cfg.average with
    | some avg => avg result guess
    | none => result
  else result

/-- map_builder.cc:279-397, one cloud; `pred` is what `ExtrapolatePose(source_time)` returns. -/
def feProcess (cfg : FeCfg G C) (pred : G) (raw : C) (t : Nat) (st : FeState G C) :
    Outcome (FeState G C × FeEntry G C) :=
  if st.got = false then do
    let tg ← feTarget cfg raw
    return ({ st with got := true, target := some tg, last := t,
                      frames := st.frames ++ [(raw, 1)] }, .placed raw none 1 raw true)
  else if t < st.last then
    .ok ({ st with target := some (raw, false) }, .late raw)
  else
    match st.target with
    | none => .ub
    | some tg => do
      let guess := st.poseTarget⁻¹ * pred
      Outcome.check (cfg.fastIcp = true → tg.2 = true)
      let source ← feSource cfg (st.acc⁻¹ * guess) raw
      let result := feResult cfg (cfg.align tg.1 source guess) guess
      let cloud ← feSource cfg (st.acc⁻¹ * result) raw
      let pose := st.poseTarget * result
      if cfg.key result then do
        let tg' ← feTarget cfg cloud
        return ({ st with last := t, acc := 1, target := some tg', poseTarget := pose,
                          frames := st.frames ++ [(cloud, pose)] },
                .placed raw (some tg.1) pose cloud true)
      else
        return ({ st with last := t, acc := result }, .placed raw (some tg.1) pose cloud false)

/-- One round of the loop (270-278), with an empty queue nothing happens. -/
def feRound (cfg : FeCfg G C) (pred : G) (st : FeState G C) :
    Outcome (FeState G C × List (FeEntry G C)) :=
  match st.waiting with
  | [] => .ok (st, [])
  | (c, t) :: rest => do
    let r ← feProcess cfg pred c t { st with waiting := rest }
    return (r.1, [r.2])

inductive FeEvent (G C : Type) where
  | arrive (c : C) (t : Nat)
  | round (pred : G)

def feRun (cfg : FeCfg G C) : List (FeEvent G C) → FeState G C →
    Outcome (FeState G C × List (FeEntry G C))
  | [], st => .ok (st, [])
  | .arrive c t :: es, st => feRun cfg es (feArrive c t st)
  | .round pred :: es, st => do
    let r ← feRound cfg pred st
    let s ← feRun cfg es r.1
    return (s.1, r.2 ++ s.2)
end
end Verif
