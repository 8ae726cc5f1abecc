import Mathlib.Algebra.Group.TypeTags.Basic
import Mathlib.Algebra.Group.Basic
import Mathlib.Algebra.Group.Int.Defs
import Mathlib.Tactic.Group
import Verif.Model.GpsAlign
import Verif.Spec.GpsAlign
import Verif.Proofs.Isam
/-!
C73: alignment with GPS coordinates.

English: at the end of a run, every submap gets the pose the optimiser last estimated for it and
every frame follows its submap; then one single motion is applied to everything, so that the pose of
any frame relative to any other is not changed and the saved maps are the unaligned maps moved as a
whole.  Nothing is moved unless GPS is enabled, the optimiser uses GPS and had enough observations.
-/
namespace Verif
open Spec
variable {G P E : Type} [Group G]

theorem updateFrames_move (m : G) (s : Submap G P) :
    ((s.updateFrames).setPose (m * (s.updateFrames).globalPose)).updateFrames =
      moveSubmap m s.updateFrames := by
  simp only [Submap.updateFrames, Submap.setPose, moveSubmap, List.map_map]
  congr 1
  apply List.map_congr_left
  intro f _
  simp [mul_assoc]

theorem finishPoses_eq (o : IsamOpts) (st : IsamState G E) (est : Nat → G) (coord : G)
    (ss : List (Submap G P)) :
    finishPoses true o st est coord ss =
      (finishPoses false o st est coord ss).map (moveSubmap (gpsCoordTransform o st coord)) := by
  simp only [finishPoses, alignToGps, Bool.not_true, Bool.not_false, if_true, Bool.false_eq_true,
    if_false, List.map_map]
  apply List.map_congr_left
  intro s _
  exact updateFrames_move _ s

theorem moveSubmap_one (s : Submap G P) : moveSubmap 1 s = s := by
  cases s
  simp [moveSubmap]

theorem framePoses_move (m : G) (ss : List (Submap G P)) :
    framePoses (ss.map (moveSubmap m)) = (framePoses ss).map (m * ·) := by
  induction ss with
  | nil => rfl
  | cons s ss ih =>
    simp only [framePoses, List.map_cons, List.flatMap_cons, List.map_append] at *
    rw [ih]
    simp [moveSubmap]

/-- The motion: the estimate of the GPS frame when it was solved, the identity otherwise. -/
theorem gpsCoordTransform_eq (o : IsamOpts) (fs : List (IsamFrame G E)) (hv : EdgesValid 0 fs)
    (coord : G) :
    ∃ st, isamRun o fs (isamInit G E) = .ok st ∧ st.frames = fs.length ∧
      ((o.useGps = true ∧ ∃ k, IsTrigger o fs k) → gpsCoordTransform o st coord = coord) ∧
      (¬ (o.useGps = true ∧ ∃ k, IsTrigger o fs k) → gpsCoordTransform o st coord = 1) := by
  obtain ⟨st, h, hd⟩ := isamRun_done o fs hv
  refine ⟨st, h, hd.frames, ?_, ?_⟩
  · rintro ⟨hu, k, hk⟩
    rcases hd.gps hu with ⟨_, t, _⟩ | ⟨s, _⟩
    · exact absurd hk (t k)
    · simp [gpsCoordTransform, hu, (hd.inv.gps1 s).1]
  · intro hn
    by_cases hu : o.useGps = true
    · rcases hd.gps hu with ⟨s, _⟩ | ⟨_, k, t, _⟩
      · simp [gpsCoordTransform, hu, (hd.inv.gps0 s).1]
      · exact absurd ⟨hu, k, t⟩ hn
    · simp [gpsCoordTransform, hu]

/-- One motion for the whole map: for every sequence of submaps given to the optimiser, the aligned
map is the unaligned map moved by `m`, and `m` is the estimate of the GPS frame if GPS is enabled, is
used by the optimiser and was solved; otherwise `m` is the identity. -/
theorem C73_one_motion (useGps : Bool) (o : IsamOpts) (fs : List (IsamFrame G E))
    (hv : EdgesValid 0 fs) (est : Nat → G) (coord : G) (ss : List (Submap G P)) :
    ∃ st m, isamRun o fs (isamInit G E) = .ok st ∧
      finishPoses useGps o st est coord ss =
        (finishPoses false o st est coord ss).map (moveSubmap m) ∧
      ((useGps = true ∧ o.useGps = true ∧ ∃ k, IsTrigger o fs k) → m = coord) ∧
      (¬ (useGps = true ∧ o.useGps = true ∧ ∃ k, IsTrigger o fs k) → m = 1) := by
  obtain ⟨st, h, _, h1, h2⟩ := gpsCoordTransform_eq o fs hv coord
  cases useGps with
  | true =>
    refine ⟨st, _, h, finishPoses_eq o st est coord ss, ?_, ?_⟩
    · rintro ⟨_, h3⟩; exact h1 h3
    · intro h3; exact h2 fun h4 => h3 ⟨rfl, h4⟩
  | false =>
    refine ⟨st, 1, h, ?_, ?_, fun _ => rfl⟩
    · have : (moveSubmap 1 : Submap G P → Submap G P) = id := funext moveSubmap_one
      rw [this, List.map_id]
    · rintro ⟨h3, _⟩; cases h3

/-- The pose of any frame relative to any other frame of the map is the same with and without the
alignment. -/
theorem C73_relative (useGps : Bool) (o : IsamOpts) (st : IsamState G E) (est : Nat → G) (coord : G)
    (ss : List (Submap G P)) (i j : Nat) :
    (framePoses (finishPoses useGps o st est coord ss)).length =
      (framePoses (finishPoses false o st est coord ss)).length ∧
    ∀ a b a' b',
      (framePoses (finishPoses useGps o st est coord ss))[i]? = some a' →
      (framePoses (finishPoses useGps o st est coord ss))[j]? = some b' →
      (framePoses (finishPoses false o st est coord ss))[i]? = some a →
      (framePoses (finishPoses false o st est coord ss))[j]? = some b →
      a'⁻¹ * b' = a⁻¹ * b := by
  cases useGps with
  | false =>
    refine ⟨rfl, ?_⟩
    intro a b a' b' h1 h2 h3 h4
    rw [h3] at h1; rw [h4] at h2
    cases h1; cases h2; rfl
  | true =>
    rw [finishPoses_eq, framePoses_move]
    refine ⟨by simp, ?_⟩
    intro a b a' b' h1 h2 h3 h4
    rw [List.getElem?_map, h3] at h1
    rw [List.getElem?_map, h4] at h2
    cases h1; cases h2
    group

/-- The final poses, whatever the poses were before: submap `i` is at the optimiser's estimate, every
frame at its place in the submap, all moved by the same `m`; identities, order, clouds and places in
the submap are kept. -/
theorem C73_final_poses (useGps : Bool) (o : IsamOpts) (fs : List (IsamFrame G E))
    (hv : EdgesValid 0 fs) (est : Nat → G) (coord : G) (ss : List (Submap G P))
    (hn : ss.length = fs.length) :
    ∃ st m, isamRun o fs (isamInit G E) = .ok st ∧
      (finishPoses useGps o st est coord ss).length = ss.length ∧
      ∀ i (s : Submap G P), ss[i]? = some s → ∃ s' : Submap G P,
        (finishPoses useGps o st est coord ss)[i]? = some s' ∧
        s' = ({ s with
          globalPose := m * est i
          frames := s.frames.map fun f => { f with globalPose := m * est i * f.localPose } } :
            Submap G P) := by
  obtain ⟨st, m, h, hm, _⟩ := C73_one_motion (P := P) useGps o fs hv est coord ss
  obtain ⟨st', h', hf, _⟩ := gpsCoordTransform_eq o fs hv coord
  rw [h] at h'
  cases h'
  refine ⟨st, m, h, ?_, ?_⟩
  · rw [hm]; simp [finishPoses, alignToGps, finalEstimates]
  · intro i s hs
    have hi : i < st.frames := by
      rw [hf, ← hn]
      by_contra hc
      rw [List.getElem?_eq_none (by omega)] at hs
      cases hs
    rw [hm]
    refine ⟨_, ?_, rfl⟩
    simp only [finishPoses, alignToGps, finalEstimates, Bool.not_false, if_true, List.getElem?_map,
      List.getElem?_mapIdx, hs, Option.map_some, hi]
    simp [moveSubmap, Submap.updateFrames, Submap.setPose, mul_assoc]

section files
variable (act : G → P → P) (origin : P)

/-- A frame as it is saved, moved. -/
def moveSaved (a : P → P) (f : SaveFrame P) : SaveFrame P :=
  { cloud := f.cloud, toGlobal := fun p => a (f.toGlobal p), position := a f.position }

def moveSaveState (a : P → P) (st : SaveState P) : SaveState P :=
  { whole := st.whole.map a, mrvm := st.mrvm.map fun x => (a x.1, x.2.map a),
    files := st.files.map (moveFile a) }

theorem moveSaved_global (a : P → P) (f : SaveFrame P) :
    (moveSaved a f).global = f.global.map a := by
  simp [moveSaved, SaveFrame.global]

theorem saveFrame_move (a : P → P) (o : SaveOptions) (st : SaveState P) (f : SaveFrame P) :
    saveFrame o (moveSaveState a st) (moveSaved a f) = moveSaveState a (saveFrame o st f) := by
  simp only [saveFrame, moveSaved_global]
  cases o.mrvm <;> cases o.direct <;> simp [moveSaveState, moveSaved]

theorem saveFrames_move (a : P → P) (o : SaveOptions) (s : SaveSubmap P) (st : SaveState P) :
    (s.map (moveSaved a)).foldl (saveFrame o) (moveSaveState a st) =
      moveSaveState a (s.foldl (saveFrame o) st) := by
  induction s generalizing st with
  | nil => rfl
  | cons f s ih =>
    simp only [List.map_cons, List.foldl_cons]
    rw [saveFrame_move, ih]

theorem savePart_move (a : P → P) (o : SaveOptions) (i : Int) (st : SaveState P) :
    savePart o i (moveSaveState a st) = moveSaveState a (savePart o i st) := by
  obtain ⟨w, r, f⟩ := st
  cases w <;> cases hd : o.direct <;> cases hm : o.mrvm <;>
    simp [savePart, moveSaveState, moveFile, hd, hm]

theorem saveOne_move (a : P → P) (o : SaveOptions) (total idx : Nat) (st : SaveState P)
    (s : SaveSubmap P) :
    saveOne o total idx (moveSaveState a st) (s.map (moveSaved a)) =
      (match saveOne o total idx st s with
        | .ok st => .ok (moveSaveState a st) | .abort => .abort | .ub => .ub) := by
  simp only [saveOne, saveFrames_move]
  by_cases h1 : o.separate = true
  · rw [if_pos h1, if_pos h1]
    by_cases h2 : o.step = 0
    · rw [if_pos h2, if_pos h2]
    · rw [if_neg h2, if_neg h2]
      by_cases h3 : idx + 1 = total ∨ ((idx : Int) + 1).tmod o.step = 0
      · rw [if_pos h3, if_pos h3]
        simp only [savePart_move]
      · rw [if_neg h3, if_neg h3]
  · rw [if_neg h1, if_neg h1]

theorem saveLoop_move (a : P → P) (o : SaveOptions) (total idx : Nat) (ss : List (SaveSubmap P))
    (st : SaveState P) :
    saveLoop o total idx (moveSaveState a st) (ss.map (List.map (moveSaved a))) =
      (match saveLoop o total idx st ss with
        | .ok st => .ok (moveSaveState a st) | .abort => .abort | .ub => .ub) := by
  induction ss generalizing idx st with
  | nil => rfl
  | cons s ss ih =>
    simp only [List.map_cons, saveLoop, saveOne_move]
    cases saveOne o total idx st s with
    | ok st' => simp only [Outcome.bind_ok]; exact ih _ _
    | abort => rfl
    | ub => rfl

theorem saveMaps_move (a : P → P) (o : SaveOptions) (ss : List (SaveSubmap P)) :
    saveMaps o (ss.map (List.map (moveSaved a))) = moveFiles a (saveMaps o ss) := by
  have h0 : ({ whole := [], mrvm := [], files := [] } : SaveState P) =
      moveSaveState a { whole := [], mrvm := [], files := [] } := rfl
  unfold saveMaps
  by_cases h1 : (!o.direct && !o.mrvm) = true
  · rw [if_pos h1, if_pos h1]; rfl
  · rw [if_neg h1, if_neg h1, h0, List.length_map, saveLoop_move, ← h0]
    cases saveLoop o ss.length 0 _ ss with
    | abort => rfl
    | ub => rfl
    | ok st =>
      simp only [Outcome.bind_ok, moveFiles]
      obtain ⟨w, r, f⟩ := st
      cases hs : o.separate <;> cases w <;> cases hd : o.direct <;> cases hm : o.mrvm <;>
        simp [moveSaveState, moveFile, Outcome.pure_eq]

/-- The saved maps: the same files (or the same stop) as without the alignment, every point and
every scan position moved by one and the same motion. -/
theorem C73_files (hact : ∀ g h p, act (g * h) p = act g (act h p))
    (so : SaveOptions)
    (useGps : Bool) (o : IsamOpts) (fs : List (IsamFrame G E)) (hv : EdgesValid 0 fs)
    (est : Nat → G) (coord : G) (ss : List (Submap G P)) :
    ∃ st m, isamRun o fs (isamInit G E) = .ok st ∧
      finishMap act origin so useGps o st est coord ss =
        moveFiles (act m) (finishMap act origin so false o st est coord ss) ∧
      ((useGps = true ∧ o.useGps = true ∧ ∃ k, IsTrigger o fs k) → m = coord) ∧
      (¬ (useGps = true ∧ o.useGps = true ∧ ∃ k, IsTrigger o fs k) →
        finishMap act origin so useGps o st est coord ss =
          finishMap act origin so false o st est coord ss) := by
  obtain ⟨st, m, h, hm, h1, h2⟩ := C73_one_motion (P := P) useGps o fs hv est coord ss
  have hmove : ∀ l : List (Submap G P), (l.map (moveSubmap m)).map (toSave act origin) =
      (l.map (toSave act origin)).map (List.map (moveSaved (act m))) := by
    intro l
    simp only [List.map_map]
    apply List.map_congr_left
    intro s _
    simp only [Function.comp, toSave, moveSubmap, List.map_map]
    apply List.map_congr_left
    intro f _
    have : act (m * f.globalPose) = fun p => act m (act f.globalPose p) := funext (hact _ _)
    simp only [Function.comp, moveSaved, this]
  have key : finishMap act origin so useGps o st est coord ss =
      moveFiles (act m) (finishMap act origin so false o st est coord ss) := by
    simp only [finishMap, hm, hmove, saveMaps_move]
  refine ⟨st, m, h, key, h1, ?_⟩
  intro hn
  simp only [finishMap, hm, h2 hn]
  have : (moveSubmap 1 : Submap G P → Submap G P) = id := funext moveSubmap_one
  rw [this, List.map_id]

end files

/-! Instance: two submaps on a line, the second with two frames, GPS solved at the third frame of
the optimiser. -/

abbrev LineG := Multiplicative Int

def lineAct (g : LineG) (p : Int) : Int := g.toAdd + p

def lineFrame (loc : Int) (cloud : List Int) : Frame LineG Int :=
  { id := ⟨0, 0, 0⟩, globalPose := 1, localPose := .ofAdd loc, stamp := 0, cloud := cloud }

def lineSubmap (frames : List (Frame LineG Int)) : Submap LineG Int :=
  { id := ⟨0, 0⟩, frames := frames, full := true, globalPose := 1, stamp := 0, cloud := none }

def lineObs (gps : Option Nat) : IsamFrame LineG Nat :=
  { pose := 1, fromLast := 1, gps := gps, odom := none, edges := [], rotation := 2,
    estimate := fun _ => 1 }

def lineOpts : IsamOpts :=
  { useGps := true, useOdom := false, calib := false, initNum := 1, sampleStep := 1,
    initAngle := 1 }

def lineSave : SaveOptions := ⟨true, false, false, 1⟩

def lineFinish (useGps : Bool) (fs : List (IsamFrame LineG Nat)) : Outcome (List (MapFile Int)) :=
  match isamRun lineOpts fs (isamInit LineG Nat) with
  | .ok st => finishMap lineAct 0 lineSave useGps lineOpts st
      (fun i => .ofAdd (10 * (i : Int))) (.ofAdd 1000)
      [lineSubmap [lineFrame 0 [1]], lineSubmap [lineFrame 0 [2], lineFrame 5 [3, 4]]]
  | .abort => .abort
  | .ub => .ub

def fileIs (r : Outcome (List (MapFile Int))) (fs : List (MapFile Int)) : Bool :=
  match r with
  | .ok l => decide (l = fs)
  | _ => false

example : fileIs (lineFinish true [lineObs (some 1), lineObs (some 2)])
    [.whole [1001, 1012, 1018, 1019]] = true := by decide +kernel

example : fileIs (lineFinish false [lineObs (some 1), lineObs (some 2)])
    [.whole [1, 12, 18, 19]] = true := by decide +kernel

/-- GPS enabled, but only one observation: not solved. -/
example : fileIs (lineFinish true [lineObs (some 1), lineObs none])
    [.whole [1, 12, 18, 19]] = true := by decide +kernel

example : ∀ g h p, lineAct (g * h) p = lineAct g (lineAct h p) := by
  intro g h p; simp [lineAct, Int.add_assoc]

end Verif
