import Verif.Proofs.PathExport
import Verif.Proofs.Floats
/-!
C75: the exported path.

English: the path table has exactly one row per frame of the trajectory, in order, with consecutive
numbers from zero, and every number of a row agrees with the frame's pose to half a unit of the sixth
decimal; the path cloud has the same frames in the same order; the GPS and odometry paths have the
positions of exactly the submaps that have one.
-/
namespace Verif
open Spec
variable (f32 : Rat → Rat)

theorem linesFrom_append (k : Nat) (a b : List PathPose) :
    linesFrom k (a ++ b) = linesFrom k a ++ linesFrom (k + a.length) b := by
  induction a generalizing k with
  | nil => rfl
  | cons q a ih =>
    simp only [List.cons_append, linesFrom, ih, List.append_assoc, List.length_cons]
    rw [Nat.add_assoc, Nat.add_comm 1]

/-- The points of a list of poses. -/
def pointsFrom (k : Nat) (qs : List PathPose) : List PathPoint :=
  (qs.zipIdx k).map fun x => pathVec f32 ⟨x.1.tx, x.1.ty, x.1.tz⟩ (x.2 : Rat)

theorem pathFrames_eq (w : Bool) (qs : List PathPose) (st : PathState) :
    qs.foldl (pathFrame f32 w) st =
      { st with index := st.index + qs.length
                content := st.content ++ (if w then linesFrom st.index qs else [])
                path := st.path ++ pointsFrom f32 st.index qs } := by
  induction qs generalizing st with
  | nil => cases w <;> simp [linesFrom, pointsFrom]
  | cons q qs ih =>
    rw [List.foldl_cons, ih]
    cases w <;>
      simp [pathFrame, linesFrom, pointsFrom, List.zipIdx_cons, Nat.add_comm 1, Nat.add_assoc]

theorem pathAll_eq (w : Bool) (ss : List PathSubmap) (st : PathState) :
    ss.foldl (pathSubmap f32 w) st =
      { index := st.index + (allFrames ss).length
        content := st.content ++ (if w then linesFrom st.index (allFrames ss) else [])
        path := st.path ++ pointsFrom f32 st.index (allFrames ss)
        enu := st.enu ++ (ss.filterMap (·.gps)).map (pathVec f32 · 0)
        odom := st.odom ++ (ss.filterMap (·.odom)).map (pathVec f32 · 0) } := by
  induction ss generalizing st with
  | nil => cases w <;> simp [allFrames, linesFrom, pointsFrom]
  | cons s ss ih =>
    rw [List.foldl_cons, ih]
    obtain ⟨g, o, fr⟩ := s
    have e : allFrames (⟨g, o, fr⟩ :: ss) = fr ++ allFrames ss := rfl
    rw [e, linesFrom_append]
    cases w <;> cases g <;> cases o <;>
      simp [pathSubmap, pathFrames_eq, pointsFrom, List.zipIdx_append, Nat.add_assoc]

/-- The table, read back by any reader of comma separated numbers. -/
theorem C75_table (ss : List PathSubmap) :
    ∃ text rows, (exportPath f32 true true ss).csv = some text ∧ readTable text = some rows ∧
      rows.length = (allFrames ss).length ∧
      ∀ (k : Nat) (q : PathPose), (allFrames ss)[k]? = some q →
        ∃ v, rows[k]? = some ((k : Rat) :: v) ∧ List.Forall₂ Close6 v (poseNumbers q) := by
  refine ⟨linesFrom 0 (allFrames ss), _, ?_, readTable_lines 0 (allFrames ss), by simp, ?_⟩
  · simp [exportPath, pathAll_eq]
  · intro k q h
    refine ⟨(poseNumbers q).map fixedVal, ?_, ?_⟩
    · rw [List.getElem?_map, List.getElem?_zipIdx, h]
      simp
    · rw [List.forall₂_map_left_iff]
      exact List.forall₂_same.mpr fun x _ => fixedVal_close x

/-- The path cloud: point `k` is frame `k`, with `k` as intensity (as far as `float` holds them). -/
theorem C75_cloud (opens : Bool) (ss : List PathSubmap) :
    (allFrames ss = [] → (exportPath f32 true opens ss).path = none) ∧
    (allFrames ss ≠ [] → ∃ pts, (exportPath f32 true opens ss).path = some pts ∧
      pts.length = (allFrames ss).length ∧
      ∀ (k : Nat) (q : PathPose), (allFrames ss)[k]? = some q →
        pts[k]? = some ⟨⟨f32 q.tx, f32 q.ty, f32 q.tz⟩, f32 k⟩) := by
  have e : (exportPath f32 true opens ss).path = ifAny (pointsFrom f32 0 (allFrames ss)) := by
    simp [exportPath, pathAll_eq]
  constructor
  · intro h
    rw [e, h]
    rfl
  · intro h
    refine ⟨pointsFrom f32 0 (allFrames ss), ?_, by simp [pointsFrom], ?_⟩
    · rw [e, ifAny]
      have : (pointsFrom f32 0 (allFrames ss)).isEmpty = false := by
        rw [List.isEmpty_eq_false_iff]
        intro hn
        apply h
        have := congrArg List.length hn
        simpa [pointsFrom] using this
      simp [this]
    · intro k q hq
      unfold pointsFrom
      rw [List.getElem?_map, List.getElem?_zipIdx, hq]
      simp [pathVec]

/-- The GPS and odometry paths. -/
theorem C75_sensor_paths (opens : Bool) (ss : List PathSubmap) :
    ((exportPath f32 true opens ss).enu.getD []).map (·.p) =
      (ss.filterMap (·.gps)).map (fun v => ⟨f32 v.x, f32 v.y, f32 v.z⟩) ∧
    ((exportPath f32 true opens ss).odom.getD []).map (·.p) =
      (ss.filterMap (·.odom)).map (fun v => ⟨f32 v.x, f32 v.y, f32 v.z⟩) := by
  have hg : ∀ l : List PathPoint, (ifAny l).getD [] = l := by
    intro l; cases l <;> rfl
  constructor
  · have : (exportPath f32 true opens ss).enu = ifAny ((ss.filterMap (·.gps)).map (pathVec f32 · 0)) := by
      simp [exportPath, pathAll_eq]
    rw [this, hg, List.map_map]
    rfl
  · have : (exportPath f32 true opens ss).odom =
        ifAny ((ss.filterMap (·.odom)).map (pathVec f32 · 0)) := by
      simp [exportPath, pathAll_eq]
    rw [this, hg, List.map_map]
    rfl

/-- C75: with actual `float`s: point `k` carries the number `k` exactly (up to frame 16777216), and its
coordinates are right to half a step of a `float`. -/
theorem C75_cloud_float (opens : Bool) (ss : List PathSubmap) (k : Nat) (q : PathPose)
    (hq : (allFrames ss)[k]? = some q) (hk : k ≤ 2 ^ 24) :
    ∃ pts pt, (exportPath toF32 true opens ss).path = some pts ∧ pts[k]? = some pt ∧
      pt.intensity = k ∧ |pt.p.x - q.tx| ≤ |q.tx| / 2 ^ 24 ∧ |pt.p.y - q.ty| ≤ |q.ty| / 2 ^ 24 ∧
      |pt.p.z - q.tz| ≤ |q.tz| / 2 ^ 24 := by
  have hne : allFrames ss ≠ [] := by
    intro e; rw [e] at hq; cases hq
  obtain ⟨pts, h1, _, h2⟩ := (C75_cloud toF32 opens ss).2 hne
  refine ⟨pts, _, h1, h2 k q hq, ?_, flRound_err 24 _, flRound_err 24 _, flRound_err 24 _⟩
  have := flRound_int 24 (by norm_num) (k : Int) (by
    rw [abs_of_nonneg (by positivity)]; exact_mod_cast hk)
  simpa [toF32] using this

/-- C75: the full property fails for longer paths: two frames carry the same number. -/
theorem C75_number_fails : toF32 16777216 = toF32 16777217 := by decide +kernel

/-- Without the directory nothing is written. -/
theorem C75_no_directory (opens : Bool) (ss : List PathSubmap) :
    exportPath f32 false opens ss = ⟨none, none, none, none⟩ := rfl

/-! Instance: two submaps, three frames, a negative number that rounds to zero. -/

def pathExample : List PathSubmap :=
  [⟨some ⟨7, 8, 9⟩, none, [⟨1 / 3, -5 / 2, 0, -1 / 10000000, 0, 3⟩, ⟨12345678, 0, 0, 0, 0, 0⟩]⟩,
   ⟨none, some ⟨1, 2, 3⟩, [⟨0, 0, 0, 0, 0, 5 / 10000000⟩]⟩]

example : fixed6 (-5 / 2) = "-2.500000".toList ∧ fixed6 (1 / 3) = "0.333333".toList ∧
    fixed6 (2 / 3) = "0.666667".toList ∧ fixed6 (-1 / 10000000) = "-0.000000".toList ∧
    fixed6 (5 / 10000000) = "0.000000".toList ∧ fixed6 (15 / 10000000) = "0.000002".toList := by
  decide +kernel

example : (exportPath id true true pathExample).csv =
    some ("0, 0.333333, -2.500000, 0.000000, -0.000000, 0.000000, 3.000000 \n" ++
      "1, 12345678.000000, 0.000000, 0.000000, 0.000000, 0.000000, 0.000000 \n" ++
      "2, 0.000000, 0.000000, 0.000000, 0.000000, 0.000000, 0.000000 \n").toList := by
  decide +kernel

example : allFrames pathExample ≠ [] ∧ (allFrames pathExample).length = 3 := by decide +kernel

end Verif
