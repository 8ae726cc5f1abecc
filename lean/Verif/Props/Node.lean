import Verif.Spec.Node
import Verif.Props.Playback
import Mathlib.Data.List.Forall2
/-!
C84: every message of the chosen topics reaches the mapper once, in order and unchanged.
-/
namespace Verif
open Spec

variable {R P : Type}

theorem sameHeader_local (h : RosHeader) : SameHeader h (toLocalHeader h) := ⟨rfl, rfl, rfl⟩

/-- An inertial message keeps its content. -/
theorem C84_imu (m : RosImu R) : SameImu m (toLocalImu m) :=
  ⟨sameHeader_local _, ⟨rfl, rfl, rfl, rfl⟩, ⟨rfl, rfl, rfl⟩, ⟨rfl, rfl, rfl⟩, rfl, rfl, rfl⟩

/-- An odometry message keeps its content, apart from the child frame. -/
theorem C84_odom_partial (m : RosOdom R) : SameOdom m (toLocalOdom m) :=
  ⟨sameHeader_local _, ⟨rfl, rfl, rfl⟩, ⟨rfl, rfl, rfl, rfl⟩, rfl, ⟨rfl, rfl, rfl⟩,
    ⟨rfl, rfl, rfl⟩, rfl⟩

/-- The name of the child frame is lost. -/
theorem C84_child_frame_fails (m : RosOdom R) (h : m.childFrame ≠ "") :
    (toLocalOdom m).childFrame ≠ m.childFrame := fun e => h e.symm

/-- A GPS fix keeps its content. -/
theorem C84_fix (m : RosFix R) : SameFix m (toLocalFix m) :=
  ⟨sameHeader_local _, rfl, rfl, rfl, rfl, rfl, rfl, rfl⟩

/-- A cloud keeps its finite points, if its flag `is_dense` tells the truth. -/
theorem C84_cloud_partial (finite : P → Bool) (c : RosCloud P) (h : DenseOk finite c) :
    CleanOf finite c (removeNan finite c) := by
  unfold removeNan
  split
  · next hd =>
    refine ⟨rfl, ?_⟩
    exact (List.filter_eq_self.mpr (h hd)).symm
  · exact ⟨rfl, rfl⟩

/-- Whatever its flag was, the cloud that is handed on is marked as dense. -/
theorem C84_dense (finite : P → Bool) (c : RosCloud P) : (removeNan finite c).dense = true := by
  unfold removeNan
  split
  · assumption
  · rfl

/-- A cloud that is wrongly marked as dense is passed on with points that are not finite. -/
theorem C84_dense_fails : ∃ (finite : Nat → Bool) (c : RosCloud Nat),
    ∃ p ∈ (removeNan finite c).points, finite p = false :=
  ⟨fun n => n ≠ 7, ⟨0, true, [1, 7]⟩, 7, by decide, by decide⟩

theorem wanted_imu (a : NodeArgs) (t : String) (i : RosImu R) :
    Wanted (P := P) a ⟨t, .imu i⟩ = (decide (t = a.imuTopic) && a.useImu) := rfl

theorem wanted_odom (a : NodeArgs) (t : String) (i : RosOdom R) :
    Wanted (P := P) a ⟨t, .odom i⟩ = (decide (t = a.odomTopic) && a.useOdom) := by
  simp only [Wanted, NodeArgs.useOdom, Bool.and_assoc]

theorem wanted_fix (a : NodeArgs) (t : String) (i : RosFix R) :
    Wanted (P := P) a ⟨t, .fix i⟩ = (decide (t = a.gpsTopic) && a.useGps) := by
  simp only [Wanted, NodeArgs.useGps, Bool.and_assoc]

theorem nodeMessage_spec (finite : P → Bool) (a : NodeArgs) (m : RosMsg R P)
    (h : ∀ c, m.body = .cloud c → DenseOk finite c) :
    (Wanted a m = true → ∃ x, nodeMessage finite a m = some x ∧ Same finite m.body x) ∧
      (Wanted a m = false → nodeMessage finite a m = none) := by
  obtain ⟨t, body⟩ := m
  cases body with
  | cloud c =>
    have hc := C84_cloud_partial finite c (h c rfl)
    by_cases ht : t = a.cloudTopic <;> simp [Wanted, nodeMessage, ht, Same, hc]
  | imu i =>
    rw [wanted_imu]
    by_cases ht : t = a.imuTopic <;> cases hu : a.useImu <;>
      simp [nodeMessage, ht, hu, Same, C84_imu i]
  | odom o =>
    rw [wanted_odom]
    by_cases ht : t = a.odomTopic <;> cases hu : a.useOdom <;>
      simp [nodeMessage, ht, hu, Same, C84_odom_partial o]
  | fix f =>
    rw [wanted_fix]
    by_cases ht : t = a.gpsTopic <;> cases hu : a.useGps <;>
      simp [nodeMessage, ht, hu, Same, C84_fix f]
  | other => simp [Wanted, nodeMessage]

theorem nodeMessages_spec (finite : P → Bool) (a : NodeArgs) (l : List (BagMsg (RosMsg R P)))
    (h : ∀ m ∈ l, ∀ c, m.body.body = .cloud c → DenseOk finite c) :
    List.Forall₂ (fun (m : BagMsg (RosMsg R P)) x => Same finite m.body.body x)
      (l.filter fun m => Wanted a m.body) (l.filterMap fun m => nodeMessage finite a m.body) := by
  induction l with
  | nil => exact .nil
  | cons m l ih =>
    have ih' := ih fun m' hm' => h m' (by simp [hm'])
    obtain ⟨h1, h2⟩ := nodeMessage_spec finite a m.body (h m (by simp))
    cases hw : Wanted a m.body with
    | true =>
      obtain ⟨x, hx, hs⟩ := h1 hw
      simp only [List.filter_cons, hw, if_true, List.filterMap_cons, hx]
      exact .cons hs ih'
    | false =>
      simp only [List.filter_cons, hw, Bool.false_eq_true, if_false, List.filterMap_cons, h2 hw]
      exact ih'

/-- Played from a bag in order of time: the mapper receives the messages the user asked for, each
once, in order and with its content, up to one second before the end of the bag. Missing: the
messages of the last second, which are never delivered (`C84_last_second_fails`). -/
theorem C84_bag_partial (finite : P → Bool) (a : NodeArgs) (msgs : List (BagMsg (RosMsg R P)))
    (last : BagMsg (RosMsg R P)) (hc : a.cloudTopic ≠ "")
    (hd : ∀ m ∈ msgs, 1000000000 ≤ m.time) (hs : msgs.Pairwise (fun a b => a.time ≤ b.time))
    (hl : msgs.getLast? = some last)
    (hdense : ∀ m ∈ msgs, ∀ c, m.body.body = .cloud c → DenseOk finite c) :
    ∃ out, nodeBag finite a msgs = .ok out ∧
      List.Forall₂ (fun (m : BagMsg (RosMsg R P)) x => Same finite m.body.body x)
        ((msgs.filter fun m => decide (m.time + 1000000000 < last.time)).filter fun m => Wanted a m.body)
        out := by
  refine ⟨_, ?_, nodeMessages_spec finite a _ fun m hm => hdense m (List.mem_of_mem_filter hm)⟩
  unfold nodeBag
  rw [if_neg hc, C46_delivered_partial _ msgs last hd hs hl]
  rfl

/-- A cloud message of the topic "pc". -/
def pcAt (t : Nat) (p : Nat) : BagMsg (RosMsg Unit Nat) := ⟨t, ⟨"pc", .cloud ⟨0, false, [p, 99]⟩⟩⟩

/-- The number of clouds and their points that arrive. -/
def arrived (o : Outcome (List (NodeInsert Unit Nat))) : Option (List (List Nat)) :=
  match o with
  | .ok l => some (l.filterMap fun | .cloud c => some c.points | _ => none)
  | _ => none

/-- A bag of less than a second gives no message at all. -/
theorem C84_last_second_fails :
    arrived (nodeBag (fun n => n ≠ 99) ⟨"pc", "", "", "", "", ""⟩
      [pcAt 1000000000 1, pcAt 1500000000 2, pcAt 1900000000 3]) = some [] := by
  decide +kernel

/-- Instance: three clouds and an inertial message nobody asked for; the cloud of the last second is
missing. -/
example : arrived (nodeBag (fun n => n ≠ 99) ⟨"pc", "", "", "", "", ""⟩
    [pcAt 1000000000 1, ⟨1100000000, ⟨"imu", .other⟩⟩, pcAt 2500000000 2, pcAt 4000000000 3]) =
      some [[1], [2]] := by
  decide +kernel

end Verif
