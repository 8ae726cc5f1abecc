import Verif.Proofs.CloudHolder
/-! Property theorem C11 (swapping a cloud to disk). -/
namespace Verif
open Spec

/-- The empty file system. -/
def noFiles : Files := fun _ => none

/-- C11 for every history in which the cloud is cleared only while its file is up to date: if
no call aborts, a read returns exactly the logical content (last cloud put in plus later
transforms), and it does not abort.
Missing: histories that clear after an unsaved change, for which the claim is false
(`C11_swap_invisible_fails`). -/
theorem C11_swap_invisible_partial (maxPoints : Nat) (c : BitsCloud) (ops : List HolderOp)
    (h0 : Holder) (st : Holder × Files)
    (hsize : c.points.length < 2 ^ 64 ∧ c.points.length ≤ maxPoints)
    (hops : SmallClouds maxPoints ops)
    (hsafe : ClearsSafely false ops)
    (hnew : Holder.new c = .ok h0)
    (hrun : Holder.run maxPoints (h0, noFiles) ops = .ok st) :
    Holder.readCloud maxPoints st = .ok (logicalRun c ops) := by
  have hr0 : HolderRel maxPoints (h0, noFiles) c false := by
    unfold Holder.new Holder.setInner at hnew
    split at hnew
    · cases hnew
    · rename_i hne; cases hnew
      exact ⟨hne, by simp, by simp, by simp⟩
  obtain ⟨saved, hr, hs⟩ := holder_run maxPoints ops _ st c false hr0 hsize hops hsafe hrun
  obtain ⟨hne, hmem, hsw, hfile⟩ := hr
  unfold Holder.readCloud
  cases hm : st.1.inMemory with
  | true => simp [Holder.step, hm, hmem hm]
  | false =>
    obtain ⟨h1, h2, h3⟩ := hsw hm
    have hrt := C09_roundtrip (logicalRun c ops) emptyCloud [] maxPoints hs.1 hs.2
    rw [List.append_nil] at hrt
    simp only [Holder.step, hm, hfile h1]
    simp [hrt, Holder.setInner, hne]

/-- C11 is false in general: save, transform, clear - the transform is lost on the next read.
(The history runs without aborting.) -/
theorem C11_swap_invisible_fails :
    ∃ (c : BitsCloud) (ops : List HolderOp) (h0 : Holder) (st : Holder × Files) (r : BitsCloud),
      Holder.new c = .ok h0 ∧ Holder.run 100 (h0, noFiles) ops = .ok st ∧
      Holder.readCloud 100 st = .ok r ∧ r ≠ logicalRun c ops := by
  refine ⟨⟨⟨1,2,1⟩, [⟨0,0,0,0,0⟩]⟩,
    [.save "a", .transform (fun p => { p with x := p.x + 1 }), .clear], _, _,
    ⟨⟨1,2,1⟩, [⟨0,0,0,0,0⟩]⟩, rfl, rfl, ?_, ?_⟩
  · have := C09_roundtrip ⟨⟨1,2,1⟩, [⟨0,0,0,0,0⟩]⟩ emptyCloud [] 100 (by decide) (by decide)
    rw [List.append_nil] at this
    simp [Holder.readCloud, Holder.step, this, Holder.setInner]
  · decide

/-- Normals do not survive swapping: after save, clear and reload the cloud has no normals
although they had been computed. -/
theorem C11_normals_lost_fails :
    ∃ (c : BitsCloud) (h0 : Holder) (st st' : Holder × Files),
      Holder.new c = .ok h0 ∧ Holder.run 100 (h0, noFiles) [.calcNormals 1, .save "a"] = .ok st ∧
      st.1.hasNormals = true ∧
      Holder.run 100 st [.clear, .cloudInMemory] = .ok st' ∧ st'.1.hasNormals = false := by
  have hrt := C09_roundtrip ⟨⟨1,2,1⟩, [⟨0,0,0,0,0⟩]⟩ emptyCloud [] 100 (by decide) (by decide)
  rw [List.append_nil] at hrt
  refine ⟨⟨⟨1,2,1⟩, [⟨0,0,0,0,0⟩]⟩, _, _,
    (⟨⟨⟨1,2,1⟩, [⟨0,0,0,0,0⟩]⟩, 1, false, "a", true⟩,
      fun n => if n = "a" then some (serializeCloud ⟨⟨1,2,1⟩, [⟨0,0,0,0,0⟩]⟩) else noFiles n),
    rfl, rfl, rfl, ?_, rfl⟩
  simp [Holder.run, Holder.step, hrt, Holder.setInner]

/-- Using a cleared holder without reloading it first: a transform aborts. -/
theorem C11_transform_cleared_aborts (maxPoints : Nat) (st : Holder × Files)
    (hm : st.1.inMemory = true) (f : BitsPoint → BitsPoint) :
    Holder.run maxPoints st [.clear, .transform f] = .abort := by
  simp [Holder.run, Holder.step, hm]

-- a history with a transform, saved, cleared twice and reloaded meets the hypotheses
/-- C11: an empty cloud is refused by the constructor and by the setter, and so is saving without a name or
without points. -/
theorem C11_empty_aborts (maxPoints : Nat) (stamp : RawTime) (st : Holder × Files) (name : String) :
    Holder.new ⟨stamp, []⟩ = .abort ∧ Holder.step maxPoints st (.setCloud ⟨stamp, []⟩) = .abort ∧
    Holder.step maxPoints st (.save "") = .abort ∧
    (st.1.inner.points = [] → Holder.step maxPoints st (.save name) = .abort) := by
  refine ⟨rfl, rfl, rfl, fun h => ?_⟩
  simp only [Holder.step]
  rw [if_pos h, ite_self]

/-- C11: a new holder has its cloud in memory, without normals and without a file; clearing it leaves nothing. -/
theorem C11_new (maxPoints : Nat) (c : BitsCloud) (hc : c.points ≠ []) (files : Files) :
    Holder.new c = .ok ⟨c, c.points.length, false, "", true⟩ ∧
    Holder.step maxPoints (⟨c, c.points.length, false, "", true⟩, files) .clear =
      .ok (⟨⟨⟨0, 0, 1⟩, []⟩, 0, false, "", false⟩, files) := by
  refine ⟨?_, rfl⟩
  unfold Holder.new Holder.setInner
  rw [if_neg hc]

example : ClearsSafely false [.transform id, .save "x", .clear, .clear, .cloudInMemory, .clear] ∧
    SmallClouds 100 [.transform id, .save "x", .clear, .clear, .cloudInMemory, .clear] := by
  refine ⟨by simp [ClearsSafely, savedAfter], by simp [SmallClouds]⟩
example : ∃ h0 st, Holder.new ⟨⟨1,2,1⟩, [⟨3,0,0,0,0⟩]⟩ = .ok h0 ∧ Holder.run 100 (h0, noFiles)
    [.transform id, .save "x", .clear, .clear] = .ok st := ⟨_, _, rfl, rfl⟩

end Verif
