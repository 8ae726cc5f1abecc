import Verif.Spec.CloudHolder
import Verif.Props.CloudIO
namespace Verif
open Spec

/-- relation between the concrete state, the logical cloud and the saved flag -/
structure HolderRel (maxPoints : Nat) (st : Holder × Files) (c : BitsCloud) (saved : Bool) : Prop where
  nonempty : c.points ≠ []
  mem : st.1.inMemory = true → st.1.inner = c
  swapped : st.1.inMemory = false → saved = true ∧ st.1.inner = emptyCloud ∧ st.1.eigenCount = 0
  file : saved = true → st.2 st.1.filename = some (serializeCloud c)

/-- sizes stay below the machine limits -/
def SmallClouds (maxPoints : Nat) (ops : List HolderOp) : Prop :=
  ∀ c, HolderOp.setCloud c ∈ ops → c.points.length < 2 ^ 64 ∧ c.points.length ≤ maxPoints

theorem holder_step (maxPoints : Nat) (st st' : Holder × Files) (c : BitsCloud) (saved : Bool)
    (op : HolderOp) (hr : HolderRel maxPoints st c saved)
    (hs : c.points.length < 2 ^ 64 ∧ c.points.length ≤ maxPoints)
    (hclear : op = .clear → saved = true)
    (h : Holder.step maxPoints st op = .ok st') :
    HolderRel maxPoints st' (logical c op) (savedAfter saved op) := by
  obtain ⟨hne, hmem, hsw, hfile⟩ := hr
  cases op with
  | clear =>
    simp only [Holder.step] at h
    split at h
    · cases h; exact ⟨hne, hmem, hsw, hfile⟩
    · cases h
      refine ⟨hne, by simp, fun _ => ⟨hclear rfl, rfl, rfl⟩, ?_⟩
      intro hh; exact hfile hh
  | transform f =>
    simp only [Holder.step] at h
    split at h
    · cases h
    · cases h
      rename_i h0
      have hm : st.1.inMemory = true := by
        cases hm : st.1.inMemory with
        | true => rfl
        | false => exact absurd (hsw hm).2.2 h0
      refine ⟨by simpa [logical] using hne, fun _ => by simp [logical, hmem hm], ?_, by simp [savedAfter]⟩
      intro hf; simp [hm] at hf
  | calcNormals k =>
    simp only [Holder.step] at h
    split at h
    · cases h
    · cases h
      rename_i h0
      refine ⟨hne, hmem, ?_, hfile⟩
      intro hf
      exact absurd (hsw hf).2.2 h0
  | setCloud d =>
    simp only [Holder.step, Holder.setInner] at h
    split at h
    · simp at h
    · rename_i hd
      simp at h
      subst h
      exact ⟨hd, by simp [logical], by simp, by simp [savedAfter]⟩
  | save name =>
    simp only [Holder.step] at h
    split at h
    · cases h
    · split at h
      · cases h
      · rename_i hn
        cases h
        have hm : st.1.inMemory = true := by
          cases hm : st.1.inMemory with
          | true => rfl
          | false => rw [(hsw hm).2.1] at hn; exact absurd rfl hn
        refine ⟨hne, hmem, ?_, fun _ => by simp [logical, hmem hm]⟩
        intro hf
        simp [hm] at hf
  | cloudInMemory =>
    simp only [Holder.step] at h
    split at h
    · cases h; exact ⟨hne, hmem, hsw, hfile⟩
    · rename_i hm
      simp at hm
      obtain ⟨h1, h2, h3⟩ := hsw hm
      rw [hfile h1] at h
      have hrt := C09_roundtrip c emptyCloud [] maxPoints hs.1 hs.2
      rw [List.append_nil] at hrt
      simp only [hrt, Outcome.bind_ok, Holder.setInner, hne, if_false, Outcome.pure_eq] at h
      cases h
      exact ⟨hne, by simp [logical], by simp, fun _ => hfile h1⟩

theorem clearsSafely_cons {saved : Bool} {op : HolderOp} {ops : List HolderOp}
    (h : ClearsSafely saved (op :: ops)) :
    (op = .clear → saved = true) ∧ ClearsSafely (savedAfter saved op) ops := by
  cases op with
  | clear => exact ⟨fun _ => h.1, h.2⟩
  | _ => simp_all [ClearsSafely, savedAfter]

theorem logical_small {maxPoints : Nat} {c : BitsCloud} {op : HolderOp}
    (hs : c.points.length < 2 ^ 64 ∧ c.points.length ≤ maxPoints)
    (hop : ∀ d, op = .setCloud d → d.points.length < 2 ^ 64 ∧ d.points.length ≤ maxPoints) :
    (logical c op).points.length < 2 ^ 64 ∧ (logical c op).points.length ≤ maxPoints := by
  cases op <;> simp_all [logical]

theorem holder_run (maxPoints : Nat) (ops : List HolderOp) (st st' : Holder × Files) (c : BitsCloud)
    (saved : Bool) (hr : HolderRel maxPoints st c saved)
    (hs : c.points.length < 2 ^ 64 ∧ c.points.length ≤ maxPoints)
    (hops : SmallClouds maxPoints ops) (hc : ClearsSafely saved ops)
    (h : Holder.run maxPoints st ops = .ok st') :
    ∃ saved', HolderRel maxPoints st' (logicalRun c ops) saved' ∧
      (logicalRun c ops).points.length < 2 ^ 64 ∧ (logicalRun c ops).points.length ≤ maxPoints := by
  induction ops generalizing st c saved with
  | nil =>
    simp only [Holder.run, Outcome.ok.injEq] at h
    subst h
    exact ⟨saved, hr, hs⟩
  | cons op ops ih =>
    simp only [Holder.run, Outcome.bind_eq_ok] at h
    obtain ⟨st1, h1, h2⟩ := h
    obtain ⟨hc1, hc2⟩ := clearsSafely_cons hc
    exact ih st1 (logical c op) (savedAfter saved op)
      (holder_step maxPoints st st1 c saved op hr hs hc1 h1)
      (logical_small hs (fun d hd => hops d (by simp [hd])))
      (fun d hd => hops d (by simp [hd])) hc2 h2

end Verif
