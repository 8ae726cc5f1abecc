import Verif.Spec.Pipeline
import Mathlib.Tactic.Linarith
/-! C78: clouds are not emptied while they are in use. -/
namespace Verif
open Spec

structure PipeInv (n delay : Nat) (st : Pipe) : Prop where
  cur : st.cur = st.subs * n
  curLe : st.cur ≤ st.filled
  fill1 : st.filled ≤ st.slots
  got : ∀ s, st.pc = .got s → s ≤ st.slots
  doneStop : st.pc = .done → st.running = false
  stopAll : st.running = false → st.filled = st.slots
  pend : ∀ i, (i ∈ st.jobs ∨ i ∈ st.active) → i + 1 < st.subs ∧ st.matched i = false
  nodup : (st.jobs ++ st.active).Nodup
  matchedLt : ∀ i, st.matched i = true → i + 1 < st.subs ∨ (st.ended = true ∧ i < st.subs)
  endedDone : st.ended = true → st.pc = .done
  lastOpen : st.ended = false → ∀ i, i + 1 = st.subs → st.matched i = false
  frame : ∀ k, st.frameOut k = true → ∃ i, st.matched i = true ∧ i * n ≤ k ∧ k < (i + 1) * n
  sub : ∀ s, st.subOut s = true → st.matched s = true ∧ delay < st.idle s
  tgt : ∀ k, st.target = some k → k + 1 = st.filled

theorem pipe_init_inv (n delay : Nat) : PipeInv n delay Pipe.init := by
  constructor <;> simp [Pipe.init]

theorem cloud_inv {n delay : Nat} {st : Pipe} (h : PipeInv n delay st) (s : Nat) : PipeInv n delay (st.cloud s) := by
  refine ⟨h.cur, h.curLe, h.fill1, h.got, h.doneStop, h.stopAll, h.pend, h.nodup, h.matchedLt, h.endedDone, h.lastOpen, h.frame, ?_, h.tgt⟩
  intro k hk
  simp only [Pipe.cloud] at hk ⊢
  by_cases e : k = s
  · simp [e] at hk
  · rw [if_neg e] at hk ⊢
    exact h.sub k hk

/-- A submap that is not matched yet has its points and those of its frames. -/
theorem unmatched_in {n delay : Nat} {st : Pipe} (h : PipeInv n delay st) {i : Nat} (hm : st.matched i = false) :
    st.subOut i = false ∧ ∀ k ∈ List.range n, st.frameOut (i * n + k) = false := by
  constructor
  · by_contra hc
    have := (h.sub i (by simpa using hc)).1
    rw [hm] at this; cases this
  · intro k hk
    by_contra hc
    obtain ⟨j, hj, h1, h2⟩ := h.frame _ (by simpa using hc)
    have hk := List.mem_range.mp hk
    have e : j = i := by
      rcases Nat.lt_trichotomy j i with hl | rfl | hl
      · have : (j + 1) * n ≤ i * n := Nat.mul_le_mul_right n hl
        omega
      · rfl
      · have : (i + 1) * n ≤ j * n := Nat.mul_le_mul_right n hl
        rw [Nat.add_mul, Nat.one_mul] at this
        omega
    rw [e, hm] at hj; cases hj

theorem setMatched_ok {n delay : Nat} {st : Pipe} (h : PipeInv n delay st) {i : Nat} (hm : st.matched i = false) :
    st.setMatched n i = .ok { st with
      matched := fun k => if k = i then true else st.matched k
      frameOut := fun k => if i * n ≤ k ∧ k < (i + 1) * n then true else st.frameOut k } := by
  obtain ⟨h1, h2⟩ := unmatched_in h hm
  unfold Pipe.setMatched
  rw [Outcome.check_pos hm, Outcome.bind_ok, Outcome.check_pos h1, Outcome.bind_ok, Outcome.check_pos h2, Outcome.bind_ok]
  rfl

theorem matched_inv {n delay : Nat} {st : Pipe} (h : PipeInv n delay st) {i : Nat}
    (hp : i ∉ st.jobs ∧ i ∉ st.active) (hl : i + 1 < st.subs ∨ (st.ended = true ∧ i < st.subs)) :
    PipeInv n delay { st with
      matched := fun k => if k = i then true else st.matched k
      frameOut := fun k => if i * n ≤ k ∧ k < (i + 1) * n then true else st.frameOut k } := by
  refine ⟨h.cur, h.curLe, h.fill1, h.got, h.doneStop, h.stopAll, ?_, h.nodup, ?_, h.endedDone, ?_, ?_, ?_, h.tgt⟩
  · intro k hk
    have e : k ≠ i := by rintro rfl; exact hk.elim hp.1 hp.2
    simp only [if_neg e]
    exact h.pend k hk
  · intro k hk
    by_cases e : k = i
    · rw [e]; exact hl
    · simp only [if_neg e] at hk; exact h.matchedLt k hk
  · intro he k hk
    simp only at he hk ⊢
    have e : k ≠ i := by
      rintro rfl
      rcases hl with hl | ⟨hl, _⟩
      · omega
      · rw [he] at hl; cases hl
    rw [if_neg e]
    exact h.lastOpen he k hk
  · intro k hk
    simp only at hk ⊢
    by_cases e : i * n ≤ k ∧ k < (i + 1) * n
    · exact ⟨i, if_pos rfl, e⟩
    · rw [if_neg e] at hk
      obtain ⟨j, hj, hr⟩ := h.frame k hk
      refine ⟨j, ?_, hr⟩
      by_cases ej : j = i
      · exact if_pos ej
      · rw [if_neg ej]; exact hj
  · intro s hs
    obtain ⟨h1, h2⟩ := h.sub s hs
    refine ⟨?_, h2⟩
    by_cases e : s = i
    · simp [e]
    · simp only [if_neg e]; exact h1

/-- One step keeps the invariant and is not stopped by a check; it is undefined only when a slot is read in
which the frame is still being built. -/
theorem pipe_step {n delay : Nat} {st : Pipe} (h : PipeInv n delay st) (e : PipeEv) :
    (∃ st', st.step n delay e = .ok st' ∧ PipeInv n delay st') ∨
    (st.step n delay e = .ub ∧ e = .act ∧ ∃ s, st.pc = .got s ∧ st.filled < s) := by
  cases e with
  | take =>
    refine .inl ⟨_, rfl, ?_⟩
    split
    · rename_i hc
      refine ⟨h.cur, h.curLe, by have := h.fill1; simp only; omega, fun s hs => le_trans (h.got s hs) (by simp), h.doneStop, ?_, h.pend, h.nodup, h.matchedLt, h.endedDone, h.lastOpen, h.frame, h.sub, h.tgt⟩
      intro hd
      exact absurd (hd.symm.trans hc.1) (by simp)
    · exact h
  | fill =>
    refine .inl ⟨_, rfl, ?_⟩
    split
    · rename_i hc
      refine ⟨h.cur, by have := h.curLe; simp only; omega, by simp only; omega, h.got, h.doneStop, ?_, h.pend, h.nodup, h.matchedLt, h.endedDone, h.lastOpen, h.frame, h.sub, ?_⟩
      · intro hd
        exact absurd (hd.symm.trans hc.1) (by simp)
      · intro k hk
        simp only [Option.some.injEq] at hk
        simp only
        omega
    · exact h
  | late =>
    refine .inl ⟨_, rfl, ?_⟩
    split
    · exact ⟨h.cur, h.curLe, h.fill1, h.got, h.doneStop, h.stopAll, h.pend, h.nodup, h.matchedLt, h.endedDone, h.lastOpen, h.frame, h.sub, fun k hk => by cases hk⟩
    · exact h
  | stop =>
    refine .inl ⟨_, rfl, ?_⟩
    split
    · exact ⟨h.cur, h.curLe, h.fill1, h.got, fun _ => rfl, fun _ => (by assumption), h.pend, h.nodup, h.matchedLt, h.endedDone, h.lastOpen, h.frame, h.sub, h.tgt⟩
    · exact h
  | read =>
    left
    cases hp : st.pc with
    | head =>
      refine ⟨{ st with pc := .got st.slots }, by simp only [Pipe.step, hp], ?_⟩
      refine ⟨h.cur, h.curLe, h.fill1, ?_, ?_, ?_, h.pend, h.nodup, h.matchedLt, ?_, h.lastOpen, h.frame, h.sub, h.tgt⟩
      · intro s hs
        simp only [PipePc.got.injEq] at hs
        exact le_of_eq hs.symm
      · intro hd; cases hd
      · exact h.stopAll
      · intro he
        have := h.endedDone he
        rw [hp] at this; cases this
    | got s => exact ⟨st, by simp only [Pipe.step, hp], h⟩
    | done => exact ⟨st, by simp only [Pipe.step, hp], h⟩
  | act =>
    cases hp : st.pc with
    | head => exact .inl ⟨st, by simp only [Pipe.step, hp], h⟩
    | done => exact .inl ⟨st, by simp only [Pipe.step, hp], h⟩
    | got size =>
      have hend : st.ended = false := by
        by_contra hc
        have := h.endedDone (by simpa using hc)
        rw [hp] at this; cases this
      by_cases h1 : size - st.cur < n
      · refine .inl ⟨_, by simp only [Pipe.step, hp, if_pos h1]; rfl, ?_⟩
        refine ⟨h.cur, h.curLe, h.fill1, ?_, ?_, h.stopAll, h.pend, h.nodup, h.matchedLt, ?_, h.lastOpen, h.frame, h.sub, h.tgt⟩
        · intro s hs
          simp only at hs
          split at hs <;> cases hs
        · intro hd
          simp only at hd ⊢
          split at hd
          · cases hd
          · rename_i hr; simpa using hr
        · intro he
          rw [hend] at he; cases he
      · by_cases h2 : st.filled < st.cur + n
        · refine .inr ⟨by simp only [Pipe.step, hp, if_neg h1, if_pos h2], rfl, size, rfl, ?_⟩
          have := h.curLe
          omega
        · have h3 : ∀ k ∈ List.range n, st.frameOut (st.cur + k) = false := by
            rw [h.cur]
            apply (unmatched_in h ?_).2
            by_contra hc
            have hm : st.matched st.subs = true := by simpa using hc
            rcases h.matchedLt _ hm with hl | ⟨_, hl⟩ <;> omega
          refine .inl ⟨_, by simp only [Pipe.step, hp, if_neg h1, if_neg h2, Outcome.check_pos h3, Outcome.bind_ok]; rfl, ?_⟩
          have hu : st.matched (st.subs - 1) = false := by
            by_contra hc
            have hm : st.matched (st.subs - 1) = true := by simpa using hc
            rcases h.matchedLt _ hm with hl | ⟨hl, _⟩
            · by_cases h0 : st.subs = 0
              · omega
              · omega
            · rw [hend] at hl; cases hl
          refine ⟨?_, ?_, h.fill1, ?_, ?_, h.stopAll, ?_, ?_, ?_, ?_, ?_, h.frame, h.sub, h.tgt⟩
          · simp only; rw [h.cur, Nat.add_mul, Nat.one_mul]
          · simp only; omega
          · intro s hs; cases hs
          · intro hd; cases hd
          · intro i hi
            simp only at hi ⊢
            by_cases h0 : 0 < st.subs
            · rw [if_pos h0] at hi
              rcases hi with hi | hi
              · rcases List.mem_append.mp hi with hi | hi
                · exact ⟨by have := (h.pend i (.inl hi)).1; omega, (h.pend i (.inl hi)).2⟩
                · rw [List.mem_singleton.mp hi]
                  exact ⟨by omega, hu⟩
              · exact ⟨by have := (h.pend i (.inr hi)).1; omega, (h.pend i (.inr hi)).2⟩
            · rw [if_neg h0] at hi
              exact ⟨by have := (h.pend i hi).1; omega, (h.pend i hi).2⟩
          · simp only
            by_cases h0 : 0 < st.subs
            · rw [if_pos h0]
              have hp2 : (st.jobs ++ [st.subs - 1] ++ st.active).Perm ((st.subs - 1) :: (st.jobs ++ st.active)) := by
                rw [List.append_assoc]
                exact List.perm_middle
              refine hp2.symm.nodup (List.nodup_cons.mpr ⟨?_, h.nodup⟩)
              intro hm
              have := (h.pend _ (List.mem_append.mp hm)).1
              omega
            · rw [if_neg h0]; exact h.nodup
          · intro i hi
            rcases h.matchedLt i hi with hl | ⟨hl, _⟩
            · exact .inl (by simp only; omega)
            · rw [hend] at hl; cases hl
          · intro he
            simp only at he
            rw [hend] at he; cases he
          · intro he i hi
            simp only at hi ⊢
            by_contra hc
            have hm : st.matched i = true := by simpa using hc
            rcases h.matchedLt i hm with hl | ⟨_, hl⟩ <;> omega
  | start i =>
    by_cases hi : i ∈ st.jobs
    · refine .inl ⟨_, by simp only [Pipe.step, if_pos hi]; rfl, ?_⟩
      apply cloud_inv
      apply cloud_inv
      refine ⟨h.cur, h.curLe, h.fill1, h.got, h.doneStop, h.stopAll, ?_, ?_, h.matchedLt, h.endedDone, h.lastOpen, h.frame, h.sub, h.tgt⟩
      · intro k hk
        apply h.pend k
        simp only [List.mem_append, List.mem_singleton] at hk
        rcases hk with hk | hk | hk
        · exact .inl (List.mem_of_mem_erase hk)
        · exact .inr hk
        · exact .inl (hk ▸ hi)
      · have hp : (st.jobs.erase i ++ (st.active ++ [i])).Perm (st.jobs ++ st.active) := by
          rw [← List.append_assoc]
          refine (List.perm_append_comm).trans ?_
          exact ((List.perm_cons_erase hi).append_right st.active).symm
        exact hp.symm.nodup h.nodup
    · exact .inl ⟨st, by simp only [Pipe.step, if_neg hi], h⟩
  | finish i =>
    by_cases hi : i ∈ st.active
    · obtain ⟨hlt, hm⟩ := h.pend i (.inr hi)
      have h' : PipeInv n delay { st with active := st.active.erase i } := by
        refine ⟨h.cur, h.curLe, h.fill1, h.got, h.doneStop, h.stopAll, ?_, ?_, h.matchedLt, h.endedDone, h.lastOpen, h.frame, h.sub, h.tgt⟩
        · intro k hk
          apply h.pend k
          exact hk.imp id List.mem_of_mem_erase
        · exact h.nodup.sublist ((List.Sublist.refl _).append (List.erase_sublist))
      refine .inl ⟨_, by simp only [Pipe.step, if_pos hi]; exact setMatched_ok h' hm, ?_⟩
      refine matched_inv h' ⟨?_, ?_⟩ (.inl hlt)
      · intro hj
        exact (List.nodup_append.mp h.nodup).2.2 i hj i hi rfl
      · exact fun hj => (List.Nodup.not_mem_erase (List.nodup_append.mp h.nodup).2.1) hj
    · exact .inl ⟨st, by simp only [Pipe.step, if_neg hi], h⟩
  | tick s d =>
    left
    by_cases h1 : s < st.subs ∧ st.matched s = true
    · by_cases h2 : delay < st.idle s + d
      · refine ⟨_, by simp only [Pipe.step, if_pos h1, if_pos h2]; rfl, ?_⟩
        refine ⟨h.cur, h.curLe, h.fill1, h.got, h.doneStop, h.stopAll, h.pend, h.nodup, h.matchedLt, h.endedDone, h.lastOpen, h.frame, ?_, h.tgt⟩
        intro k hk
        simp only at hk ⊢
        by_cases e : k = s
        · rw [if_pos e, e]; exact ⟨h1.2, h2⟩
        · rw [if_neg e] at hk ⊢; exact h.sub k hk
      · refine ⟨_, by simp only [Pipe.step, if_pos h1, if_neg h2]; rfl, ?_⟩
        refine ⟨h.cur, h.curLe, h.fill1, h.got, h.doneStop, h.stopAll, h.pend, h.nodup, h.matchedLt, h.endedDone, h.lastOpen, h.frame, ?_, h.tgt⟩
        intro k hk
        simp only
        by_cases e : k = s
        · subst e
          have := h.sub k hk
          omega
        · rw [if_neg e]; exact h.sub k hk
    · exact ⟨st, by simp only [Pipe.step, if_neg h1], h⟩
  | use s =>
    refine .inl ⟨_, rfl, ?_⟩
    split
    · exact cloud_inv h s
    · exact h
  | last =>
    left
    cases hp : st.pc with
    | head => exact ⟨st, by simp only [Pipe.step, hp], h⟩
    | got s => exact ⟨st, by simp only [Pipe.step, hp], h⟩
    | done =>
      by_cases h1 : st.ended = false ∧ 0 < st.subs
      · have h' : PipeInv n delay { st with ended := true } := by
          refine ⟨h.cur, h.curLe, h.fill1, h.got, h.doneStop, h.stopAll, h.pend, h.nodup, ?_, fun _ => hp, fun he => (by cases he), h.frame, h.sub, h.tgt⟩
          intro i hi
          rcases h.matchedLt i hi with hl | ⟨_, hl⟩
          · exact .inl hl
          · exact .inr ⟨rfl, hl⟩
        have hm : st.matched (st.subs - 1) = false := h.lastOpen h1.1 _ (by omega)
        have hs : st.step n delay .last = Pipe.setMatched n { st with ended := true } (st.subs - 1) := by
          simp only [Pipe.step, hp, if_pos h1]
        refine ⟨_, hs.trans (setMatched_ok h' hm), ?_⟩
        refine matched_inv h' ⟨?_, ?_⟩ (.inr ⟨rfl, by simp only; omega⟩)
        · intro hj
          have := (h.pend _ (.inl hj)).1
          omega
        · intro hj
          have := (h.pend _ (.inr hj)).1
          omega
      · exact ⟨st, by simp only [Pipe.step, hp, if_neg h1], h⟩

theorem pipe_run {n delay : Nat} {st : Pipe} (h : PipeInv n delay st) (es : List PipeEv) :
    st.run n delay es ≠ .abort ∧ ∀ st', st.run n delay es = .ok st' → PipeInv n delay st' := by
  induction es generalizing st with
  | nil => exact ⟨by simp [Pipe.run], fun st' hs => by cases hs; exact h⟩
  | cons e es ih =>
    rcases pipe_step h e with ⟨st1, h1, hi⟩ | ⟨h1, _⟩
    · simp only [Pipe.run, h1, Outcome.bind_ok]
      exact ih hi
    · simp only [Pipe.run, h1, Outcome.bind_ub]
      exact ⟨by simp, fun st' hs => by cases hs⟩

/-- **C78 (checks)**: no interleaving of the front end, the submap thread, the pair matches and the memory
manager is stopped by a check: every frame and submap has its points when a submap is built and when it is
saved, and no submap is given its transform twice. -/
theorem C78_no_stop (n delay : Nat) (es : List PipeEv) : Pipe.init.run n delay es ≠ .abort :=
  (pipe_run (pipe_init_inv n delay) es).1

/-- **C78 (front end)**: while the front end runs, the key frame it matches against has its points. -/
theorem C78_front_end (n delay : Nat) (es : List PipeEv) (st : Pipe) (h : Pipe.init.run n delay es = .ok st)
    (hr : st.running = true) (k : Nat) (hk : st.target = some k) : st.frameOut k = false := by
  have inv := (pipe_run (pipe_init_inv n delay) es).2 st h
  by_contra hc
  obtain ⟨i, hm, _, h2⟩ := inv.frame k (by simpa using hc)
  have hi : i + 1 < st.subs := by
    rcases inv.matchedLt i hm with hl | ⟨hl, _⟩
    · exact hl
    · have := inv.doneStop (inv.endedDone hl)
      rw [hr] at this; cases this
  have h3 : (i + 1 + 1) * n ≤ st.subs * n := Nat.mul_le_mul_right n hi
  have h4 : st.subs * n ≤ st.filled := inv.cur ▸ inv.curLe
  have h5 := inv.tgt k hk
  have h6 : (i + 1 + 1) * n = (i + 1) * n + n := by rw [Nat.add_mul (i + 1), Nat.one_mul]
  have h7 : n ≠ 0 := by rintro rfl; simp at h2
  omega

/-- **C78 (pair matches, partial)**: the submap that a pair match aligns against has its points as long as the
match goes on; the other one loses them only if the next pair match has ended before and more than the
configured delay has passed. Missing: the latter. -/
theorem C78_pair_partial (n delay : Nat) (es : List PipeEv) (st : Pipe) (h : Pipe.init.run n delay es = .ok st)
    (i : Nat) (hi : i ∈ st.active) :
    st.subOut i = false ∧ (st.subOut (i + 1) = true → st.matched (i + 1) = true ∧ delay < st.idle (i + 1)) := by
  have inv := (pipe_run (pipe_init_inv n delay) es).2 st h
  exact ⟨(unmatched_in inv (inv.pend i (.inr hi)).2).1, inv.sub (i + 1)⟩

/-- **C78 (all clouds in use, partial)**: if pair matches end in the order of the submaps, everything that is
being matched is in memory. -/
theorem C78_in_use_partial (n delay : Nat) (es : List PipeEv) (st : Pipe) (h : Pipe.init.run n delay es = .ok st)
    (ho : ∀ i ∈ st.active, st.matched (i + 1) = false) : InUseInMemory st :=
  ⟨fun hr k hk => C78_front_end n delay es st h hr k hk, fun i hi => (C78_pair_partial n delay es st h i hi).1,
    fun i hi => by
      by_contra hc
      have := ((C78_pair_partial n delay es st h i hi).2 (by simpa using hc)).1
      rw [ho i hi] at this; cases this⟩

/-- One frame per submap: three submaps, the first pair match is slow, the second one ends, and the memory manager
empties the second submap. -/
def pipeSlow : List PipeEv :=
  [.take, .fill, .read, .act, .take, .fill, .read, .act, .take, .fill, .read, .act,
   .start 0, .start 1, .finish 1, .tick 1 1, .tick 1 1]

/-- **C78 fails (pair matches)**: a submap can be emptied while it is aligned with its predecessor. -/
theorem C78_source_fails : ∃ st, Pipe.init.run 1 1 pipeSlow = .ok st ∧ ¬ InUseInMemory st := by
  refine ⟨_, rfl, fun h => ?_⟩
  have := h.source 0 (by decide)
  revert this
  decide

/-- **C78 fails (frames under construction)**: the submap thread may take a frame out of a slot in which it has
not been put yet. -/
theorem C78_half_built_fails : Pipe.init.run 1 1 [.take, .read, .act] = .ub := rfl

theorem noRead_run {n delay : Nat} {st : Pipe} (h : PipeInv n delay st) (hg : ∀ s, st.pc = .got s → s ≤ st.filled)
    (es : List PipeEv) (hn : NoReadWhileTaking n delay st es) : st.run n delay es ≠ .ub := by
  induction es generalizing st with
  | nil => simp [Pipe.run]
  | cons e es ih =>
    rcases pipe_step h e with ⟨st1, h1, hi⟩ | ⟨_, _, s, hs, hl⟩
    · simp only [Pipe.run, h1, Outcome.bind_ok]
      refine ih hi ?_ (hn.2 st1 h1)
      have hread := hn.1
      intro s hs
      cases e with
      | take => cases h1; split at hs <;> (split <;> exact hg s hs)
      | fill => cases h1; split at hs <;> (split <;> first | exact hg s hs | exact le_trans (hg s hs) (Nat.le_succ _))
      | late => cases h1; split at hs <;> (split <;> exact hg s hs)
      | stop => cases h1; split at hs <;> (split <;> exact hg s hs)
      | use k => cases h1; split at hs <;> (split <;> exact hg s hs)
      | read =>
        cases hp : st.pc with
        | head =>
          simp only [Pipe.step, hp] at h1
          cases h1
          simp only [PipePc.got.injEq] at hs
          simp only
          rw [hread rfl]; exact le_of_eq hs.symm
        | got k => simp only [Pipe.step, hp] at h1; cases h1; exact hg s hs
        | done => simp only [Pipe.step, hp] at h1; cases h1; exact hg s hs
      | act =>
        cases hp : st.pc with
        | head => simp only [Pipe.step, hp] at h1; cases h1; exact hg s hs
        | done => simp only [Pipe.step, hp] at h1; cases h1; exact hg s hs
        | got k =>
          simp only [Pipe.step, hp] at h1
          split at h1
          · cases h1
            simp only at hs
            split at hs <;> cases hs
          · split at h1
            · cases h1
            · obtain ⟨_, h1⟩ := (Outcome.check_bind_eq_ok _ _ _).mp h1
              cases h1
              cases hs
      | start i =>
        simp only [Pipe.step] at h1
        split at h1 <;> (cases h1; exact hg s hs)
      | finish i =>
        simp only [Pipe.step, Pipe.setMatched] at h1
        split at h1
        · obtain ⟨_, h1⟩ := (Outcome.check_bind_eq_ok _ _ _).mp h1
          obtain ⟨_, h1⟩ := (Outcome.check_bind_eq_ok _ _ _).mp h1
          obtain ⟨_, h1⟩ := (Outcome.check_bind_eq_ok _ _ _).mp h1
          cases h1; exact hg s hs
        · cases h1; exact hg s hs
      | tick k d =>
        simp only [Pipe.step] at h1
        split at h1
        · split at h1 <;> (cases h1; exact hg s hs)
        · cases h1; exact hg s hs
      | last =>
        cases hp : st.pc with
        | head => simp only [Pipe.step, hp] at h1; cases h1; exact hg s hs
        | got k => simp only [Pipe.step, hp] at h1; cases h1; exact hg s hs
        | done =>
          simp only [Pipe.step, hp, Pipe.setMatched] at h1
          split at h1
          · obtain ⟨_, h1⟩ := (Outcome.check_bind_eq_ok _ _ _).mp h1
            obtain ⟨_, h1⟩ := (Outcome.check_bind_eq_ok _ _ _).mp h1
            obtain ⟨_, h1⟩ := (Outcome.check_bind_eq_ok _ _ _).mp h1
            cases h1; cases hs
          · cases h1; exact hg s hs
    · have := hg s hs
      omega

/-- **C78 (frames under construction, partial)**: as long as the number of frames is not read while one is being
put in, nothing undefined happens. -/
theorem C78_defined_partial (n delay : Nat) (es : List PipeEv) (hn : NoReadWhileTaking n delay Pipe.init es) :
    Pipe.init.run n delay es ≠ .ub :=
  noRead_run (pipe_init_inv n delay) (by simp [Pipe.init]) es hn

/-- A whole run with three submaps of one frame, all matched, saved and emptied, and the first used again. -/
example : ∃ st, Pipe.init.run 1 1 (pipeSlow ++ [.finish 0, .tick 0 5, .use 0, .stop, .read, .act, .last]) = .ok st ∧
    st.matched 2 = true ∧ st.subOut 0 = false ∧ st.subOut 1 = true ∧ st.frameOut 2 = true ∧ st.active = [] := by
  refine ⟨_, rfl, ?_⟩
  decide

/-- In the middle of it the front end has a target, and a pair match is under way. -/
example : ∃ st, Pipe.init.run 1 1 pipeSlow = .ok st ∧ st.running = true ∧ st.target = some 2 ∧ 0 ∈ st.active := by
  refine ⟨_, rfl, ?_⟩
  decide

example : NoReadWhileTaking 1 1 Pipe.init [.take, .fill, .read, .act] := by
  simp [NoReadWhileTaking, Pipe.init, Pipe.step]

end Verif
