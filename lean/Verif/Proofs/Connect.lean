import Verif.Model.Connect
import Mathlib.Tactic.ByContra
import Mathlib.Tactic.Push
/-! Invariant of the connecting thread. -/
namespace Verif
variable {G : Type} [Group G]

structure ConnInv (st : Conn G) : Prop where
  first : st.first = false → st.fin = 0 ∧ st.added = []
  added : st.first = true → st.added = List.range (st.fin + 1) ∧ 2 ≤ st.size
  fin : st.fin = 0 ∨ st.fin < st.size
  matched : ∀ i, st.matched i = true → i + 1 < st.size ∨ ∃ s, st.pc = .finished s
  jobs : ∀ i ∈ st.jobs, i + 1 < st.size ∧ st.matched i = false
  nodup : st.jobs.Nodup
  pcGot : ∀ s, st.pc = .got s → s ≤ st.size ∧ (st.fin = 0 ∨ st.fin < s)
  pcCollect : ∀ s i, st.pc = .collect s i → st.fin ≤ i ∧ i < s ∧ s ≤ st.size ∧ st.first = true ∧
    ∀ k, st.fin ≤ k → k < i → st.matched k = true
  pcConnect : ∀ l, st.pc = .connect l → st.fin ≤ l ∧ l < st.size ∧ st.first = true ∧
    ∀ k, st.fin ≤ k → k < l → st.matched k = true
  pcFin : ∀ s, st.pc = .finished s → s ≤ st.size ∧ (s = 0 ∨ s - 1 = st.fin) ∧ st.done = true

theorem connInv_init : ConnInv (Conn.init : Conn G) := by
  constructor <;> simp [Conn.init]

theorem connInv_step {st : Conn G} (e : ConnEv G) (hi : ConnInv st) :
    ∃ st', st.step e = .ok st' ∧ ConnInv st' := by
  obtain ⟨h1, h2, h3, h4, h5, h6, h7, h8, h9, h10⟩ := hi
  cases e with
  | push g =>
    simp only [Conn.step]
    by_cases hd : st.done = true
    · exact ⟨st, by simp [hd], ⟨h1, h2, h3, h4, h5, h6, h7, h8, h9, h10⟩⟩
    · refine ⟨_, if_neg hd, ?_⟩
      refine ⟨h1, ?_, ?_, ?_, ?_, ?_, ?_, ?_, ?_, ?_⟩
      · intro hf; have := h2 hf; exact ⟨this.1, Nat.le_succ_of_le this.2⟩
      · rcases h3 with h | h
        · exact Or.inl h
        · exact Or.inr (Nat.lt_succ_of_lt h)
      · intro i hm
        rcases h4 i hm with h | h
        · exact Or.inl (Nat.lt_succ_of_lt h)
        · right; exact h
      · intro i hm
        simp only at hm ⊢
        split at hm
        · rw [List.mem_append, List.mem_singleton] at hm
          rcases hm with hm | hm
          · have := h5 i hm; exact ⟨by omega, this.2⟩
          · refine ⟨by omega, ?_⟩
            by_contra hc
            have hc : st.matched i = true := by simpa using hc
            rcases h4 i hc with h | ⟨s, h⟩
            · omega
            · exact hd (h10 s h).2.2
        · have := h5 i hm; exact ⟨by omega, this.2⟩
      · simp only
        split
        · rw [List.nodup_append]
          refine ⟨h6, by simp, ?_⟩
          intro a ha b hb
          rw [List.mem_singleton] at hb
          have := (h5 a ha).1
          omega
        · exact h6
      · intro s hs; exact ⟨Nat.le_succ_of_le (h7 s hs).1, (h7 s hs).2⟩
      · intro s i hs
        obtain ⟨a, b, c, d, f⟩ := h8 s i hs
        exact ⟨a, b, Nat.le_succ_of_le c, d, f⟩
      · intro l hl
        obtain ⟨a, b, c, d⟩ := h9 l hl
        exact ⟨a, Nat.lt_succ_of_lt b, c, d⟩
      · intro s hs
        exact absurd (h10 s hs).2.2 hd
  | pairMatch i t =>
    simp only [Conn.step]
    by_cases hm : i ∈ st.jobs
    · obtain ⟨hlt, hnm⟩ := h5 i hm
      refine ⟨_, by rw [if_pos hm, Outcome.check_pos hnm]; rfl, ?_⟩
      refine ⟨h1, h2, h3, ?_, ?_, ?_, h7, ?_, ?_, h10⟩
      · intro k hk
        simp only at hk
        split at hk
        · rename_i e; left; rw [e]; exact hlt
        · exact h4 k hk
      · intro k hk
        simp only at hk ⊢
        have hk' := List.mem_of_mem_erase hk
        have hne : k ≠ i := by
          rintro rfl
          exact (List.Nodup.not_mem_erase h6) hk
        rw [if_neg hne]
        exact h5 k hk'
      · exact List.Nodup.erase _ h6
      · intro s j hs
        obtain ⟨a, b, c, d, f⟩ := h8 s j hs
        refine ⟨a, b, c, d, ?_⟩
        intro k hk1 hk2
        simp only
        split
        · rfl
        · exact f k hk1 hk2
      · intro l hl
        obtain ⟨a, b, c, f⟩ := h9 l hl
        refine ⟨a, b, c, ?_⟩
        intro k hk1 hk2
        simp only
        split
        · rfl
        · exact f k hk1 hk2
    · exact ⟨st, by rw [if_neg hm], ⟨h1, h2, h3, h4, h5, h6, h7, h8, h9, h10⟩⟩
  | setDone =>
    refine ⟨_, rfl, ?_⟩
    refine ⟨h1, h2, h3, h4, h5, h6, h7, h8, h9, ?_⟩
    intro s hs
    have := h10 s hs
    exact ⟨this.1, this.2.1, rfl⟩
  | read =>
    simp only [Conn.step]
    cases hpc : st.pc with
    | head =>
      refine ⟨_, rfl, ?_⟩
      refine ⟨h1, h2, h3, ?_, h5, h6, ?_, by simp, by simp, by simp⟩
      · intro i hm
        rcases h4 i hm with h | ⟨s, h⟩
        · left; exact h
        · rw [hpc] at h; cases h
      · intro s hs
        simp only [ConnPc.got.injEq] at hs
        subst hs
        exact ⟨Nat.le_refl _, h3⟩
    | got s => exact ⟨st, rfl, ⟨h1, h2, h3, h4, h5, h6, h7, h8, h9, h10⟩⟩
    | collect s i => exact ⟨st, rfl, ⟨h1, h2, h3, h4, h5, h6, h7, h8, h9, h10⟩⟩
    | connect l => exact ⟨st, rfl, ⟨h1, h2, h3, h4, h5, h6, h7, h8, h9, h10⟩⟩
    | finished s => exact ⟨st, rfl, ⟨h1, h2, h3, h4, h5, h6, h7, h8, h9, h10⟩⟩
  | test =>
    simp only [Conn.step]
    cases hpc : st.pc with
    | head => exact ⟨st, rfl, ⟨h1, h2, h3, h4, h5, h6, h7, h8, h9, h10⟩⟩
    | collect s i => exact ⟨st, rfl, ⟨h1, h2, h3, h4, h5, h6, h7, h8, h9, h10⟩⟩
    | connect l => exact ⟨st, rfl, ⟨h1, h2, h3, h4, h5, h6, h7, h8, h9, h10⟩⟩
    | finished s => exact ⟨st, rfl, ⟨h1, h2, h3, h4, h5, h6, h7, h8, h9, h10⟩⟩
    | got s =>
      dsimp only
      obtain ⟨hs, hsf⟩ := h7 s hpc
      have hnf : ∀ i, st.matched i = true → i + 1 < st.size := by
        intro i hm
        rcases h4 i hm with h | ⟨s, h⟩
        · exact h
        · rw [hpc] at h; cases h
      by_cases hc : s = 0 ∨ s - 1 = st.fin
      · by_cases hd : st.done = true
        · by_cases h0 : st.size = 0
          · refine ⟨{ st with pc := .finished s }, by rw [if_pos hc, if_pos hd, if_pos h0],
              h1, h2, h3, ?_, h5, h6, by simp, by simp, by simp, ?_⟩
            · intro i hm; right; exact ⟨s, rfl⟩
            · intro s' hs'
              simp only [ConnPc.finished.injEq] at hs'
              subst hs'
              exact ⟨hs, hc, hd⟩
          · have hnm : st.matched (st.size - 1) = false := by
              by_contra hh
              have := hnf _ (by simpa using hh)
              omega
            refine ⟨_, by rw [if_pos hc, if_pos hd, if_neg h0, Outcome.check_pos hnm]; rfl, ?_⟩
            refine ⟨h1, h2, h3, ?_, ?_, h6, by simp, by simp, by simp, ?_⟩
            · intro i hm; right; exact ⟨s, rfl⟩
            · intro i hm
              have := h5 i hm
              refine ⟨this.1, ?_⟩
              simp only
              rw [if_neg (by omega)]
              exact this.2
            · intro s' hs'
              simp only [ConnPc.finished.injEq] at hs'
              subst hs'
              exact ⟨hs, hc, hd⟩
        · refine ⟨{ st with pc := .head }, by rw [if_pos hc, if_neg hd],
              h1, h2, h3, fun i hm => Or.inl (hnf i hm), h5, h6, by simp, by simp, by simp, by simp⟩
      · refine ⟨_, if_neg hc, ?_⟩
        refine ⟨by simp, ?_, h3, fun i hm => Or.inl (hnf i hm), h5, h6,
          by simp, ?_, by simp, by simp⟩
        · intro _
          simp only
          by_cases hf : st.first = true
          · rw [if_pos hf]; exact h2 hf
          · have hf' : st.first = false := by simpa using hf
            rw [if_neg hf]
            obtain ⟨a, b⟩ := h1 hf'
            rw [a, b]
            refine ⟨rfl, ?_⟩
            omega
        · intro s' i' hs'
          simp only [ConnPc.collect.injEq] at hs'
          obtain ⟨rfl, rfl⟩ := hs'
          refine ⟨Nat.le_refl _, ?_, hs, rfl, ?_⟩
          · show st.fin < s
            omega
          · intro k a b; exact absurd b (Nat.not_lt.mpr a)
  | collect =>
    simp only [Conn.step]
    cases hpc : st.pc with
    | head => exact ⟨st, rfl, ⟨h1, h2, h3, h4, h5, h6, h7, h8, h9, h10⟩⟩
    | got s => exact ⟨st, rfl, ⟨h1, h2, h3, h4, h5, h6, h7, h8, h9, h10⟩⟩
    | connect l => exact ⟨st, rfl, ⟨h1, h2, h3, h4, h5, h6, h7, h8, h9, h10⟩⟩
    | finished s => exact ⟨st, rfl, ⟨h1, h2, h3, h4, h5, h6, h7, h8, h9, h10⟩⟩
    | collect s i =>
      dsimp only
      obtain ⟨a, b, c, d, f⟩ := h8 s i hpc
      have hnf : ∀ i, st.matched i = true → i + 1 < st.size := by
        intro i hm
        rcases h4 i hm with h | ⟨s, h⟩
        · exact h
        · rw [hpc] at h; cases h
      by_cases hc : st.matched i = true ∧ i + 1 < s
      · refine ⟨_, if_pos hc, ?_⟩
        refine ⟨h1, h2, h3, fun i hm => Or.inl (hnf i hm), h5, h6, by simp, ?_, by simp, by simp⟩
        intro s' i' hs'
        simp only [ConnPc.collect.injEq] at hs'
        obtain ⟨rfl, rfl⟩ := hs'
        refine ⟨Nat.le_succ_of_le a, hc.2, c, d, ?_⟩
        intro k hk1 hk2
        rcases Nat.lt_succ_iff_lt_or_eq.mp hk2 with h | h
        · exact f k hk1 h
        · rw [h]; exact hc.1
      · rw [if_neg hc]
        by_cases hif : i = st.fin
        · refine ⟨_, if_pos hif, ?_⟩
          exact ⟨h1, h2, h3, fun i hm => Or.inl (hnf i hm), h5, h6, by simp, by simp, by simp,
            by simp⟩
        · refine ⟨_, if_neg hif, ?_⟩
          refine ⟨h1, h2, h3, fun i hm => Or.inl (hnf i hm), h5, h6, by simp, by simp, ?_, by simp⟩
          intro l hl
          simp only [ConnPc.connect.injEq] at hl
          subst hl
          exact ⟨a, Nat.lt_of_lt_of_le b c, d, f⟩
  | connect upd =>
    simp only [Conn.step]
    cases hpc : st.pc with
    | head => exact ⟨st, rfl, ⟨h1, h2, h3, h4, h5, h6, h7, h8, h9, h10⟩⟩
    | got s => exact ⟨st, rfl, ⟨h1, h2, h3, h4, h5, h6, h7, h8, h9, h10⟩⟩
    | collect s i => exact ⟨st, rfl, ⟨h1, h2, h3, h4, h5, h6, h7, h8, h9, h10⟩⟩
    | finished s => exact ⟨st, rfl, ⟨h1, h2, h3, h4, h5, h6, h7, h8, h9, h10⟩⟩
    | connect last =>
      obtain ⟨a, b, d, f⟩ := h9 last hpc
      have hnf : ∀ i, st.matched i = true → i + 1 < st.size := by
        intro i hm
        rcases h4 i hm with h | ⟨s, h⟩
        · exact h
        · rw [hpc] at h; cases h
      by_cases hc : st.fin < last
      · refine ⟨_, if_pos hc, ?_⟩
        refine ⟨?_, ?_, ?_, ?_, h5, h6, ?_, ?_, ?_, ?_⟩
        · intro hf; rw [d] at hf; cases hf
        · intro _
          refine ⟨?_, (h2 d).2⟩
          show st.added ++ [st.fin + 1] = List.range (st.fin + 1 + 1)
          rw [List.range_succ, (h2 d).1]
        · right; show st.fin + 1 < st.size; omega
        · intro i hm; left; exact hnf i hm
        · intro s hs; cases hs
        · intro s i hs; cases hs
        · intro l hl
          simp only [ConnPc.connect.injEq] at hl
          subst hl
          exact ⟨hc, b, d, fun k h1 h2 => f k (Nat.le_of_succ_le h1) h2⟩
        · intro s hs; cases hs
      · refine ⟨_, if_neg hc, ?_⟩
        exact ⟨h1, h2, h3, fun i hm => Or.inl (hnf i hm), h5, h6, by simp, by simp, by simp,
            by simp⟩

theorem connInv_run (es : List (ConnEv G)) : ∀ {st : Conn G}, ConnInv st →
    ∃ st', st.run es = .ok st' ∧ ConnInv st' := by
  induction es with
  | nil => intro st h; exact ⟨st, rfl, h⟩
  | cons e es ih =>
    intro st h
    obtain ⟨s1, e1, i1⟩ := connInv_step e h
    obtain ⟨s2, e2, i2⟩ := ih i1
    exact ⟨s2, by simp only [Conn.run, e1, Outcome.bind_ok]; exact e2, i2⟩

/-- What one step may do to the list of added submaps. -/
theorem conn_step_added {st st' : Conn G} (hi : ConnInv st) (e : ConnEv G)
    (h : st.step e = .ok st') :
    st'.added = st.added ∨
    (st.added = [] ∧ st'.added = [0] ∧ 0 < st'.size) ∨
    ∃ j upd, e = .connect upd ∧ st'.added = st.added ++ [j + 1] ∧ st.added = List.range (j + 1) ∧
      j + 1 < st.size ∧ st.matched j = true ∧
      st'.pose (j + 1) = upd (j + 1) (st.pose j * st.toNext j) ∧
      (∀ k, k ≤ j → st'.pose k = upd k (st.pose k)) := by
  cases e with
  | push g =>
    simp only [Conn.step] at h
    split at h <;> (simp only [Outcome.ok.injEq] at h; subst h; exact Or.inl rfl)
  | pairMatch i t =>
    simp only [Conn.step] at h
    split at h
    · rw [Outcome.bind_eq_ok] at h
      obtain ⟨_, _, h⟩ := h
      simp only [Outcome.pure_eq, Outcome.ok.injEq] at h
      subst h; exact Or.inl rfl
    · simp only [Outcome.ok.injEq] at h; subst h; exact Or.inl rfl
  | setDone =>
    simp only [Conn.step, Outcome.ok.injEq] at h; subst h; exact Or.inl rfl
  | read =>
    simp only [Conn.step] at h
    split at h <;> (simp only [Outcome.ok.injEq] at h; subst h; exact Or.inl rfl)
  | collect =>
    simp only [Conn.step] at h
    split at h
    · split at h
      · simp only [Outcome.ok.injEq] at h; subst h; exact Or.inl rfl
      · split at h <;> (simp only [Outcome.ok.injEq] at h; subst h; exact Or.inl rfl)
    · simp only [Outcome.ok.injEq] at h; subst h; exact Or.inl rfl
  | test =>
    simp only [Conn.step] at h
    split at h
    · rename_i s hpc
      split at h
      · split at h
        · split at h
          · simp only [Outcome.ok.injEq] at h; subst h; exact Or.inl rfl
          · rw [Outcome.bind_eq_ok] at h
            obtain ⟨_, _, h⟩ := h
            simp only [Outcome.pure_eq, Outcome.ok.injEq] at h
            subst h; exact Or.inl rfl
        · simp only [Outcome.ok.injEq] at h; subst h; exact Or.inl rfl
      · rename_i hc
        simp only [Outcome.ok.injEq] at h
        subst h
        by_cases hf : st.first = true
        · left; simp [hf]
        · right; left
          have hf' : st.first = false := by simpa using hf
          obtain ⟨a, b⟩ := hi.first hf'
          refine ⟨b, by simp [hf', b], ?_⟩
          have := (hi.pcGot s hpc).1
          show 0 < st.size
          omega
    · simp only [Outcome.ok.injEq] at h; subst h; exact Or.inl rfl
  | connect upd =>
    simp only [Conn.step] at h
    split at h
    · rename_i last hpc
      obtain ⟨a, b, d, f⟩ := hi.pcConnect last hpc
      split at h
      · rename_i hc
        simp only [Outcome.ok.injEq] at h
        subst h
        right; right
        refine ⟨st.fin, upd, rfl, rfl, (hi.added d).1, by omega, f _ (Nat.le_refl _) hc, ?_, ?_⟩
        · simp
        · intro k hk
          show (if k ≤ st.fin + 1 then upd k (if k = st.fin + 1 then _ else st.pose k) else _) = _
          rw [if_pos (by omega), if_neg (by omega)]
      · simp only [Outcome.ok.injEq] at h; subst h; exact Or.inl rfl
    · simp only [Outcome.ok.injEq] at h; subst h; exact Or.inl rfl


theorem Conn.run_append (es fs : List (ConnEv G)) (st : Conn G) :
    st.run (es ++ fs) = (st.run es).bind (fun s => s.run fs) := by
  induction es generalizing st with
  | nil => rfl
  | cons e es ih =>
    simp only [List.cons_append, Conn.run]
    cases h : st.step e with
    | ok s => simp only [Outcome.bind_ok]; rw [ih]
    | abort => rfl
    | ub => rfl

/-- Once the done flag is set and the connecting thread does not hold an outdated size, it never
will. -/
theorem conn_fresh_step {st st' : Conn G} (e : ConnEv G) (hd : st.done = true)
    (hg : ∀ s, st.pc = .got s → s = st.size) (hf : ∀ s, st.pc = .finished s → s = st.size)
    (h : st.step e = .ok st') :
    st'.done = true ∧ st'.size = st.size ∧ (∀ s, st'.pc = .got s → s = st'.size) ∧
      (∀ s, st'.pc = .finished s → s = st'.size) := by
  cases e with
  | push g =>
    simp only [Conn.step, hd, if_true, Outcome.ok.injEq] at h
    subst h; exact ⟨hd, rfl, hg, hf⟩
  | pairMatch i t =>
    simp only [Conn.step] at h
    split at h
    · rw [Outcome.bind_eq_ok] at h
      obtain ⟨_, _, h⟩ := h
      simp only [Outcome.pure_eq, Outcome.ok.injEq] at h
      subst h; exact ⟨hd, rfl, hg, hf⟩
    · simp only [Outcome.ok.injEq] at h; subst h; exact ⟨hd, rfl, hg, hf⟩
  | setDone =>
    simp only [Conn.step, Outcome.ok.injEq] at h; subst h; exact ⟨rfl, rfl, hg, hf⟩
  | read =>
    simp only [Conn.step] at h
    split at h
    · simp only [Outcome.ok.injEq] at h; subst h
      exact ⟨hd, rfl, by simp, by simp⟩
    · simp only [Outcome.ok.injEq] at h; subst h; exact ⟨hd, rfl, hg, hf⟩
  | collect =>
    simp only [Conn.step] at h
    split at h
    · split at h
      · simp only [Outcome.ok.injEq] at h; subst h; exact ⟨hd, rfl, by simp, by simp⟩
      · split at h <;>
          (simp only [Outcome.ok.injEq] at h; subst h; exact ⟨hd, rfl, by simp, by simp⟩)
    · simp only [Outcome.ok.injEq] at h; subst h; exact ⟨hd, rfl, hg, hf⟩
  | test =>
    simp only [Conn.step] at h
    split at h
    · rename_i s hpc
      have hs := hg s hpc
      split at h
      · split at h
        · simp only [Outcome.ok.injEq] at h; subst h
          exact ⟨hd, rfl, by simp, by simp [hs]⟩
        · rw [Outcome.bind_eq_ok] at h
          obtain ⟨_, _, h⟩ := h
          simp only [Outcome.pure_eq, Outcome.ok.injEq] at h
          subst h; exact ⟨hd, rfl, by simp, by simp [hs]⟩
      · simp only [Outcome.ok.injEq] at h; subst h; exact ⟨hd, rfl, by simp, by simp⟩
    · simp only [Outcome.ok.injEq] at h; subst h; exact ⟨hd, rfl, hg, hf⟩
  | connect upd =>
    simp only [Conn.step] at h
    split at h
    · rename_i last hpc
      split at h
      · simp only [Outcome.ok.injEq] at h; subst h
        exact ⟨hd, rfl, by simp [hpc], by simp [hpc]⟩
      · simp only [Outcome.ok.injEq] at h; subst h; exact ⟨hd, rfl, by simp, by simp⟩
    · simp only [Outcome.ok.injEq] at h; subst h; exact ⟨hd, rfl, hg, hf⟩

theorem conn_fresh_run (es : List (ConnEv G)) : ∀ {st st' : Conn G}, st.done = true →
    (∀ s, st.pc = .got s → s = st.size) → (∀ s, st.pc = .finished s → s = st.size) →
    st.run es = .ok st' →
    st'.done = true ∧ st'.size = st.size ∧ (∀ s, st'.pc = .finished s → s = st'.size) := by
  induction es with
  | nil =>
    intro st st' hd hg hf h
    simp only [Conn.run, Outcome.ok.injEq] at h
    subst h; exact ⟨hd, rfl, hf⟩
  | cons e es ih =>
    intro st st' hd hg hf h
    simp only [Conn.run] at h
    rw [Outcome.bind_eq_ok] at h
    obtain ⟨s1, h1, h2⟩ := h
    obtain ⟨a, b, c, d⟩ := conn_fresh_step e hd hg hf h1
    obtain ⟨p, q, r⟩ := ih a c d h2
    exact ⟨p, by rw [q, b], r⟩

/-! ### The thread can always finish -/

/-- Until the end, a submap's match is either done or queued. -/
def ConnCover (st : Conn G) : Prop := ∀ i, i + 1 < st.size → st.matched i = true ∨ i ∈ st.jobs

theorem connCover_step {st st' : Conn G} (e : ConnEv G) (hc : ConnCover st)
    (h : st.step e = .ok st') : ConnCover st' := by
  cases e with
  | push g =>
    simp only [Conn.step] at h
    split at h
    · simp only [Outcome.ok.injEq] at h; subst h; exact hc
    · simp only [Outcome.ok.injEq] at h; subst h
      intro i hi
      have hi : i + 1 < st.size + 1 := hi
      show st.matched i = true ∨ i ∈ (if 0 < st.size then st.jobs ++ [st.size - 1] else st.jobs)
      rw [if_pos (by omega)]
      by_cases hlt : i + 1 < st.size
      · rcases hc i hlt with h | h
        · exact Or.inl h
        · exact Or.inr (List.mem_append_left _ h)
      · right
        rw [List.mem_append, List.mem_singleton]
        right; omega
  | pairMatch i t =>
    simp only [Conn.step] at h
    split at h
    · rw [Outcome.bind_eq_ok] at h
      obtain ⟨_, _, h⟩ := h
      simp only [Outcome.pure_eq, Outcome.ok.injEq] at h
      subst h
      intro k hk
      show (if k = i then true else st.matched k) = true ∨ k ∈ st.jobs.erase i
      by_cases hki : k = i
      · left; rw [if_pos hki]
      · rw [if_neg hki]
        rcases hc k hk with h | h
        · exact Or.inl h
        · exact Or.inr ((List.mem_erase_of_ne hki).mpr h)
    · simp only [Outcome.ok.injEq] at h; subst h; exact hc
  | setDone =>
    simp only [Conn.step, Outcome.ok.injEq] at h; subst h; exact hc
  | read =>
    simp only [Conn.step] at h
    split at h <;> (simp only [Outcome.ok.injEq] at h; subst h; exact hc)
  | collect =>
    simp only [Conn.step] at h
    split at h
    · split at h
      · simp only [Outcome.ok.injEq] at h; subst h; exact hc
      · split at h <;> (simp only [Outcome.ok.injEq] at h; subst h; exact hc)
    · simp only [Outcome.ok.injEq] at h; subst h; exact hc
  | test =>
    simp only [Conn.step] at h
    split at h
    · split at h
      · split at h
        · split at h
          · simp only [Outcome.ok.injEq] at h; subst h; exact hc
          · rw [Outcome.bind_eq_ok] at h
            obtain ⟨_, _, h⟩ := h
            simp only [Outcome.pure_eq, Outcome.ok.injEq] at h
            subst h
            intro k hk
            show (if k = st.size - 1 then true else st.matched k) = true ∨ k ∈ st.jobs
            split
            · exact Or.inl rfl
            · exact hc k hk
        · simp only [Outcome.ok.injEq] at h; subst h; exact hc
      · simp only [Outcome.ok.injEq] at h; subst h; exact hc
    · simp only [Outcome.ok.injEq] at h; subst h; exact hc
  | connect upd =>
    simp only [Conn.step] at h
    split at h
    · split at h <;> (simp only [Outcome.ok.injEq] at h; subst h; exact hc)
    · simp only [Outcome.ok.injEq] at h; subst h; exact hc

theorem connCover_run (es : List (ConnEv G)) : ∀ {st st' : Conn G}, ConnCover st →
    st.run es = .ok st' → ConnCover st' := by
  induction es with
  | nil => intro st st' hc h; simp only [Conn.run, Outcome.ok.injEq] at h; subst h; exact hc
  | cons e es ih =>
    intro st st' hc h
    simp only [Conn.run] at h
    rw [Outcome.bind_eq_ok] at h
    obtain ⟨s1, h1, h2⟩ := h
    exact ih (connCover_step e hc h1) h2

/-- The event the connecting thread performs next. -/
def Conn.own (st : Conn G) : ConnEv G :=
  match st.pc with
  | .head => .read
  | .got _ => .test
  | .collect _ _ => .collect
  | .connect _ => .connect (fun _ g => g)
  | .finished _ => .read

/-- `n` steps of the connecting thread alone. -/
def Conn.alone : Nat → Conn G → Outcome (Conn G)
  | 0, st => .ok st
  | n + 1, st => do
    let st' ← st.step st.own
    Conn.alone n st'

theorem Conn.alone_add (m n : Nat) (st : Conn G) :
    Conn.alone (m + n) st = (Conn.alone m st).bind (Conn.alone n) := by
  induction m generalizing st with
  | zero => simp [Conn.alone, Outcome.bind]
  | succ m ih =>
    rw [Nat.succ_add]
    simp only [Conn.alone]
    cases h : st.step st.own with
    | ok s => simp only [Outcome.bind_ok]; exact ih s
    | abort => rfl
    | ub => rfl

/-- Quiescent: all submaps are there and all their matches are done. -/
structure ConnQuiet (st : Conn G) : Prop where
  inv : ConnInv st
  done : st.done = true
  all : ∀ i, i + 1 < st.size → st.matched i = true

theorem connQuiet_own {st : Conn G} (h : ConnQuiet st) :
    ∃ st', st.step st.own = .ok st' ∧ ConnInv st' := connInv_step _ h.inv

theorem conn_alone_connect (n : Nat) : ∀ {st : Conn G} {l : Nat}, ConnQuiet st →
    st.pc = .connect l → l - st.fin = n →
    ∃ k st', Conn.alone k st = .ok st' ∧ ConnQuiet st' ∧ st'.pc = .head ∧ st'.fin = l ∧
      st'.size = st.size := by
  induction n with
  | zero =>
    intro st l hq hpc hn
    obtain ⟨a, b, c, d⟩ := hq.inv.pcConnect l hpc
    obtain ⟨st', hs, hi⟩ := connQuiet_own hq
    have hs' := hs
    simp only [Conn.own, hpc, Conn.step] at hs'
    rw [if_neg (by omega)] at hs'
    simp only [Outcome.ok.injEq] at hs'
    subst hs'
    refine ⟨1, _, by simp only [Conn.alone, hs, Outcome.bind_ok], ⟨hi, hq.done, hq.all⟩, rfl, ?_, rfl⟩
    show st.fin = l
    omega
  | succ n ih =>
    intro st l hq hpc hn
    obtain ⟨st', hs, hi⟩ := connQuiet_own hq
    have hs' := hs
    simp only [Conn.own, hpc, Conn.step] at hs'
    rw [if_pos (by omega)] at hs'
    simp only [Outcome.ok.injEq] at hs'
    have e1 : st'.pc = .connect l := by rw [← hs']
    have e2 : st'.fin = st.fin + 1 := by rw [← hs']
    have e3 : st'.size = st.size := by rw [← hs']
    have e4 : st'.matched = st.matched := by rw [← hs']
    have e5 : st'.done = st.done := by rw [← hs']
    have hq' : ConnQuiet st' := ⟨hi, by rw [e5]; exact hq.done, by rw [e3, e4]; exact hq.all⟩
    obtain ⟨k, s2, h1, h2, h3, h4, h5⟩ := ih hq' e1 (by omega)
    exact ⟨k + 1, s2, by simp only [Conn.alone, hs, Outcome.bind_ok]; exact h1, h2, h3, h4,
      by rw [h5, e3]⟩

theorem conn_alone_collect (n : Nat) : ∀ {st : Conn G} {i : Nat}, ConnQuiet st →
    st.pc = .collect st.size i → st.fin + 1 < st.size → st.size - 1 - i = n →
    ∃ k st', Conn.alone k st = .ok st' ∧ ConnQuiet st' ∧ st'.pc = .connect (st.size - 1) ∧
      st'.size = st.size := by
  induction n with
  | zero =>
    intro st i hq hpc hlt hn
    obtain ⟨a, b, c, d, _⟩ := hq.inv.pcCollect _ i hpc
    obtain ⟨st', hs, hi⟩ := connQuiet_own hq
    have hs' := hs
    simp only [Conn.own, hpc, Conn.step] at hs'
    rw [if_neg (by omega), if_neg (by omega)] at hs'
    simp only [Outcome.ok.injEq] at hs'
    subst hs'
    refine ⟨1, _, by simp only [Conn.alone, hs, Outcome.bind_ok], ⟨hi, hq.done, hq.all⟩, ?_, rfl⟩
    show ConnPc.connect i = _
    congr 1; omega
  | succ n ih =>
    intro st i hq hpc hlt hn
    obtain ⟨st', hs, hi⟩ := connQuiet_own hq
    have hs' := hs
    simp only [Conn.own, hpc, Conn.step] at hs'
    rw [if_pos ⟨hq.all i (by omega), by omega⟩] at hs'
    simp only [Outcome.ok.injEq] at hs'
    have e1 : st'.pc = .collect st.size (i + 1) := by rw [← hs']
    have e2 : st'.fin = st.fin := by rw [← hs']
    have e3 : st'.size = st.size := by rw [← hs']
    have e4 : st'.matched = st.matched := by rw [← hs']
    have e5 : st'.done = st.done := by rw [← hs']
    have hq' : ConnQuiet st' := ⟨hi, by rw [e5]; exact hq.done, by rw [e3, e4]; exact hq.all⟩
    obtain ⟨k, s2, h1, h2, h3, h4⟩ := ih hq' (by rw [e1, e3]) (by omega) (by omega)
    exact ⟨k + 1, s2, by simp only [Conn.alone, hs, Outcome.bind_ok]; exact h1, h2,
      by rw [h3, e3], by rw [h4, e3]⟩

theorem conn_alone_head_last {st : Conn G} (hq : ConnQuiet st) (hpc : st.pc = .head)
    (hl : st.size = 0 ∨ st.size - 1 = st.fin) :
    ∃ st', Conn.alone 2 st = .ok st' ∧ st'.pc = .finished st.size ∧ st'.size = st.size := by
  have e1 : st.step st.own = .ok { st with pc := .got st.size } := by
    simp only [Conn.own, hpc, Conn.step]
  have e2 : Conn.alone 2 st = Conn.step { st with pc := .got st.size } .test := by
    simp only [Conn.alone, e1, Outcome.bind_ok]
    show (Conn.step { st with pc := .got st.size } .test >>= fun s => Outcome.ok s) = _
    cases Conn.step { st with pc := .got st.size } .test <;> rfl
  rw [e2]
  show ∃ st', (if st.size = 0 ∨ st.size - 1 = st.fin then _ else _) = Outcome.ok st' ∧ _
  rw [if_pos hl]
  show ∃ st', (if st.done = true then _ else _) = Outcome.ok st' ∧ _
  rw [if_pos hq.done]
  by_cases h0 : st.size = 0
  · rw [if_pos h0]
    exact ⟨_, rfl, rfl, rfl⟩
  · rw [if_neg h0]
    have hnm : st.matched (st.size - 1) = false := by
      by_contra hh
      rcases hq.inv.matched _ (by simpa using hh) with h | ⟨s, h⟩
      · omega
      · rw [hpc] at h; cases h
    rw [Outcome.check_pos hnm]
    exact ⟨_, rfl, rfl, rfl⟩

theorem conn_alone_head {st : Conn G} (hq : ConnQuiet st) (hpc : st.pc = .head) :
    ∃ k st', Conn.alone k st = .ok st' ∧ st'.pc = .finished st.size ∧ st'.size = st.size := by
  by_cases hl : st.size = 0 ∨ st.size - 1 = st.fin
  · obtain ⟨s, h⟩ := conn_alone_head_last hq hpc hl
    exact ⟨2, s, h⟩
  · have hlt : st.fin + 1 < st.size := by rcases hq.inv.fin with h | h <;> omega
    obtain ⟨s1, h1, i1⟩ := connQuiet_own hq
    have h1' := h1
    simp only [Conn.own, hpc, Conn.step, Outcome.ok.injEq] at h1'
    have q1 : ConnQuiet s1 := ⟨i1, by rw [← h1']; exact hq.done, by rw [← h1']; exact hq.all⟩
    obtain ⟨s2, h2, i2⟩ := connQuiet_own q1
    have h2' := h2
    subst h1'
    simp only [Conn.own, Conn.step] at h2'
    rw [if_neg hl] at h2'
    simp only [Outcome.ok.injEq] at h2'
    have e1 : s2.pc = .collect st.size st.fin := by rw [← h2']
    have e2 : s2.fin = st.fin := by rw [← h2']
    have e3 : s2.size = st.size := by rw [← h2']
    have e4 : s2.matched = st.matched := by rw [← h2']
    have e5 : s2.done = st.done := by rw [← h2']
    have q2 : ConnQuiet s2 := ⟨i2, by rw [e5]; exact hq.done, by rw [e3, e4]; exact hq.all⟩
    obtain ⟨k3, s3, h3, q3, p3, z3⟩ := conn_alone_collect _ q2 (by rw [e1, e3]) (by omega) rfl
    obtain ⟨k4, s4, h4, q4, p4, f4, z4⟩ := conn_alone_connect _ q3 p3 rfl
    obtain ⟨s5, h5, p5, z5⟩ := conn_alone_head_last q4 p4 (by right; omega)
    refine ⟨2 + (k3 + (k4 + 2)), s5, ?_, by rw [p5, z4, z3, e3], by rw [z5, z4, z3, e3]⟩
    rw [Conn.alone_add]
    have hh : Conn.alone 2 st = .ok s2 := by
      simp only [Conn.alone, h1, Outcome.bind_ok, h2]
    rw [hh]
    show Conn.alone (k3 + (k4 + 2)) s2 = _
    rw [Conn.alone_add, h3]
    show Conn.alone (k4 + 2) s3 = _
    rw [Conn.alone_add, h4]
    exact h5

theorem conn_alone_leave (n : Nat) : ∀ {st : Conn G} {s i : Nat}, ConnQuiet st →
    st.pc = .collect s i → s - i = n →
    ∃ k st', Conn.alone k st = .ok st' ∧ ConnQuiet st' ∧
      (st'.pc = .head ∨ ∃ l, st'.pc = .connect l) := by
  induction n with
  | zero =>
    intro st s i hq hpc hn
    have := (hq.inv.pcCollect s i hpc).2.1
    omega
  | succ n ih =>
    intro st s i hq hpc hn
    obtain ⟨st', hs, hi⟩ := connQuiet_own hq
    have hs' := hs
    simp only [Conn.own, hpc, Conn.step] at hs'
    by_cases hc : st.matched i = true ∧ i + 1 < s
    · rw [if_pos hc] at hs'
      simp only [Outcome.ok.injEq] at hs'
      have hq' : ConnQuiet st' :=
        ⟨hi, by rw [← hs']; exact hq.done, by rw [← hs']; exact hq.all⟩
      have e1 : st'.pc = .collect s (i + 1) := by rw [← hs']
      obtain ⟨k, s2, h1, h2⟩ := ih hq' e1 (by omega)
      exact ⟨k + 1, s2, by simp only [Conn.alone, hs, Outcome.bind_ok]; exact h1, h2⟩
    · rw [if_neg hc] at hs'
      have e : st'.done = st.done ∧ st'.size = st.size ∧ st'.matched = st.matched ∧
          (st'.pc = .head ∨ ∃ l, st'.pc = .connect l) := by
        split at hs' <;> (simp only [Outcome.ok.injEq] at hs'; subst hs'; simp)
      obtain ⟨e1, e2, e3, e4⟩ := e
      exact ⟨1, st', by simp only [Conn.alone, hs, Outcome.bind_ok],
        ⟨hi, by rw [e1]; exact hq.done, by rw [e2, e3]; exact hq.all⟩, e4⟩

theorem conn_alone_trans {st st1 st2 : Conn G} {m n : Nat} (h1 : Conn.alone m st = .ok st1)
    (h2 : Conn.alone n st1 = .ok st2) : Conn.alone (m + n) st = .ok st2 := by
  rw [Conn.alone_add, h1]; exact h2

/-- From every quiescent state the thread, left alone, leaves its loop. -/
theorem conn_alone_finishes {st : Conn G} (hq : ConnQuiet st) :
    ∃ k st' s, Conn.alone k st = .ok st' ∧ st'.pc = .finished s := by
  have fromHead : ∀ {st : Conn G}, ConnQuiet st → st.pc = .head →
      ∃ k st' s, Conn.alone k st = .ok st' ∧ st'.pc = .finished s := by
    intro st hq hpc
    obtain ⟨k, st', h, h', _⟩ := conn_alone_head hq hpc
    exact ⟨k, st', _, h, h'⟩
  have fromConnect : ∀ {st : Conn G} {l : Nat}, ConnQuiet st → st.pc = .connect l →
      ∃ k st' s, Conn.alone k st = .ok st' ∧ st'.pc = .finished s := by
    intro st l hq hpc
    obtain ⟨k, st', h, q', p', _⟩ := conn_alone_connect _ hq hpc rfl
    obtain ⟨k2, s2, x, h2, p2⟩ := fromHead q' p'
    exact ⟨k + k2, s2, x, conn_alone_trans h h2, p2⟩
  have fromCollect : ∀ {st : Conn G} {s i : Nat}, ConnQuiet st → st.pc = .collect s i →
      ∃ k st' s, Conn.alone k st = .ok st' ∧ st'.pc = .finished s := by
    intro st s i hq hpc
    obtain ⟨k, st', h, q', p'⟩ := conn_alone_leave _ hq hpc rfl
    rcases p' with p' | ⟨l, p'⟩
    · obtain ⟨k2, s2, x, h2, p2⟩ := fromHead q' p'
      exact ⟨k + k2, s2, x, conn_alone_trans h h2, p2⟩
    · obtain ⟨k2, s2, x, h2, p2⟩ := fromConnect q' p'
      exact ⟨k + k2, s2, x, conn_alone_trans h h2, p2⟩
  cases hpc : st.pc with
  | head => exact fromHead hq hpc
  | connect l => exact fromConnect hq hpc
  | collect s i => exact fromCollect hq hpc
  | finished s => exact ⟨0, st, s, rfl, hpc⟩
  | got s =>
    obtain ⟨st', hs, hi⟩ := connQuiet_own hq
    have hs' := hs
    simp only [Conn.own, hpc, Conn.step] at hs'
    split at hs'
    · rw [if_pos hq.done] at hs'
      have e : st'.pc = .finished s := by
        split at hs'
        · simp only [Outcome.ok.injEq] at hs'; subst hs'; rfl
        · rw [Outcome.bind_eq_ok] at hs'
          obtain ⟨_, _, hs'⟩ := hs'
          simp only [Outcome.pure_eq, Outcome.ok.injEq] at hs'
          subst hs'; rfl
      exact ⟨1, st', s, by simp only [Conn.alone, hs, Outcome.bind_ok], e⟩
    · simp only [Outcome.ok.injEq] at hs'
      have hq' : ConnQuiet st' :=
        ⟨hi, by rw [← hs']; exact hq.done, by rw [← hs']; exact hq.all⟩
      have e1 : st'.pc = .collect s st.fin := by rw [← hs']
      obtain ⟨k, s2, x, h2, p2⟩ := fromCollect hq' e1
      exact ⟨k + 1, s2, x, by simp only [Conn.alone, hs, Outcome.bind_ok]; exact h2, p2⟩

end Verif
