import Verif.Proofs.Connect
/-!
C29: connecting the submaps.

English: under every schedule of the submap thread, the pair-matching workers and the connecting
thread, each finished submap is added to the optimiser exactly once, in index order and only after
its predecessor's transform is known, its pose is the predecessor's pose composed with the
predecessor's transform to next, and when processing ends all submaps have been added.

A schedule is an arbitrary list of events.  `C29_safety` covers every schedule: no internal check
fails, the added submaps are exactly `0, 1, …` without gaps or repetitions.  `C29_each_addition`
says what happens in the step that adds a submap.  The last clause fails in two ways
(`C29_single_fails`, `C29_late_fails`) and is proved for the rest (`C29_complete_partial`).
-/
namespace Verif
variable {G : Type} [Group G]

/-- Every schedule: nothing aborts; the submaps added so far are `0, …, n-1` in this order, each
exists, and the transform of every one but the last of them is known. -/
theorem C29_safety (es : List (ConnEv G)) :
    ∃ st, (Conn.init : Conn G).run es = .ok st ∧
      st.added = List.range st.added.length ∧ st.added.length ≤ st.size := by
  obtain ⟨st, h, hi⟩ := connInv_run es connInv_init
  refine ⟨st, h, ?_⟩
  by_cases hf : st.first = true
  · obtain ⟨a, b⟩ := hi.added hf
    refine ⟨by rw [a]; simp, ?_⟩
    rw [a, List.length_range]
    rcases hi.fin with h | h <;> omega
  · obtain ⟨_, b⟩ := hi.first (by simpa using hf)
    rw [b]
    exact ⟨rfl, Nat.zero_le _⟩

/-- Every step of every schedule that adds a submap `j+1` adds the next index, at a moment when the
transform of `j` is known, and the pose handed to the optimiser (before the optimiser's own update
`upd`) is the predecessor's pose composed with the predecessor's transform. -/
theorem C29_each_addition (es : List (ConnEv G)) (e : ConnEv G) {st st' : Conn G}
    (h : (Conn.init : Conn G).run es = .ok st) (he : st.step e = .ok st')
    (hne : st'.added ≠ st.added) :
    (st.added = [] ∧ st'.added = [0]) ∨
    ∃ j upd, e = .connect upd ∧ st.added = List.range (j + 1) ∧ st'.added = st.added ++ [j + 1] ∧
      st.matched j = true ∧ st'.pose (j + 1) = upd (j + 1) (st.pose j * st.toNext j) := by
  obtain ⟨st1, h1, hi⟩ := connInv_run es (connInv_init (G := G))
  rw [h] at h1
  simp only [Outcome.ok.injEq] at h1
  subst h1
  rcases conn_step_added hi e he with h | ⟨h1, h2, _⟩ | ⟨j, upd, h1, h2, h3, _, h4, h5, _⟩
  · exact absurd h hne
  · exact Or.inl ⟨h1, h2⟩
  · exact Or.inr ⟨j, upd, h1, h3, h2, h4, h5⟩

/-- When the thread leaves its loop having last seen all the submaps, and there was not exactly one,
every submap has been added.  Missing: a single submap, and a submap that is pushed between the
thread's last look at the list and its look at the done flag. -/
theorem C29_complete_partial (es : List (ConnEv G)) {st : Conn G} {s : Nat}
    (h : (Conn.init : Conn G).run es = .ok st) (hf : st.pc = .finished s)
    (hs : s = st.size) (h1 : st.size ≠ 1) : st.added = List.range st.size := by
  obtain ⟨st1, h1', hi⟩ := connInv_run es (connInv_init (G := G))
  rw [h] at h1'
  simp only [Outcome.ok.injEq] at h1'
  subst h1'
  obtain ⟨_, a, _⟩ := hi.pcFin s hf
  by_cases h0 : st.size = 0
  · by_cases hft : st.first = true
    · have := (hi.added hft).2; omega
    · rw [(hi.first (by simpa using hft)).2, h0]; rfl
  · by_cases hft : st.first = true
    · rw [(hi.added hft).1]
      congr 1; omega
    · have := (hi.first (by simpa using hft)).1
      omega


/-- In terms of the schedule: if the done flag is set while the thread is not between its look at
the list and its look at the flag, then whenever it ends, it has added every submap (unless there
is exactly one). -/
theorem C29_complete_if_seen_partial (es fs : List (ConnEv G)) {st st' : Conn G} {s : Nat}
    (h : (Conn.init : Conn G).run es = .ok st) (hg : ∀ n, st.pc ≠ .got n)
    (hrun : ∀ n, st.pc ≠ .finished n)
    (h' : st.run (.setDone :: fs) = .ok st') (hf : st'.pc = .finished s) (h1 : st'.size ≠ 1) :
    st'.added = List.range st'.size := by
  have hall : (Conn.init : Conn G).run (es ++ .setDone :: fs) = .ok st' := by
    rw [Conn.run_append, h]; exact h'
  simp only [Conn.run, Conn.step, Outcome.bind_ok] at h'
  obtain ⟨_, _, c⟩ := conn_fresh_run fs (st := { st with done := true }) rfl
    (fun n hn => absurd hn (hg n)) (fun n hn => absurd hn (hrun n)) h'
  exact C29_complete_partial _ hall hf (c s hf) h1

/-- The thread cannot hang: in every reachable state in which the submaps are complete and the
queued matches have run, the thread's own steps alone bring it out of its loop. -/
theorem C29_terminates (es : List (ConnEv G)) {st : Conn G}
    (h : (Conn.init : Conn G).run es = .ok st) (hd : st.done = true) (hj : st.jobs = []) :
    ∃ k st' s, Conn.alone k st = .ok st' ∧ st'.pc = .finished s := by
  obtain ⟨st1, h1, hi⟩ := connInv_run es (connInv_init (G := G))
  rw [h] at h1
  simp only [Outcome.ok.injEq] at h1
  subst h1
  refine conn_alone_finishes ⟨hi, hd, ?_⟩
  intro i hlt
  have hc : ConnCover (Conn.init : Conn G) := by intro i hi; simp [Conn.init] at hi
  rcases connCover_run es hc h i hlt with h | h
  · exact h
  · rw [hj] at h; cases h

theorem conn_step_keeps {st st' : Conn G} (e : ConnEv G) (he : st.step e = .ok st') (k : Nat)
    (hk : st.matched k = true) : st'.matched k = true ∧ st'.toNext k = st.toNext k := by
  cases e with
  | push g =>
    simp only [Conn.step] at he
    split at he <;> cases he <;> exact ⟨hk, rfl⟩
  | pairMatch i t =>
    simp only [Conn.step] at he
    split at he
    · rw [Outcome.check_bind_eq_ok] at he
      obtain ⟨hm, he⟩ := he
      cases he
      have : k ≠ i := by rintro rfl; rw [hk] at hm; cases hm
      simp [this, hk]
    · cases he; exact ⟨hk, rfl⟩
  | setDone => cases he; exact ⟨hk, rfl⟩
  | read =>
    simp only [Conn.step] at he
    split at he <;> cases he <;> exact ⟨hk, rfl⟩
  | test =>
    simp only [Conn.step] at he
    split at he
    · split at he
      · split at he
        · split at he
          · cases he; exact ⟨hk, rfl⟩
          · rw [Outcome.check_bind_eq_ok] at he
            obtain ⟨hm, he⟩ := he
            cases he
            have : k ≠ st.size - 1 := by rintro rfl; rw [hk] at hm; cases hm
            simp [this, hk]
        · cases he; exact ⟨hk, rfl⟩
      · cases he; exact ⟨hk, rfl⟩
    · cases he; exact ⟨hk, rfl⟩
  | collect =>
    simp only [Conn.step] at he
    split at he
    · split at he
      · cases he; exact ⟨hk, rfl⟩
      · split at he <;> cases he <;> exact ⟨hk, rfl⟩
    · cases he; exact ⟨hk, rfl⟩
  | connect upd =>
    simp only [Conn.step] at he
    split at he
    · split at he <;> cases he <;> exact ⟨hk, rfl⟩
    · cases he; exact ⟨hk, rfl⟩

theorem conn_run_keeps (es : List (ConnEv G)) : ∀ {st st' : Conn G}, st.run es = .ok st' → ∀ k,
    st.matched k = true → st'.matched k = true ∧ st'.toNext k = st.toNext k := by
  induction es with
  | nil => intro st st' h k hk; cases h; exact ⟨hk, rfl⟩
  | cons e es ih =>
    intro st st' h k hk
    obtain ⟨st1, h1, h2⟩ := (Outcome.bind_eq_ok ..).mp h
    obtain ⟨a, b⟩ := conn_step_keeps e h1 k hk
    obtain ⟨c, d⟩ := ih h2 k a
    exact ⟨c, by rw [d, b]⟩

/-- A transform is what the pair match that ran for it found, and no later step of any schedule changes
it. -/
theorem C29_transform_kept (es fs : List (ConnEv G)) (i : Nat) (t : G) {st st1 st' : Conn G}
    (h : (Conn.init : Conn G).run es = .ok st) (hj : i ∈ st.jobs) (h1 : st.step (.pairMatch i t) = .ok st1)
    (h2 : st1.run fs = .ok st') : st'.matched i = true ∧ st'.toNext i = t := by
  obtain ⟨st0, h0, hi⟩ := connInv_run es (connInv_init (G := G))
  rw [h] at h0
  cases h0
  have hm := (hi.jobs i hj).2
  simp only [Conn.step, hj, if_true, hm] at h1
  rw [Outcome.check_bind_eq_ok] at h1
  obtain ⟨_, h1⟩ := h1
  cases h1
  have := conn_run_keeps fs h2 i (by simp)
  simpa using this

theorem conn_last_step {st st' : Conn G} (e : ConnEv G) (he : st.step e = .ok st')
    (h : ∀ s, st.pc = .finished s → st.done = true ∧ (st.size ≠ 0 → st.matched (st.size - 1) = true ∧ st.toNext (st.size - 1) = 1)) :
    ∀ s, st'.pc = .finished s → st'.done = true ∧ (st'.size ≠ 0 → st'.matched (st'.size - 1) = true ∧ st'.toNext (st'.size - 1) = 1) := by
  intro s hs
  by_cases hf : ∃ s, st.pc = .finished s
  · obtain ⟨s0, h0⟩ := hf
    obtain ⟨hd, hl⟩ := h s0 h0
    have hkeep := conn_step_keeps e he
    have hsize : st'.size = st.size ∧ st'.done = true := by
      cases e with
      | push g =>
        simp only [Conn.step, hd, if_true] at he
        cases he; exact ⟨rfl, hd⟩
      | pairMatch i t =>
        simp only [Conn.step] at he
        split at he
        · rw [Outcome.check_bind_eq_ok] at he
          cases he.2; exact ⟨rfl, hd⟩
        · cases he; exact ⟨rfl, hd⟩
      | setDone => cases he; exact ⟨rfl, rfl⟩
      | read => simp only [Conn.step, h0] at he; cases he; exact ⟨rfl, hd⟩
      | test => simp only [Conn.step, h0] at he; cases he; exact ⟨rfl, hd⟩
      | collect => simp only [Conn.step, h0] at he; cases he; exact ⟨rfl, hd⟩
      | connect upd => simp only [Conn.step, h0] at he; cases he; exact ⟨rfl, hd⟩
    rw [hsize.1]
    refine ⟨hsize.2, fun hne => ?_⟩
    obtain ⟨a, b⟩ := hl hne
    obtain ⟨c, d⟩ := hkeep _ a
    exact ⟨c, by rw [d, b]⟩
  · cases e with
    | push g =>
      simp only [Conn.step] at he
      split at he <;> cases he <;> exact absurd ⟨s, hs⟩ hf
    | pairMatch i t =>
      simp only [Conn.step] at he
      split at he
      · rw [Outcome.check_bind_eq_ok] at he
        cases he.2; exact absurd ⟨s, hs⟩ hf
      · cases he; exact absurd ⟨s, hs⟩ hf
    | setDone => cases he; exact absurd ⟨s, hs⟩ hf
    | read =>
      simp only [Conn.step] at he
      split at he <;> cases he
      · cases hs
      · exact absurd ⟨s, hs⟩ hf
    | test =>
      simp only [Conn.step] at he
      split at he
      · split at he
        · split at he <;> rename_i hd
          · split at he <;> rename_i h0
            · cases he; exact ⟨hd, fun h => absurd h0 h⟩
            · rw [Outcome.check_bind_eq_ok] at he
              cases he.2
              exact ⟨hd, fun _ => by simp⟩
          · cases he; cases hs
        · cases he; cases hs
      · cases he; exact absurd ⟨s, hs⟩ hf
    | collect =>
      simp only [Conn.step] at he
      split at he
      · split at he
        · cases he; cases hs
        · split at he <;> cases he <;> cases hs
      · cases he; exact absurd ⟨s, hs⟩ hf
    | connect upd =>
      simp only [Conn.step] at he
      split at he <;> rename_i hpc
      · split at he <;> cases he
        · rw [show _ = ConnPc.finished s from hs] at hpc; cases hpc
        · cases hs
      · cases he; exact absurd ⟨s, hs⟩ hf

/-- When the thread has ended, under every schedule, the last submap has no motion to a next one: its
transform is the identity, and no later step changes it. -/
theorem C29_last_transform (es : List (ConnEv G)) {st : Conn G} {s : Nat}
    (h : (Conn.init : Conn G).run es = .ok st) (hf : st.pc = .finished s) (h0 : 0 < st.size) :
    st.toNext (st.size - 1) = 1 := by
  have gen : ∀ (es : List (ConnEv G)) (st st' : Conn G), st.run es = .ok st' →
      (∀ s, st.pc = .finished s → st.done = true ∧ (st.size ≠ 0 → st.matched (st.size - 1) = true ∧ st.toNext (st.size - 1) = 1)) →
      ∀ s, st'.pc = .finished s → st'.done = true ∧ (st'.size ≠ 0 → st'.matched (st'.size - 1) = true ∧ st'.toNext (st'.size - 1) = 1) := by
    intro es
    induction es with
    | nil => intro st st' h hi; cases h; exact hi
    | cons e es ih =>
      intro st st' h hi
      obtain ⟨st1, h1, h2⟩ := (Outcome.bind_eq_ok ..).mp h
      exact ih st1 st' h2 (conn_last_step e h1 hi)
  exact ((gen es _ _ h (fun s hs => by simp [Conn.init] at hs) s hf).2 (by omega)).2

/-- What a schedule leaves: list added, number of submaps, and whether the thread has finished. -/
def connView (es : List (ConnEv G)) : List Nat × Nat × Bool :=
  match (Conn.init : Conn G).run es with
  | .ok st => (st.added, st.size, match st.pc with | .finished _ => true | _ => false)
  | _ => ([], 0, false)

/-- With a single submap the thread ends without having added it. -/
theorem C29_single_fails (g : G) :
    connView [.push g, .setDone, .read, .test] = (([] : List Nat), 1, true) := rfl

/-- A submap pushed between the thread's look at the list and its look at the flag is lost: here
three submaps exist at the end and only the first two were added. -/
theorem C29_late_fails (g t : G) :
    connView [.push g, .push g, .pairMatch 0 t, .read, .test, .collect, .collect,
      .connect (fun _ g => g), .connect (fun _ g => g), .read, .push g, .setDone, .test] =
      ([0, 1], 3, true) := rfl

/-- Three submaps, matched in the opposite order, all connected. -/
example (g t u : G) :
    connView [.push g, .push g, .push g, .read, .test, .pairMatch 1 u, .collect, .setDone,
      .pairMatch 0 t, .read, .test, .collect, .collect, .collect, .connect (fun _ g => g),
      .connect (fun _ g => g), .connect (fun _ g => g), .read, .test] = ([0, 1, 2], 3, true) := rfl

end Verif
