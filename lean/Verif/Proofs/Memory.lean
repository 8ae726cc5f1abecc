import Verif.Spec.Memory
import Verif.Proofs.SubmapSwap
/-! Proofs for C129. -/
namespace Verif
open Spec

variable {maxPoints : Nat} {cfg : SwapCfg}

theorem apply_other {st st' : SwapState} {k k' : CloudKey} {op : HolderOp} (h : st.apply maxPoints k op = .ok st') :
    (k' ≠ k → st'.holder k' = st.holder k') ∧ (st'.holder k').isSome = (st.holder k').isSome ∧ st'.count = st.count := by
  unfold SwapState.apply at h
  split at h
  · cases h; exact ⟨fun _ => rfl, rfl, rfl⟩
  · rename_i hh he
    obtain ⟨r, -, h2⟩ := (Outcome.bind_eq_ok _ _ _).mp h
    simp only [Outcome.pure_eq, Outcome.ok.injEq] at h2
    subst h2
    refine ⟨fun hk => by simp [hk], ?_, rfl⟩
    by_cases hk : k' = k
    · simp [hk, he]
    · simp [hk]

theorem saveFrames_other (id : SubmapId) : ∀ (is : List Nat) (st st' : SwapState),
    st.saveFrames maxPoints cfg id is = .ok st' →
    (∀ k', (∀ i ∈ is, k' ≠ fkey id i) → st'.holder k' = st.holder k') ∧
    (∀ k', (st'.holder k').isSome = (st.holder k').isSome) ∧ st'.count = st.count
  | [], st, st', h => by cases h; exact ⟨fun _ _ => rfl, fun _ => rfl, rfl⟩
  | i :: is, st, st', h => by
    unfold SwapState.saveFrames at h
    obtain ⟨s1, h1, h⟩ := (Outcome.bind_eq_ok _ _ _).mp h
    obtain ⟨s2, h2, h3⟩ := (Outcome.bind_eq_ok _ _ _).mp h
    obtain ⟨c1, c2, c3⟩ := saveFrames_other id is s2 st' h3
    refine ⟨fun k' hk => ?_, fun k' => ?_, ?_⟩
    · have ne : k' ≠ fkey id i := hk i (List.mem_cons_self ..)
      rw [c1 k' fun j hj => hk j (List.mem_cons_of_mem _ hj), (apply_other h2).1 ne, (apply_other h1).1 ne]
    · rw [c2, (apply_other h2).2.1, (apply_other h1).2.1]
    · rw [c3, (apply_other (k' := .submap id) h2).2.2, (apply_other (k' := .submap id) h1).2.2]

theorem clear_out {st st' : SwapState} {k : CloudKey} (h : st.apply maxPoints k .clear = .ok st') :
    ∀ hh, st'.holder k = some hh → hh.inMemory = false := by
  intro hh hk
  unfold SwapState.apply at h
  split at h
  · rename_i he
    cases h
    rw [he] at hk; cases hk
  · rename_i g he
    obtain ⟨r, h1, h2⟩ := (Outcome.bind_eq_ok _ _ _).mp h
    simp only [Outcome.pure_eq, Outcome.ok.injEq] at h2
    subst h2
    simp only [↓reduceIte, Option.some.injEq] at hk
    subst hk
    simp only [Holder.step] at h1
    split at h1
    · rename_i hm
      cases h1
      simpa using hm
    · cases h1; rfl

theorem saveFrames_out (id : SubmapId) : ∀ (is : List Nat) (st st' : SwapState),
    st.saveFrames maxPoints cfg id is = .ok st' → is.Nodup → ∀ i ∈ is, ∀ hh, st'.holder (fkey id i) = some hh → hh.inMemory = false
  | [], _, _, _, _, i, hi, _, _ => by cases hi
  | a :: is, st, st', h, hn, i, hi, hh, hk => by
    unfold SwapState.saveFrames at h
    obtain ⟨s1, h1, h⟩ := (Outcome.bind_eq_ok _ _ _).mp h
    obtain ⟨s2, h2, h3⟩ := (Outcome.bind_eq_ok _ _ _).mp h
    have hn' := List.nodup_cons.1 hn
    by_cases hm : i ∈ is
    · exact saveFrames_out id is s2 st' h3 hn'.2 i hm hh hk
    · have hia : i = a := by
        rcases List.mem_cons.1 hi with h | h
        · exact h
        · exact (hm h).elim
      subst hia
      rw [(saveFrames_other id is s2 st' h3).1 (fkey id i) ?_] at hk
      · exact clear_out h2 hh hk
      · intro j hj e
        simp only [fkey, CloudKey.frame.injEq, FrameId.mk.injEq, true_and] at e
        have : i = j := by exact_mod_cast e
        exact hn'.1 (this ▸ hj)

theorem create_other {st st' : SwapState} {k : CloudKey} {c : BitsCloud} (h : st.create k c = .ok st') :
    (∀ k' ≠ k, st'.holder k' = st.holder k') ∧ (∃ hh, st'.holder k = some hh) ∧ st'.count = st.count := by
  unfold SwapState.create at h
  obtain ⟨hh, -, h1⟩ := (Outcome.bind_eq_ok _ _ _).mp h
  simp only [Outcome.pure_eq, Outcome.ok.injEq] at h1
  subst h1
  exact ⟨fun k' hk => by simp [hk], ⟨hh, by simp⟩, rfl⟩

theorem createFrames_other (id : SubmapId) : ∀ (cs : List BitsCloud) (i : Nat) (st st' : SwapState),
    st.createFrames id i cs = .ok st' →
    (∀ k', (∀ j, i ≤ j → j < i + cs.length → k' ≠ fkey id j) → st'.holder k' = st.holder k') ∧ st'.count = st.count
  | [], i, st, st', h => by cases h; exact ⟨fun _ _ => rfl, rfl⟩
  | c :: cs, i, st, st', h => by
    unfold SwapState.createFrames at h
    obtain ⟨s1, h1, h2⟩ := (Outcome.bind_eq_ok _ _ _).mp h
    obtain ⟨a1, a2⟩ := createFrames_other id cs (i + 1) s1 st' h2
    obtain ⟨b1, _, b3⟩ := create_other h1
    refine ⟨fun k' hk => ?_, a2.trans b3⟩
    rw [a1 k' fun j hj hj' => hk j (by omega) (by simp only [List.length_cons]; omega),
      b1 k' (hk i (le_refl _) (by simp only [List.length_cons]; omega))]

/-- Frames belong to a submap that has been built, and their numbers are below its count. -/
def FramesIn (st : SwapState) : Prop := ∀ f : FrameId, (st.holder (.frame f)).isSome = true →
  (st.holder (.submap ⟨f.trajectory, f.submap⟩)).isSome = true ∧ ∃ i : Nat, f.frame = i ∧ i < st.count ⟨f.trajectory, f.submap⟩

theorem framesIn_congr {st st' : SwapState} (h : FramesIn st) (h1 : ∀ k, (st'.holder k).isSome = (st.holder k).isSome)
    (h2 : st'.count = st.count) : FramesIn st' := by
  intro f hf
  rw [h1] at hf
  obtain ⟨a, b⟩ := h f hf
  rw [h1, h2]
  exact ⟨a, b⟩

theorem framesIn_step {st st' : SwapState} (e : SwapEv) (hi : FramesIn st) (h : st.step maxPoints cfg e = .ok st') :
    FramesIn st' := by
  cases e with
  | build j c fs =>
    simp only [SwapState.step] at h
    split at h
    · cases h; exact hi
    · rename_i hn
      obtain ⟨s1, h1, h⟩ := (Outcome.bind_eq_ok _ _ _).mp h
      obtain ⟨s2, h2, h⟩ := (Outcome.bind_eq_ok _ _ _).mp h
      simp only [Outcome.pure_eq, Outcome.ok.injEq] at h
      subst h
      obtain ⟨a1, a2⟩ := createFrames_other j fs 0 st s1 h1
      obtain ⟨b1, ⟨hh, b2⟩, b3⟩ := create_other h2
      intro f hf
      change (s2.holder (.frame f)).isSome = true at hf
      rw [b1 _ (by simp)] at hf
      show (s2.holder _).isSome = true ∧ ∃ i : Nat, f.frame = i ∧ i < (if (⟨f.trajectory, f.submap⟩ : SubmapId) = j then fs.length else s2.count _)
      by_cases hj : (⟨f.trajectory, f.submap⟩ : SubmapId) = j
      · rw [if_pos hj, hj]
        refine ⟨by rw [b2]; rfl, ?_⟩
        by_contra hc
        rw [a1 (.frame f) ?_] at hf
        · have := (hi f hf).1
          rw [hj, hn] at this
          cases this
        · intro i _ hi' e
          simp only [fkey, CloudKey.frame.injEq] at e
          exact hc ⟨i, by rw [e], by simpa using hi'⟩
      · rw [if_neg hj]
        rw [a1 (.frame f) ?_] at hf
        · obtain ⟨x, y⟩ := hi f hf
          refine ⟨?_, by rw [b3, a2]; exact y⟩
          rw [b1 _ (by simpa using hj), a1 _ (by intro i _ _ e; simp [fkey] at e)]
          exact x
        · intro i _ _ e
          simp only [fkey, CloudKey.frame.injEq] at e
          exact hj (by rw [e])
  | matched j =>
    simp only [SwapState.step] at h
    split at h
    · cases h; exact hi
    · rw [Outcome.check_bind_eq_ok] at h
      obtain ⟨hg, h⟩ := h
      obtain ⟨s1, h4, h5⟩ := (Outcome.bind_eq_ok _ _ _).mp h
      simp only [Outcome.pure_eq, Outcome.ok.injEq] at h5
      subst h5
      split at h4
      · obtain ⟨s0, h0, h4⟩ := (Outcome.bind_eq_ok _ _ _).mp h4
        obtain ⟨-, c2, c3⟩ := saveFrames_other j _ s0 s1 h4
        exact framesIn_congr hi (fun k => (c2 k).trans (apply_other h0).2.1)
          (c3.trans (apply_other (k' := .submap j) h0).2.2)
      · cases h4
        exact framesIn_congr hi (fun _ => rfl) rfl
  | tick j sec =>
    simp only [SwapState.step] at h
    split at h
    · split at h
      · exact framesIn_congr hi (fun k => (apply_other h).2.1) (apply_other (k' := .submap j) h).2.2
      · cases h; exact framesIn_congr hi (fun _ => rfl) rfl
    · cases h; exact hi
  | access k =>
    simp only [SwapState.step] at h
    have h1 := fun k' => (apply_other (k' := k') h).2.1
    have h2 := (apply_other (k' := k) h).2.2
    cases k with
    | submap j => exact framesIn_congr hi h1 h2
    | frame f => exact framesIn_congr hi h1 h2

/-- Calls that do not concern submap `id` leave its holder, mark and idle time alone. -/
theorem step_submap {st st' : SwapState} {e : SwapEv} {id : SubmapId} {hh : Holder} (hk : st.holder (.submap id) = some hh)
    (h : st.step maxPoints cfg e = .ok st') (n1 : e ≠ .matched id) (n2 : ∀ s, e ≠ .tick id s)
    (n3 : e ≠ .access (.submap id)) :
    st'.holder (.submap id) = some hh ∧ st'.got id = st.got id ∧ st'.inactive id = st.inactive id := by
  cases e with
  | build j c fs =>
    simp only [SwapState.step] at h
    split at h
    · cases h; exact ⟨hk, rfl, rfl⟩
    · rename_i hn
      have hj : id ≠ j := by
        rintro rfl
        rw [hk] at hn; cases hn
      obtain ⟨s1, h1, h⟩ := (Outcome.bind_eq_ok _ _ _).mp h
      obtain ⟨s2, h2, h⟩ := (Outcome.bind_eq_ok _ _ _).mp h
      simp only [Outcome.pure_eq, Outcome.ok.injEq] at h
      subst h
      have a := createFrames_frameless j fs 0 st s1 h1
      have b : s2.got = s1.got ∧ s2.inactive = s1.inactive := by
        unfold SwapState.create at h2
        rw [Outcome.bind_eq_ok] at h2
        obtain ⟨hh, -, h5⟩ := h2
        simp only [Outcome.pure_eq, Outcome.ok.injEq] at h5
        subst h5; exact ⟨rfl, rfl⟩
      refine ⟨?_, ?_, ?_⟩
      · show s2.holder _ = _
        rw [(create_other h2).1 _ (by simpa using hj), (createFrames_other j fs 0 st s1 h1).1 _ (by intro i _ _ e; simp [fkey] at e), hk]
      · simp [hj, b.1, a.1]
      · simp [hj, b.2, a.2]
  | matched j =>
    have hj : id ≠ j := fun e => n1 (by rw [e])
    simp only [SwapState.step] at h
    split at h
    · cases h; exact ⟨hk, rfl, rfl⟩
    · rw [Outcome.check_bind_eq_ok] at h
      obtain ⟨hg, h⟩ := h
      obtain ⟨s1, h4, h5⟩ := (Outcome.bind_eq_ok _ _ _).mp h
      simp only [Outcome.pure_eq, Outcome.ok.injEq] at h5
      subst h5
      split at h4
      · obtain ⟨s0, h0, h4⟩ := (Outcome.bind_eq_ok _ _ _).mp h4
        have x := apply_frameless h0
        have y := saveFrames_frameless j _ s0 s1 h4
        refine ⟨?_, ?_, ?_⟩
        · show s1.holder _ = _
          rw [(saveFrames_other j _ s0 s1 h4).1 _ (by intro i _ e; simp [fkey] at e), (apply_other h0).1 (by simpa using hj), hk]
        · simp [hj, y.1, x.1]
        · simp [y.2, x.2]
      · cases h4
        exact ⟨hk, by simp [hj], rfl⟩
  | tick j sec =>
    have hj : id ≠ j := fun e => n2 sec (by rw [e])
    simp only [SwapState.step] at h
    split at h
    · split at h
      · have a := apply_frameless h
        refine ⟨?_, by rw [a.1], by rw [a.2]; simp [hj]⟩
        rw [(apply_other h).1 (by simpa using hj)]
        exact hk
      · cases h; exact ⟨hk, rfl, by simp [hj]⟩
    · cases h; exact ⟨hk, rfl, rfl⟩
  | access k =>
    simp only [SwapState.step] at h
    have hne : CloudKey.submap id ≠ k := fun e => n3 (by rw [e])
    have a := apply_frameless h
    have b := (apply_other (k' := .submap id) h).1 hne
    cases k with
    | submap j =>
      have hj : id ≠ j := fun e => hne (by rw [e])
      exact ⟨by rw [b]; exact hk, by rw [a.1], by rw [a.2]; simp [hj]⟩
    | frame f => exact ⟨by rw [b]; exact hk, by rw [a.1], by rw [a.2]⟩

/-- A saved submap after idle time `a`. -/
structure Resting (cfg : SwapCfg) (id : SubmapId) (a : Int) (st : SwapState) : Prop where
  held : ∃ hh, st.holder (.submap id) = some hh ∧ (cfg.delay < a → hh.inMemory = false)
  got : st.got id = true
  idle : a ≤ st.inactive id

theorem resting_step (hd : cfg.disk = true) {id : SubmapId} {a : Int} {st st' : SwapState} {e : SwapEv} (hr : Resting cfg id a st)
    (h : st.step maxPoints cfg e = .ok st') (n3 : e ≠ .access (.submap id)) (ht : ∀ s, e = .tick id s → 0 ≤ s) :
    Resting cfg id (a + tickSum id [e]) st' := by
  obtain ⟨hh, hk, hm⟩ := hr.held
  by_cases n1 : e = .matched id
  · subst n1
    simp only [SwapState.step, hk] at h
    rw [Outcome.check_bind_eq_ok, hr.got] at h
    cases h.1
  by_cases n2 : ∃ s, e = .tick id s
  · obtain ⟨s, rfl⟩ := n2
    have hs := ht s rfl
    have e1 : tickSum id [.tick id s] = s := by simp [tickSum]
    rw [e1]
    simp only [SwapState.step] at h
    rw [if_pos ⟨hd, hr.got⟩] at h
    split at h
    · have x := apply_frameless h
      have y := (apply_other (k' := .submap id) h).2.1
      obtain ⟨h', hk'⟩ : ∃ h', st'.holder (.submap id) = some h' := by
        rw [← Option.isSome_iff_exists, y]
        show (st.holder (.submap id)).isSome = true
        rw [hk]; rfl
      refine ⟨⟨h', hk', fun _ => clear_out h h' hk'⟩, by rw [x.1]; exact hr.got, ?_⟩
      rw [x.2]
      simp only [↓reduceIte]
      have := hr.idle
      omega
    · rename_i hlt
      cases h
      refine ⟨⟨hh, hk, fun hc => ?_⟩, hr.got, ?_⟩
      · have := hr.idle
        exact absurd (by omega) hlt
      · simp only [↓reduceIte]
        have := hr.idle
        omega
  · have hz : tickSum id [e] = 0 := by
      cases e with
      | tick j s =>
        have hj : j ≠ id := fun e => n2 ⟨s, by rw [e]⟩
        simp [tickSum, hj]
      | build _ _ _ => rfl
      | matched _ => rfl
      | access _ => rfl
    rw [hz, Int.add_zero]
    obtain ⟨x, y, z⟩ := step_submap hk h n1 (fun s hs => n2 ⟨s, hs⟩) n3
    exact ⟨⟨hh, x, hm⟩, by rw [y]; exact hr.got, by rw [z]; exact hr.idle⟩

theorem resting_run (hd : cfg.disk = true) {id : SubmapId} : ∀ (es : List SwapEv) (a : Int) (st st' : SwapState),
    Resting cfg id a st → st.run maxPoints cfg es = .ok st' → (∀ e ∈ es, e ≠ .access (.submap id)) → TicksForward es →
    Resting cfg id (a + tickSum id es) st'
  | [], a, st, st', hr, h, _, _ => by cases h; simpa [tickSum] using hr
  | e :: es, a, st, st', hr, h, hn, ht => by
    unfold SwapState.run at h
    obtain ⟨s1, h1, h2⟩ := (Outcome.bind_eq_ok _ _ _).mp h
    have hr1 := resting_step hd hr h1 (hn e (List.mem_cons_self ..)) (fun s hs => ht id s (by rw [hs]; exact List.mem_cons_self ..))
    have := resting_run hd es _ s1 st' hr1 h2 (fun x hx => hn x (List.mem_cons_of_mem _ hx))
      (fun j s hs => ht j s (List.mem_cons_of_mem _ hs))
    rw [Int.add_assoc, ← tickSum_append] at this
    exact this

/-- Idle times are not negative. -/
theorem idle_nonneg_step {st st' : SwapState} {e : SwapEv} (hi : ∀ id, 0 ≤ st.inactive id) (h : st.step maxPoints cfg e = .ok st')
    (ht : ∀ id s, e = .tick id s → 0 ≤ s) : ∀ id, 0 ≤ st'.inactive id := by
  intro id
  cases e with
  | build j c fs =>
    simp only [SwapState.step] at h
    split at h
    · cases h; exact hi id
    · obtain ⟨s1, h1, h⟩ := (Outcome.bind_eq_ok _ _ _).mp h
      obtain ⟨s2, h2, h⟩ := (Outcome.bind_eq_ok _ _ _).mp h
      simp only [Outcome.pure_eq, Outcome.ok.injEq] at h
      subst h
      have a := createFrames_frameless j fs 0 st s1 h1
      have b : s2.inactive = s1.inactive := by
        unfold SwapState.create at h2
        rw [Outcome.bind_eq_ok] at h2
        obtain ⟨hh, -, h5⟩ := h2
        simp only [Outcome.pure_eq, Outcome.ok.injEq] at h5
        subst h5; rfl
      show 0 ≤ if id = j then (0 : Int) else s2.inactive id
      split
      · exact le_refl _
      · rw [b, a.2]; exact hi id
  | matched j =>
    simp only [SwapState.step] at h
    split at h
    · cases h; exact hi id
    · rw [Outcome.check_bind_eq_ok] at h
      obtain ⟨hg, h⟩ := h
      obtain ⟨s1, h4, h5⟩ := (Outcome.bind_eq_ok _ _ _).mp h
      simp only [Outcome.pure_eq, Outcome.ok.injEq] at h5
      subst h5
      show 0 ≤ s1.inactive id
      split at h4
      · obtain ⟨s0, h0, h4⟩ := (Outcome.bind_eq_ok _ _ _).mp h4
        rw [(saveFrames_frameless j _ s0 s1 h4).2, (apply_frameless h0).2]
        exact hi id
      · cases h4; exact hi id
  | tick j sec =>
    have hs := ht j sec rfl
    have key : 0 ≤ if id = j then st.inactive j + sec else st.inactive id := by
      split
      · have := hi j; omega
      · exact hi id
    simp only [SwapState.step] at h
    split at h
    · split at h
      · rw [(apply_frameless h).2]; exact key
      · cases h; exact key
    · cases h; exact hi id
  | access k =>
    simp only [SwapState.step] at h
    rw [(apply_frameless h).2]
    cases k with
    | submap j =>
      show 0 ≤ if id = j then (0 : Int) else st.inactive id
      split
      · exact le_refl _
      · exact hi id
    | frame f => exact hi id

theorem swapRun_append : ∀ (a b : List SwapEv) (st st' : SwapState), st.run maxPoints cfg (a ++ b) = .ok st' →
    ∃ s, st.run maxPoints cfg a = .ok s ∧ s.run maxPoints cfg b = .ok st'
  | [], b, st, st', h => ⟨st, rfl, h⟩
  | e :: a, b, st, st', h => by
    change (st.step maxPoints cfg e >>= fun s => s.run maxPoints cfg (a ++ b)) = _ at h
    obtain ⟨s1, h1, h2⟩ := (Outcome.bind_eq_ok _ _ _).mp h
    obtain ⟨s, h3, h4⟩ := swapRun_append a b s1 st' h2
    refine ⟨s, ?_, h4⟩
    show (st.step maxPoints cfg e >>= fun s => s.run maxPoints cfg a) = _
    rw [h1, Outcome.bind_ok, h3]

theorem run_idle_nonneg : ∀ (es : List SwapEv) (st st' : SwapState), (∀ id, 0 ≤ st.inactive id) →
    st.run maxPoints cfg es = .ok st' → TicksForward es → ∀ id, 0 ≤ st'.inactive id
  | [], st, st', hi, h, _ => by cases h; exact hi
  | e :: es, st, st', hi, h, ht => by
    change (st.step maxPoints cfg e >>= fun s => s.run maxPoints cfg es) = _ at h
    obtain ⟨s1, h1, h2⟩ := (Outcome.bind_eq_ok _ _ _).mp h
    exact run_idle_nonneg es s1 st' (idle_nonneg_step hi h1 fun id s he => ht id s (by rw [he]; exact List.mem_cons_self ..)) h2
      fun j s hs => ht j s (List.mem_cons_of_mem _ hs)

theorem run_framesIn : ∀ (es : List SwapEv) (st st' : SwapState), FramesIn st → st.run maxPoints cfg es = .ok st' → FramesIn st'
  | [], st, st', hi, h => by cases h; exact hi
  | e :: es, st, st', hi, h => by
    change (st.step maxPoints cfg e >>= fun s => s.run maxPoints cfg es) = _ at h
    obtain ⟨s1, h1, h2⟩ := (Outcome.bind_eq_ok _ _ _).mp h
    exact run_framesIn es s1 st' (framesIn_step e hi h1) h2

/-- A submap that exists goes on existing. -/
theorem step_exists {st st' : SwapState} {e : SwapEv} {id : SubmapId} (hk : (st.holder (.submap id)).isSome = true)
    (h : st.step maxPoints cfg e = .ok st') : (st'.holder (.submap id)).isSome = true := by
  obtain ⟨hh, hk'⟩ := Option.isSome_iff_exists.1 hk
  by_cases n1 : e = .matched id
  · subst n1
    simp only [SwapState.step, hk'] at h
    rw [Outcome.check_bind_eq_ok] at h
    obtain ⟨hg, h⟩ := h
    obtain ⟨s1, h4, h5⟩ := (Outcome.bind_eq_ok _ _ _).mp h
    simp only [Outcome.pure_eq, Outcome.ok.injEq] at h5
    subst h5
    show (s1.holder _).isSome = true
    split at h4
    · obtain ⟨s0, h0, h4⟩ := (Outcome.bind_eq_ok _ _ _).mp h4
      rw [(saveFrames_other id _ s0 s1 h4).2.1, (apply_other h0).2.1]; exact hk
    · cases h4; exact hk
  by_cases n2 : ∃ s, e = .tick id s
  · obtain ⟨s, rfl⟩ := n2
    simp only [SwapState.step] at h
    split at h
    · split at h
      · rw [(apply_other h).2.1]; exact hk
      · cases h; exact hk
    · cases h; exact hk
  by_cases n3 : e = .access (.submap id)
  · subst n3
    simp only [SwapState.step] at h
    rw [(apply_other h).2.1]; exact hk
  · rw [(step_submap hk' h n1 (fun s hs => n2 ⟨s, hs⟩) n3).1]; rfl

theorem run_exists {id : SubmapId} : ∀ (es : List SwapEv) (st st' : SwapState), (st.holder (.submap id)).isSome = true →
    st.run maxPoints cfg es = .ok st' → (st'.holder (.submap id)).isSome = true
  | [], st, st', hi, h => by cases h; exact hi
  | e :: es, st, st', hi, h => by
    change (st.step maxPoints cfg e >>= fun s => s.run maxPoints cfg es) = _ at h
    obtain ⟨s1, h1, h2⟩ := (Outcome.bind_eq_ok _ _ _).mp h
    exact run_exists es s1 st' (step_exists hi h1) h2

theorem run_built {id : SubmapId} {c : BitsCloud} {fs : List BitsCloud} {es : List SwapEv} {st st' : SwapState}
    (hb : .build id c fs ∈ es) (h : st.run maxPoints cfg es = .ok st') : (st'.holder (.submap id)).isSome = true := by
  obtain ⟨a, b, rfl⟩ := List.append_of_mem hb
  obtain ⟨s, h1, h2⟩ := swapRun_append a _ st st' h
  change (s.step maxPoints cfg (.build id c fs) >>= fun s => s.run maxPoints cfg b) = _ at h2
  obtain ⟨s1, h3, h4⟩ := (Outcome.bind_eq_ok _ _ _).mp h2
  refine run_exists b s1 st' ?_ h4
  simp only [SwapState.step] at h3
  split at h3
  · rename_i hh hk
    cases h3
    rw [hk]; rfl
  · obtain ⟨t1, h5, h⟩ := (Outcome.bind_eq_ok _ _ _).mp h3
    obtain ⟨t2, h6, h⟩ := (Outcome.bind_eq_ok _ _ _).mp h
    simp only [Outcome.pure_eq, Outcome.ok.injEq] at h
    subst h
    obtain ⟨hh, hx⟩ := (create_other h6).2.1
    show (t2.holder _).isSome = true
    rw [hx]; rfl

theorem step_got {st st' : SwapState} {e : SwapEv} {id : SubmapId} (hx : (st.holder (.submap id)).isSome = true)
    (hg : st.got id = true) (h : st.step maxPoints cfg e = .ok st') : st'.got id = true := by
  obtain ⟨hh, hx'⟩ := Option.isSome_iff_exists.1 hx
  by_cases n1 : e = .matched id
  · subst n1
    simp only [SwapState.step, hx'] at h
    rw [Outcome.check_bind_eq_ok, hg] at h
    cases h.1
  by_cases n2 : ∃ s, e = .tick id s
  · obtain ⟨q, rfl⟩ := n2
    simp only [SwapState.step] at h
    split at h
    · split at h
      · rw [(apply_frameless h).1]; exact hg
      · cases h; exact hg
    · cases h; exact hg
  by_cases n3 : e = .access (.submap id)
  · subst n3
    simp only [SwapState.step] at h
    rw [(apply_frameless h).1]; exact hg
  · rw [(step_submap hx' h n1 (fun s hs => n2 ⟨s, hs⟩) n3).2.1]; exact hg

theorem run_got {id : SubmapId} : ∀ (l : List SwapEv) (s s' : SwapState), (s.holder (.submap id)).isSome = true → s.got id = true →
    s.run maxPoints cfg l = .ok s' → s'.got id = true
  | [], s, s', _, hg, h => by cases h; exact hg
  | e :: l, s, s', hx, hg, h => by
    change (s.step maxPoints cfg e >>= fun s => s.run maxPoints cfg l) = _ at h
    obtain ⟨t, h7, h8⟩ := (Outcome.bind_eq_ok _ _ _).mp h
    exact run_got l t s' (step_exists hx h7) (step_got hx hg h7) h8

/-- What matching leaves. -/
theorem matched_rest (hd : cfg.disk = true) {id : SubmapId} {st st' : SwapState} (hk : (st.holder (.submap id)).isSome = true)
    (hn : 0 ≤ st.inactive id) (h0 : 0 ≤ cfg.delay) (h : st.step maxPoints cfg (.matched id) = .ok st') :
    Resting cfg id 0 st' ∧ st'.count = st.count ∧
    ∀ i < st.count id, ∀ hh, st'.holder (fkey id i) = some hh → hh.inMemory = false := by
  have hk2 := step_exists hk h
  obtain ⟨hh, hk'⟩ := Option.isSome_iff_exists.1 hk
  obtain ⟨hh2, hk2'⟩ := Option.isSome_iff_exists.1 hk2
  simp only [SwapState.step, hk'] at h
  rw [Outcome.check_bind_eq_ok] at h
  obtain ⟨hg, h⟩ := h
  obtain ⟨s1, h4, h5⟩ := (Outcome.bind_eq_ok _ _ _).mp h
  simp only [Outcome.pure_eq, Outcome.ok.injEq] at h5
  subst h5
  rw [if_pos hd] at h4
  obtain ⟨s0, h6, h4⟩ := (Outcome.bind_eq_ok _ _ _).mp h4
  refine ⟨⟨⟨hh2, hk2', fun hc => by omega⟩, by simp, ?_⟩, ?_, ?_⟩
  · show 0 ≤ s1.inactive id
    rw [(saveFrames_frameless id _ s0 s1 h4).2, (apply_frameless h6).2]; exact hn
  · exact (saveFrames_other id _ s0 s1 h4).2.2.trans (apply_other (k' := .submap id) h6).2.2
  · intro i hi hx hxk
    exact saveFrames_out id _ s0 s1 h4 List.nodup_range i (List.mem_range.2 hi) hx hxk

theorem saved_rest (hd : cfg.disk = true) (h0 : 0 ≤ cfg.delay) {id : SubmapId} {es1 es2 : List SwapEv} {st : SwapState}
    (hrun : SwapState.init.run maxPoints cfg (es1 ++ es2) = .ok st) (ht : TicksForward (es1 ++ es2)) (hs : SavedIn es1 id)
    (hn : ∀ e ∈ es2, e ≠ .access (.submap id)) : Resting cfg id (tickSum id es2) st := by
  obtain ⟨a, b, c, fs, rfl, hb⟩ := hs
  obtain ⟨s1, h1, h2⟩ := swapRun_append _ es2 _ st hrun
  obtain ⟨s2, h3, h4⟩ := swapRun_append a _ _ s1 h1
  change (s2.step maxPoints cfg (.matched id) >>= fun s => s.run maxPoints cfg b) = _ at h4
  obtain ⟨s3, h5, h6⟩ := (Outcome.bind_eq_ok _ _ _).mp h4
  have hta : TicksForward a := fun j s hs => ht j s (by simp [hs])
  have hn2 := run_idle_nonneg a SwapState.init s2 (fun _ => le_refl _) h3 hta
  obtain ⟨r, -, -⟩ := matched_rest hd (run_built hb h3) (hn2 id) h0 h5
  -- accesses in `b` may bring the cloud back, but keep the mark
  obtain ⟨hh, hk, -⟩ := r.held
  have hx : (s3.holder (.submap id)).isSome = true := by rw [hk]; rfl
  have hx1 := run_exists b s3 s1 hx h6
  have hg1 := run_got b s3 s1 hx r.got h6
  have hn1 := run_idle_nonneg _ SwapState.init s1 (fun _ => le_refl _) h1 (fun j s hs => ht j s (List.mem_append_left _ hs))
  obtain ⟨h1', hk1⟩ := Option.isSome_iff_exists.1 hx1
  have r1 : Resting cfg id 0 s1 := ⟨⟨h1', hk1, fun hc => by omega⟩, hg1, hn1 id⟩
  have := resting_run hd es2 0 s1 st r1 h2 hn (fun j s hs => ht j s (List.mem_append_right _ hs))
  rwa [Int.zero_add] at this

/-- Calls leave the frames of a built and marked submap alone unless they are asked for. -/
theorem step_frame {st st' : SwapState} {e : SwapEv} {id : SubmapId} {i : Nat} (hx : (st.holder (.submap id)).isSome = true)
    (hg : st.got id = true) (h : st.step maxPoints cfg e = .ok st') (n : e ≠ .access (fkey id i)) :
    st'.holder (fkey id i) = st.holder (fkey id i) := by
  obtain ⟨hh, hx'⟩ := Option.isSome_iff_exists.1 hx
  have fne : ∀ (j : SubmapId) (l : Nat), j ≠ id → fkey id i ≠ fkey j l := by
    intro j l hj e
    simp only [fkey, CloudKey.frame.injEq, FrameId.mk.injEq] at e
    apply hj
    obtain ⟨e1, e2, -⟩ := e
    cases j; cases id
    simp_all
  cases e with
  | build j c fs =>
    simp only [SwapState.step] at h
    split at h
    · cases h; rfl
    · rename_i hn
      have hj : j ≠ id := by
        rintro rfl
        rw [hx'] at hn; cases hn
      obtain ⟨s1, h1, h⟩ := (Outcome.bind_eq_ok _ _ _).mp h
      obtain ⟨s2, h2, h⟩ := (Outcome.bind_eq_ok _ _ _).mp h
      simp only [Outcome.pure_eq, Outcome.ok.injEq] at h
      subst h
      show s2.holder _ = _
      rw [(create_other h2).1 _ (by simp [fkey]), (createFrames_other j fs 0 st s1 h1).1 _ (fun l _ _ => fne j l hj)]
  | matched j =>
    simp only [SwapState.step] at h
    split at h
    · cases h; rfl
    · rw [Outcome.check_bind_eq_ok] at h
      obtain ⟨hg', h⟩ := h
      have hj : j ≠ id := by
        rintro rfl
        rw [hg] at hg'; cases hg'
      obtain ⟨s1, h4, h5⟩ := (Outcome.bind_eq_ok _ _ _).mp h
      simp only [Outcome.pure_eq, Outcome.ok.injEq] at h5
      subst h5
      show s1.holder _ = _
      split at h4
      · obtain ⟨s0, h0, h4⟩ := (Outcome.bind_eq_ok _ _ _).mp h4
        rw [(saveFrames_other j _ s0 s1 h4).1 _ (fun l _ => fne j l hj), (apply_other h0).1 (by simp [fkey])]
      · cases h4; rfl
  | tick j sec =>
    simp only [SwapState.step] at h
    split at h
    · split at h
      · rw [(apply_other h).1 (by simp [fkey])]
      · cases h; rfl
    · cases h; rfl
  | access k =>
    simp only [SwapState.step] at h
    have b := (apply_other (k' := fkey id i) h).1 (fun e => n (by rw [e]))
    rw [b]
    cases k <;> rfl

end Verif
