import Verif.Proofs.Loop
/-!
C37: loop candidates.
English: every pair proposed as a loop closure joins the newest frame with a frame that is at least
the configured number of frames older (or inside the search window) and within the configured
horizontal and vertical distances; all reported frame indices are valid; no candidate is reported
twice; at most the configured number of candidates plus the closest one are reported.

C38: the loop state machine.
English: a loop closure is attempted only in the continuous-loop state, that state is entered only
after the configured number of consecutive frames with candidates, and it is left as soon as a frame
has no candidate; closing never aborts for lack of candidates.
-/
namespace Verif
open Spec

/-- Any state, any settings with `1 ≤ num` (0 is a division by zero, see `C37_zero_fails`), any new
frame: the call returns, and its candidates are as required. -/
theorem C37_candidates {s : LoopSettings} (hn : 1 ≤ s.num) (st : LoopState) (f : LoopFrame) :
    ∃ st' r, addLoopFrame s st f = .ok (st', r) ∧ st'.size = st.size + 1 ∧ r.index = st.size ∧
      r.pairs.Nodup ∧ (r.pairs.length : Int) ≤ s.num + 1 ∧
      (∀ p ∈ r.attempted, p ∈ r.pairs) ∧ (∀ p ∈ r.edges, p ∈ r.attempted ∧ f.close p.1 = true) ∧
      ∀ p ∈ r.pairs, p.2 = st.size ∧ p.1 < p.2 ∧ f.xy p.1 ≤ s.maxXY ∧ f.z p.1 ≤ s.maxZ ∧
        ((∀ a b, st.window = some (a, b) → a < 0 ∨ b < 0) → (p.1 : Int) + s.ignore < p.2) ∧
        (∀ a b, st.window = some (a, b) → 0 ≤ a → 0 ≤ b → a ≤ p.1 ∧ (p.1 : Int) < b) := by
  unfold addLoopFrame
  by_cases hskip : f.detect = false ∨ s.ignore < 0 ∨ ((st.size + 1 : Nat) : Int) ≤ s.ignore
  · simp only [if_pos hskip]
    exact ⟨_, _, rfl, rfl, rfl, by simp, by simp; omega, by simp, by simp, by simp⟩
  · simp only [if_neg hskip]
    have hig : 0 ≤ s.ignore := by
      by_contra h; exact hskip (Or.inr (Or.inl (by omega)))
    obtain ⟨ps, e1, e2, e3, e4⟩ := loopPairs_ok hn hig st.window f st.size
    have hr := loopRange_spec s hig st.window st.size
    have hall : ∀ p ∈ ps, p.2 = st.size ∧ p.1 < p.2 ∧ f.xy p.1 ≤ s.maxXY ∧ f.z p.1 ≤ s.maxZ ∧
        ((∀ a b, st.window = some (a, b) → a < 0 ∨ b < 0) → (p.1 : Int) + s.ignore < p.2) ∧
        (∀ a b, st.window = some (a, b) → 0 ≤ a → 0 ≤ b → a ≤ p.1 ∧ (p.1 : Int) < b) := by
      intro p hp
      obtain ⟨h1, h2, _⟩ := e4 p hp
      obtain ⟨a, b, c, d⟩ := loopNear_spec hr.1 h2
      refine ⟨h1, by rw [h1]; omega, c, d, ?_, ?_⟩
      · intro hw
        rw [h1]
        cases hwin : st.window with
        | none =>
          rw [hwin] at b
          simp only [loopRange] at b
          omega
        | some w =>
          obtain ⟨x, y⟩ := w
          have hxy := hw x y hwin
          rw [hwin] at b
          simp only [loopRange] at b
          rw [if_neg (by omega)] at b
          dsimp only at b
          omega
      · intro x y hw hx hy
        rw [hw] at a b
        exact loopRange_window hx hy a b
    simp only [e1, Outcome.bind_ok]
    by_cases hc : (loopNext s.trying (st.status, st.count) (!ps.isEmpty)).1 = .continuous
    · rw [if_pos hc]
      have hne : ps ≠ [] := by
        have := loopNext_continuous hc
        rintro rfl
        simp at this
      rw [Outcome.check_pos hne]
      refine ⟨_, _, rfl, rfl, rfl, e2, e3, fun p hp => hp, ?_, hall⟩
      intro p hp
      have := List.mem_filter.mp hp
      exact ⟨this.1, by simpa using this.2⟩
    · rw [if_neg hc]
      exact ⟨_, _, rfl, rfl, rfl, e2, e3, by simp, by simp, hall⟩

/-- With `num = 0` the first frame with a candidate divides by zero. -/
theorem C37_zero_fails :
    (match addLoopFrame { num := 0, ignore := 0 } { LoopState.init with size := 1 }
        { detect := true, xy := fun _ => 0, z := fun _ => 0, descriptor := fun _ => 0,
          close := fun _ => true } with
     | .ub => true | _ => false) = true := by
  decide +kernel

/-- Ten frames at the same place, three frames ignored: frame 9 is paired with 0, 1, 2, 3 (of 0…5,
step 1) and the closest is already among them. -/
example : (match addLoopFrame { ignore := 3 } { LoopState.init with size := 9 }
        { detect := true, xy := fun _ => 0, z := fun _ => 0, descriptor := fun _ => 0,
          close := fun _ => true } with
     | .ok (_, r) => r.pairs | _ => []) = [(0, 9), (1, 9), (2, 9), (3, 9)] := by
  decide +kernel

/-- The nearest of the frames kept by `loopClosest`. -/
theorem loopClosest_least (f : LoopFrame) (l : List Nat) (i : Nat) (d : Rat)
    (h : loopClosest f l = some (i, d)) : i ∈ l ∧ d = f.xy i ∧ ∀ j ∈ l, f.xy i ≤ f.xy j := by
  have key : ∀ (l : List Nat) (b : Option (Nat × Rat)), (∀ i d, b = some (i, d) → d = f.xy i) →
      ∀ i d, l.foldl (fun best i =>
        match best with
        | none => some (i, f.xy i)
        | some (b, d) => if f.xy i < d then some (i, f.xy i) else some (b, d)) b = some (i, d) →
      d = f.xy i ∧ (∀ j ∈ l, f.xy i ≤ f.xy j) ∧ (∀ k e, b = some (k, e) → d ≤ e) := by
    intro l
    induction l with
    | nil =>
      intro b hb i d h
      refine ⟨hb i d h, by simp, ?_⟩
      intro k e hk
      rw [List.foldl_nil] at h
      rw [h] at hk
      cases hk; exact le_refl _
    | cons a l ih =>
      intro b hb i d h
      rw [List.foldl_cons] at h
      cases b with
      | none =>
        obtain ⟨h1, h2, h3⟩ := ih _ (by intro i d h; cases h; rfl) i d h
        refine ⟨h1, ?_, by simp⟩
        intro j hj
        rcases List.mem_cons.1 hj with rfl | hj
        · rw [← h1]; exact h3 _ _ rfl
        · exact h2 j hj
      | some bd =>
        obtain ⟨k, e⟩ := bd
        dsimp only at h
        by_cases hlt : f.xy a < e
        · rw [if_pos hlt] at h
          obtain ⟨h1, h2, h3⟩ := ih _ (by intro i d h; cases h; rfl) i d h
          have h4 := h3 _ _ rfl
          refine ⟨h1, ?_, ?_⟩
          · intro j hj
            rcases List.mem_cons.1 hj with rfl | hj
            · rw [← h1]; exact h4
            · exact h2 j hj
          · intro k' e' hk; cases hk; exact le_trans h4 hlt.le
        · rw [if_neg hlt] at h
          obtain ⟨h1, h2, h3⟩ := ih _ hb i d h
          have h4 := h3 _ _ rfl
          refine ⟨h1, ?_, ?_⟩
          · intro j hj
            rcases List.mem_cons.1 hj with rfl | hj
            · rw [← h1]; exact le_trans h4 (not_lt.1 hlt)
            · exact h2 j hj
          · intro k' e' hk; cases hk; exact h4
  obtain ⟨h1, h2, -⟩ := key l none (by simp) i d h
  refine ⟨?_, h1, h2⟩
  rcases loopClosest_mem f l none _ h with h | h
  · cases h
  · exact h

theorem loopClosest_isSome (f : LoopFrame) (l : List Nat) (h : l ≠ []) : ∃ r, loopClosest f l = some r := by
  have key : ∀ (l : List Nat) (r : Nat × Rat), ∃ r', l.foldl (fun best i =>
        match best with
        | none => some (i, f.xy i)
        | some (b, d) => if f.xy i < d then some (i, f.xy i) else some (b, d)) (some r) = some r' := by
    intro l
    induction l with
    | nil => intro r; exact ⟨r, rfl⟩
    | cons a l ih =>
      intro r
      rw [List.foldl_cons]
      dsimp only
      split
      · exact ih _
      · exact ih _
  cases l with
  | nil => exact absurd rfl h
  | cons a l => exact key l _

theorem loopClosestOk_iff (s : LoopSettings) (f : LoopFrame) (l : List Nat) (c : Nat)
    (h : loopClosestOk s f l = some c) : c ∈ l ∧ f.xy c < s.maxXY * (4 / 10) ∧ ∀ j ∈ l, f.xy c ≤ f.xy j := by
  unfold loopClosestOk at h
  split at h
  · cases h
  · rename_i i d hc
    split at h
    · cases h
    · rename_i hd
      cases h
      obtain ⟨h1, h2, h3⟩ := loopClosest_least f l _ d hc
      exact ⟨h1, by rw [← h2]; exact not_le.1 hd, h3⟩

/-- The candidates are those of `loopPairs`. -/
theorem addLoopFrame_pairs {s : LoopSettings} {st st' : LoopState} {f : LoopFrame} {r : LoopResult}
    (h : addLoopFrame s st f = .ok (st', r)) :
    r.pairs = [] ∨ (0 ≤ s.ignore ∧ loopPairs s st.window f st.size = .ok r.pairs) := by
  unfold addLoopFrame at h
  dsimp only at h
  split at h
  · cases h; left; rfl
  · rename_i hskip
    obtain ⟨ps, h1, h2⟩ := (Outcome.bind_eq_ok ..).mp h
    right
    refine ⟨by by_contra h; exact hskip (Or.inr (Or.inl (by omega))), ?_⟩
    split at h2
    · obtain ⟨-, h3⟩ := (Outcome.check_bind_eq_ok ..).mp h2
      cases h3; exact h1
    · cases h2; exact h1

/-- **C37 (by descriptor).** With the descriptor in use, a candidate either has a score above the threshold or is
the nearest of all the frames in reach and nearer than four tenths of the allowed distance. -/
theorem C37_descriptor {s : LoopSettings} (hn : 1 ≤ s.num) (hd : s.useDescriptor = true) {st st' : LoopState}
    {f : LoopFrame} {r : LoopResult} (h : addLoopFrame s st f = .ok (st', r)) (hw : st.window = none)
    (p : Nat × Nat) (hp : p ∈ r.pairs) :
    f.descriptor p.1 > s.score ∨
      (f.xy p.1 < s.maxXY * (4 / 10) ∧
        ∀ j : Nat, (j : Int) + s.ignore < st.size → f.xy j ≤ s.maxXY → f.z j ≤ s.maxZ → f.xy p.1 ≤ f.xy j) := by
  rcases addLoopFrame_pairs h with h | ⟨hi, h⟩
  · rw [h] at hp; cases hp
  · obtain ⟨ps, e1, -, -, e4⟩ := loopPairs_ok hn hi st.window f st.size
    rw [e1] at h
    cases h
    rcases (e4 p hp).2.2 hd with h | h
    · left; exact h
    · right
      obtain ⟨h1, h2, h3⟩ := loopClosestOk_iff s f _ _ h
      refine ⟨h2, ?_⟩
      intro j hj hx hz
      refine h3 j ?_
      rw [hw]
      simp only [loopRange, loopNear, List.mem_filter, List.mem_range'_1, Bool.and_eq_true, decide_eq_true_eq]
      exact ⟨⟨by simp, by simp; omega⟩, hx, hz⟩

/-- Nothing is missed: with a frame in reach (and, with the descriptor in use, one that matches) there is a
candidate, and the nearest frame is one if it is nearer than four tenths of the allowed distance. -/
theorem C37_found {s : LoopSettings} (hn : 1 ≤ s.num) (hi : 0 ≤ s.ignore) {st st' : LoopState}
    {f : LoopFrame} {r : LoopResult} (h : addLoopFrame s st f = .ok (st', r)) (hw : st.window = none)
    (hdet : f.detect = true) (j : Nat) (hj : (j : Int) + s.ignore < st.size) (hx : f.xy j ≤ s.maxXY)
    (hz : f.z j ≤ s.maxZ) (hm : s.useDescriptor = true → f.descriptor j > s.score) :
    r.pairs ≠ [] ∧
    ∀ c : Nat, (c : Int) + s.ignore < st.size → f.z c ≤ s.maxZ → f.xy c < s.maxXY * (4 / 10) → f.xy c ≤ s.maxXY →
      (∀ k : Nat, k ≠ c → (k : Int) + s.ignore < st.size → f.xy k ≤ s.maxXY → f.z k ≤ s.maxZ → f.xy c < f.xy k) →
      (c, st.size) ∈ r.pairs := by
  have hin : ∀ k : Nat, (k : Int) + s.ignore < st.size → f.xy k ≤ s.maxXY → f.z k ≤ s.maxZ →
      k ∈ loopNear s f (loopRange s st.window st.size) := by
    intro k hk hx hz
    rw [hw]
    simp only [loopRange, loopNear, List.mem_filter, List.mem_range'_1, Bool.and_eq_true, decide_eq_true_eq]
    exact ⟨⟨by simp, by simp; omega⟩, hx, hz⟩
  have hps : loopPairs s st.window f st.size = .ok r.pairs := by
    unfold addLoopFrame at h
    dsimp only at h
    rw [if_neg (by simp only [hdet]; push_cast; simp; omega)] at h
    obtain ⟨ps, h1, h2⟩ := (Outcome.bind_eq_ok ..).mp h
    split at h2
    · obtain ⟨-, h3⟩ := (Outcome.check_bind_eq_ok ..).mp h2
      cases h3; exact h1
    · cases h2; exact h1
  have hr := loopRange_spec s hi st.window st.size
  have hcur : ¬ (s.useDescriptor = true ∧ st.size ∈ loopNear s f (loopRange s st.window st.size)) := by
    rintro ⟨_, h⟩
    have := loopNear_spec hr.1 h
    omega
  unfold loopPairs at hps
  simp only [if_neg hcur] at hps
  have hnd := loopNear_nodup s f (loopRange s st.window st.size)
  revert hnd
  have hsp : ∀ k ∈ loopNear s f (loopRange s st.window st.size),
      (k : Int) + s.ignore < st.size ∧ f.xy k ≤ s.maxXY ∧ f.z k ≤ s.maxZ := by
    intro k hk
    obtain ⟨a, b, c, d⟩ := loopNear_spec hr.1 hk
    rw [hw] at b
    simp only [loopRange] at b
    exact ⟨by omega, c, d⟩
  revert hps hin hsp
  generalize loopNear s f (loopRange s st.window st.size) = near
  intro hin hps hsp hnd
  generalize hmd : (if s.useDescriptor then near.filter fun i => decide (f.descriptor i > s.score)
    else near) = matched at hps
  have hjm : j ∈ matched := by
    rw [← hmd]
    by_cases hd : s.useDescriptor = true
    · rw [if_pos hd]
      exact List.mem_filter.2 ⟨hin j hj hx hz, by simpa using hm hd⟩
    · rw [if_neg hd]; exact hin j hj hx hz
  have hmn : matched.Nodup := by
    rw [← hmd]
    split
    · exact List.Nodup.filter _ hnd
    · exact hnd
  have hne : matched ≠ [] := List.ne_nil_of_mem hjm
  obtain ⟨vs, e1, e2, e3, e4, e5⟩ := loopSelect_ok hn
    (l := matched.insertionSort (· ≤ ·)) ((List.perm_insertionSort _ _).nodup_iff.mpr hmn)
  simp only [e1, Outcome.bind_ok, Outcome.pure_eq, if_neg hne] at hps
  have hps := (Outcome.ok.inj hps).symm
  constructor
  · rw [hps]
    have hvs : vs ≠ [] := e5 (by
      intro h0
      have := (List.perm_insertionSort (· ≤ ·) matched).mem_iff.2 hjm
      rw [h0] at this
      cases this)
    unfold loopAddClosest
    split
    · simpa using hvs
    · split
      · simpa using hvs
      · simp
  · intro c hc hz' hlt hle hmin
    rw [hps]
    have hcn := hin c hc hle hz'
    obtain ⟨⟨i, d⟩, hcl⟩ := loopClosest_isSome f near (List.ne_nil_of_mem hcn)
    obtain ⟨h1, h2, h3⟩ := loopClosest_least f near i d hcl
    have hic : i = c := by
      by_contra hne'
      obtain ⟨a, b, c'⟩ := hsp i h1
      have := hmin i hne' a b c'
      exact absurd (h3 c hcn) (not_le.2 this)
    subst hic
    have hok : loopClosestOk s f near = some i := by
      unfold loopClosestOk
      rw [hcl]
      dsimp only
      rw [if_neg (by rw [h2]; exact not_le.2 hlt)]
    rw [hok]
    refine List.mem_map.2 ⟨i, ?_, rfl⟩
    unfold loopAddClosest
    dsimp only
    split
    · assumption
    · simp

/-- With the descriptor in use, a frame whose descriptor does not match can still become a candidate (and be
closed with): frame 0 matches and lies 20 m away, frame 1 does not match and is the nearest, 1 m away. -/
theorem C37_descriptor_fails :
    (match addLoopFrame { useDescriptor := true, ignore := 0, num := 1, maxXY := 25, maxZ := 5, score := 1 / 2 }
        { LoopState.init with size := 2 }
        { detect := true, xy := fun i => if i = 0 then 20 else 1, z := fun _ => 0,
          descriptor := fun i => if i = 0 then 3 / 5 else 1 / 10, close := fun _ => true } with
     | .ok (_, r) => r.pairs | _ => []) = [(0, 2), (1, 2)] := by
  decide +kernel

/-- A closure is attempted exactly when the frame leaves the detector in the continuous state, and
then there are candidates; a frame without candidate always leaves that state. -/
theorem C38_attempt {s : LoopSettings} {st st' : LoopState} {f : LoopFrame} {r : LoopResult}
    (h : addLoopFrame s st f = .ok (st', r)) :
    (r.attempted ≠ [] → st'.status = .continuous) ∧
    (r.considered = true → st'.status = .continuous → r.attempted = r.pairs ∧ r.pairs ≠ []) ∧
    (r.considered = true → r.pairs = [] → st'.status ≠ .continuous) ∧
    (r.considered = false → st'.status = st.status ∧ r.attempted = []) := by
  unfold addLoopFrame at h
  by_cases hskip : f.detect = false ∨ s.ignore < 0 ∨ ((st.size + 1 : Nat) : Int) ≤ s.ignore
  · simp only [if_pos hskip, Outcome.ok.injEq, Prod.mk.injEq] at h
    obtain ⟨rfl, rfl⟩ := h
    simp
  · simp only [if_neg hskip] at h
    rw [Outcome.bind_eq_ok] at h
    obtain ⟨ps, _, h⟩ := h
    by_cases hc : (loopNext s.trying (st.status, st.count) (!ps.isEmpty)).1 = .continuous
    · rw [if_pos hc, Outcome.bind_eq_ok] at h
      obtain ⟨_, hk, h⟩ := h
      simp only [Outcome.pure_eq, Outcome.ok.injEq, Prod.mk.injEq] at h
      obtain ⟨rfl, rfl⟩ := h
      have hne : ps ≠ [] := by
        have := loopNext_continuous hc
        rintro rfl
        simp at this
      exact ⟨fun _ => hc, fun _ _ => ⟨rfl, hne⟩, fun _ h => absurd h hne, by simp⟩
    · rw [if_neg hc] at h
      simp only [Outcome.pure_eq, Outcome.ok.injEq, Prod.mk.injEq] at h
      obtain ⟨rfl, rfl⟩ := h
      exact ⟨by simp, fun _ h => absurd h hc, fun _ _ => hc, by simp⟩

theorem addLoopFrame_inv {s : LoopSettings} {st st' : LoopState} {f : LoopFrame} {r : LoopResult}
    {h : List Bool} (hi : LoopInv s.trying h (st.status, st.count))
    (he : addLoopFrame s st f = .ok (st', r)) :
    LoopInv s.trying (h ++ hits [r]) (st'.status, st'.count) := by
  unfold addLoopFrame at he
  by_cases hskip : f.detect = false ∨ s.ignore < 0 ∨ ((st.size + 1 : Nat) : Int) ≤ s.ignore
  · simp only [if_pos hskip, Outcome.ok.injEq, Prod.mk.injEq] at he
    obtain ⟨rfl, rfl⟩ := he
    simpa [hits] using hi
  · simp only [if_neg hskip] at he
    rw [Outcome.bind_eq_ok] at he
    obtain ⟨ps, _, he⟩ := he
    have hs := loopInv_step (!ps.isEmpty) hi
    by_cases hc : (loopNext s.trying (st.status, st.count) (!ps.isEmpty)).1 = .continuous
    · rw [if_pos hc, Outcome.bind_eq_ok] at he
      obtain ⟨_, hk, he⟩ := he
      simp only [Outcome.pure_eq, Outcome.ok.injEq, Prod.mk.injEq] at he
      obtain ⟨rfl, rfl⟩ := he
      exact hs
    · rw [if_neg hc] at he
      simp only [Outcome.pure_eq, Outcome.ok.injEq, Prod.mk.injEq] at he
      obtain ⟨rfl, rfl⟩ := he
      exact hs

theorem runLoop_inv {s : LoopSettings} (es : List LoopEv) : ∀ {st st' : LoopState}
    {rs : List LoopResult} {h : List Bool}, LoopInv s.trying h (st.status, st.count) →
    runLoop s st es = .ok (st', rs) →
    LoopInv s.trying (h ++ hits rs) (st'.status, st'.count) := by
  induction es with
  | nil =>
    intro st st' rs h hi he
    simp only [runLoop, Outcome.ok.injEq, Prod.mk.injEq] at he
    obtain ⟨rfl, rfl⟩ := he
    simpa [hits] using hi
  | cons e es ih =>
    intro st st' rs h hi he
    cases e with
    | window a b =>
      simp only [runLoop] at he
      rw [Outcome.bind_eq_ok] at he
      obtain ⟨_, _, he⟩ := he
      exact ih (st := { st with window := some (a, b) }) hi he
    | frame f =>
      simp only [runLoop] at he
      rw [Outcome.bind_eq_ok] at he
      obtain ⟨⟨s1, r⟩, h1, he⟩ := he
      rw [Outcome.bind_eq_ok] at he
      obtain ⟨⟨s2, rs'⟩, h2, he⟩ := he
      simp only [Outcome.pure_eq, Outcome.ok.injEq, Prod.mk.injEq] at he
      obtain ⟨rfl, rfl⟩ := he
      have := ih (addLoopFrame_inv hi h1) h2
      have e : h ++ hits (r :: rs') = h ++ hits [r] ++ hits rs' := by
        simp only [hits, List.filter_cons]
        split <;> simp
      rw [e]
      exact this

/-- In every use of the detector: in the continuous state the last two frames had candidates, and
since the last time two frames in a row had none, more frames than the configured number had
candidates.  Missing: that these frames were consecutive, which is false (`C38_consecutive_fails`). -/
theorem C38_evidence_partial {s : LoopSettings} (es : List LoopEv) {st : LoopState}
    {rs : List LoopResult} (h : runLoop s LoopState.init es = .ok (st, rs))
    (hc : st.status = .continuous) :
    ∃ suf, suf ++ [true, true] <:+ hits rs ∧ NoTwoMisses (suf ++ [true, true]) ∧
      s.trying + 1 ≤ (suf ++ [true, true]).count true := by
  have := runLoop_inv (s := s) es (st := LoopState.init) (h := []) trivial h
  rw [hc, List.nil_append] at this
  exact this

/-- A frame that has a candidate or not. -/
def testFrame (found : Bool) : LoopFrame :=
  { detect := true, xy := fun _ => if found then 0 else 100, z := fun _ => 0,
    descriptor := fun _ => 0, close := fun _ => true }

/-- Status and hits after a use. -/
def loopView (s : LoopSettings) (es : List LoopEv) : Option (LoopStatus × List Bool) :=
  match runLoop s LoopState.init es with
  | .ok (st, rs) => some (st.status, hits rs)
  | _ => none

/-- With three frames required, the continuous state is entered on the second of two consecutive
frames with candidates, right after a frame without any. -/
theorem C38_consecutive_fails :
    loopView { trying := 3, ignore := 0 }
      ((false :: [true, true, true, false, true, true]).map fun b => .frame (testFrame b)) =
    some (.continuous, [false, true, true, true, false, true, true]) := by
  decide +kernel

/-- The required number of consecutive frames does lead there. -/
example : loopView { trying := 3, ignore := 0 }
      ((false :: [true, true, true, true]).map fun b => .frame (testFrame b)) =
    some (.continuous, [false, true, true, true, true]) := by
  decide +kernel

end Verif
