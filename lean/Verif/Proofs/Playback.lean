import Verif.Model.Playback
import Mathlib.Data.List.Infix
namespace Verif
variable {α : Type}

/-- What a bag is between calls: over, or ready to hand out a message. -/
def BagReady (b : Bag α) : Prop :=
  (b.finished = true → b.rest = []) ∧ (b.finished = true ∨ b.available = .ok true)

theorem bagAdvanceLoop_spec (delay : Nat) (rest : List (BagMsg α)) :
    ∀ (buffer : List (BagMsg α)) (b : Bag α), bagAdvanceLoop delay buffer rest = .ok b →
      b.buffer ++ b.rest = buffer ++ rest ∧ b.delay = delay ∧ BagReady b := by
  induction rest with
  | nil =>
    intro buffer b h
    simp only [bagAdvanceLoop, Outcome.ok.injEq] at h
    subst h
    exact ⟨rfl, rfl, fun _ => rfl, Or.inl rfl⟩
  | cons m r ih =>
    intro buffer b h
    simp only [bagAdvanceLoop] at h
    rw [Outcome.bind_eq_ok] at h
    obtain ⟨a, ha, h⟩ := h
    cases a with
    | true =>
      rw [if_pos rfl] at h
      simp only [Outcome.pure_eq, Outcome.ok.injEq] at h
      subst h
      exact ⟨by simp, rfl, by intro h; exact absurd h (by simp), Or.inr ha⟩
    | false =>
      rw [if_neg (by simp)] at h
      have := ih _ b h
      exact ⟨by rw [this.1]; simp, this.2.1, this.2.2⟩

theorem bag_advance_spec {b b' : Bag α} (hr : b.finished = true → b.rest = [])
    (h : b.advance = .ok b') :
    b'.buffer ++ b'.rest = b.buffer ++ b.rest ∧ b'.delay = b.delay ∧ BagReady b' := by
  unfold Bag.advance at h
  split at h
  · rename_i hf
    simp only [Outcome.ok.injEq] at h
    subst h
    exact ⟨rfl, rfl, hr, Or.inl hf⟩
  · exact bagAdvanceLoop_spec _ _ _ _ h

theorem bag_available_ok {b : Bag α} (h : ∀ m ∈ b.buffer, b.delay ≤ m.time) :
    ∃ a, b.available = .ok a := by
  unfold Bag.available
  split
  · rename_i f l hf hl
    rw [if_neg (by have := h l (List.mem_of_getLast? hl); omega)]
    exact ⟨_, rfl⟩
  · exact ⟨_, rfl⟩

theorem bagAdvanceLoop_ok (delay : Nat) (rest : List (BagMsg α)) :
    ∀ (buffer : List (BagMsg α)), (∀ m ∈ buffer ++ rest, delay ≤ m.time) →
      ∃ b, bagAdvanceLoop delay buffer rest = .ok b := by
  induction rest with
  | nil => intro buffer _; exact ⟨_, rfl⟩
  | cons m r ih =>
    intro buffer h
    simp only [bagAdvanceLoop]
    obtain ⟨a, ha⟩ := bag_available_ok
      (b := { buffer := buffer ++ [m], rest := r, finished := false, delay := delay })
      (by intro x hx; exact h x (by
            rcases List.mem_append.mp hx with hx | hx
            · simp [hx]
            · simp only [List.mem_singleton] at hx; simp [hx]))
    rw [ha]
    simp only [Outcome.bind_ok]
    cases a with
    | true => exact ⟨_, rfl⟩
    | false =>
      rw [if_neg (by simp)]
      exact ih _ (by intro x hx; exact h x (by simpa using hx))

theorem bag_advance_ok {b : Bag α} (h : ∀ m ∈ b.buffer ++ b.rest, b.delay ≤ m.time) :
    ∃ b', b.advance = .ok b' := by
  unfold Bag.advance
  split
  · exact ⟨_, rfl⟩
  · exact bagAdvanceLoop_ok _ _ _ h

/-- What an available message means. -/
theorem bag_available_true {b : Bag α} (h : b.available = .ok true) :
    ∃ f r l, b.buffer = f :: r ∧ b.buffer.getLast? = some l ∧ f.time + b.delay < l.time := by
  unfold Bag.available at h
  split at h
  · rename_i f l hf hl
    split at h
    · cases h
    · simp only [Outcome.ok.injEq, decide_eq_true_eq] at h
      match hb : b.buffer with
      | [] => rw [hb] at hf; cases hf
      | f' :: r =>
        rw [hb] at hf
        simp only [List.head?_cons, Option.some.injEq] at hf
        subst hf
        exact ⟨f', r, l, rfl, by rw [← hb]; exact hl, by omega⟩
  · simp at h

theorem bag_available_false {b : Bag α} (h : b.available = .ok false) :
    b.buffer = [] ∨
      ∃ f r l, b.buffer = f :: r ∧ b.buffer.getLast? = some l ∧ l.time ≤ f.time + b.delay := by
  unfold Bag.available at h
  split at h
  · rename_i f l hf hl
    split at h
    · cases h
    · simp only [Outcome.ok.injEq, decide_eq_false_iff_not] at h
      match hb : b.buffer with
      | [] => exact Or.inl rfl
      | f' :: r =>
        rw [hb] at hf
        simp only [List.head?_cons, Option.some.injEq] at hf
        subst hf
        exact Or.inr ⟨f', r, l, rfl, by rw [← hb]; exact hl, by omega⟩
  · rename_i hno
    left
    match hb : b.buffer with
    | [] => rfl
    | f :: r =>
      exfalso
      rw [hb] at hno
      obtain ⟨l, hl⟩ := Option.ne_none_iff_exists'.mp
        (show (f :: r).getLast? ≠ none by simp)
      exact hno f l rfl hl

theorem bag_next_spec {b : Bag α} {m : BagMsg α} {b' : Bag α} (hr : BagReady b)
    (h : b.next = .ok (m, b')) :
    b.buffer ++ b.rest = m :: (b'.buffer ++ b'.rest) ∧ b'.delay = b.delay ∧ BagReady b' := by
  unfold Bag.next at h
  rw [Outcome.bind_eq_ok] at h
  obtain ⟨a, ha, h⟩ := h
  rw [Outcome.check_bind_eq_ok] at h
  obtain ⟨rfl, h⟩ := h
  match hb : b.buffer with
  | [] => rw [hb] at h; cases h
  | f :: r =>
    rw [hb] at h
    dsimp only at h
    rw [Outcome.bind_eq_ok] at h
    obtain ⟨b1, h1, h⟩ := h
    simp only [Outcome.pure_eq, Outcome.ok.injEq, Prod.mk.injEq] at h
    obtain ⟨rfl, rfl⟩ := h
    have := bag_advance_spec (b := { b with buffer := r }) hr.1 h1
    refine ⟨?_, this.2.1, this.2.2⟩
    show f :: r ++ b.rest = _
    rw [this.1]
    rfl


theorem bagPlay_prefix (n : Nat) : ∀ (b : Bag α) (l : List (BagMsg α)), BagReady b →
    bagPlay n b = .ok l → l <+: b.buffer ++ b.rest := by
  induction n with
  | zero =>
    intro b l _ h
    simp only [bagPlay, Outcome.ok.injEq] at h
    subst h
    exact List.nil_prefix
  | succ n ih =>
    intro b l hr h
    simp only [bagPlay] at h
    rw [Outcome.bind_eq_ok] at h
    obtain ⟨a, ha, h⟩ := h
    split at h
    · rw [Outcome.bind_eq_ok] at h
      obtain ⟨⟨m, b'⟩, h1, h⟩ := h
      rw [Outcome.bind_eq_ok] at h
      obtain ⟨l', h2, h⟩ := h
      simp only [Outcome.pure_eq, Outcome.ok.injEq] at h
      subst h
      have hn := bag_next_spec hr h1
      rw [hn.1]
      exact List.cons_prefix_cons.mpr ⟨rfl, ih b' l' hn.2.2 h2⟩
    · simp only [Outcome.pure_eq, Outcome.ok.injEq] at h
      subst h
      exact List.nil_prefix

/-- The messages handed out, for a recording in time order. -/
theorem bagPlay_exact (n : Nat) : ∀ (b : Bag α) (last : BagMsg α), BagReady b →
    (b.buffer ++ b.rest).length < n →
    (∀ m ∈ b.buffer ++ b.rest, b.delay ≤ m.time) →
    (b.buffer ++ b.rest).Pairwise (fun a c => a.time ≤ c.time) →
    (b.buffer ++ b.rest).getLast? = some last →
    bagPlay n b =
      .ok ((b.buffer ++ b.rest).takeWhile (fun m => decide (m.time + b.delay < last.time))) := by
  induction n with
  | zero => intro b last _ h; omega
  | succ n ih =>
    intro b last hr hlen hd hs hlast
    obtain ⟨a, ha⟩ := bag_available_ok (b := b)
      (fun m hm => hd m (List.mem_append_left _ hm))
    simp only [bagPlay]
    rw [ha]
    simp only [Outcome.bind_ok]
    have hmax : ∀ m ∈ b.buffer ++ b.rest, m.time ≤ last.time := by
      intro m hm
      obtain ⟨init, hinit⟩ := List.getLast?_eq_some_iff.mp hlast
      rw [hinit] at hm hs
      rcases List.mem_append.mp hm with hm | hm
      · exact (List.pairwise_append.mp hs).2.2 m hm last (by simp)
      · simp only [List.mem_singleton] at hm; subst hm; exact Nat.le_refl _
    cases a with
    | true =>
      rw [if_pos rfl]
      obtain ⟨f, r, l, hb, hl, hlt⟩ := bag_available_true ha
      obtain ⟨b1, hb1⟩ := bag_advance_ok (b := { b with buffer := r })
        (by
          intro m hm
          exact hd m (by rw [hb]; exact List.mem_cons_of_mem _ hm))
      have hnext : b.next = .ok (f, b1) := by
        unfold Bag.next
        rw [ha]
        simp only [Outcome.bind_ok]
        rw [Outcome.check_pos trivial]
        simp only [Outcome.bind_ok]
        rw [hb]
        dsimp only
        rw [hb1]
        rfl
      rw [hnext]
      simp only [Outcome.bind_ok]
      have hn := bag_next_spec hr hnext
      have hll : l.time ≤ last.time := hmax l (List.mem_append_left _ (List.mem_of_getLast? hl))
      have hne : b1.buffer ++ b1.rest ≠ [] := by
        intro h0
        rw [hn.1, h0] at hlast
        simp only [List.getLast?_singleton, Option.some.injEq] at hlast
        subst hlast
        omega
      have hlast' : (b1.buffer ++ b1.rest).getLast? = some last := by
        rw [hn.1] at hlast
        rw [List.getLast?_cons] at hlast
        obtain ⟨x, hx⟩ := Option.ne_none_iff_exists'.mp
          (show (b1.buffer ++ b1.rest).getLast? ≠ none from fun h => hne (List.getLast?_eq_none_iff.mp h))
        rw [hx] at hlast ⊢
        simpa using hlast
      have := ih b1 last hn.2.2 (by
          rw [hn.1] at hlen
          simp only [List.length_cons] at hlen
          omega)
        (by rw [hn.2.1]; intro m hm; exact hd m (by rw [hn.1]; exact List.mem_cons_of_mem _ hm))
        (by rw [hn.1] at hs; exact (List.pairwise_cons.mp hs).2) hlast'
      rw [this]
      simp only [Outcome.bind_ok, Outcome.pure_eq]
      rw [hn.1, List.takeWhile_cons, hn.2.1]
      rw [if_pos (by simp; omega)]
    | false =>
      rw [if_neg (by simp)]
      have hfin : b.finished = true := by
        rcases hr.2 with h | h
        · exact h
        · rw [ha] at h; cases h
      have hrest := hr.1 hfin
      rw [hrest, List.append_nil] at hlast ⊢
      rcases bag_available_false ha with h0 | ⟨f, r, l, hb, hl, hle⟩
      · rw [h0]; rfl
      · rw [hl] at hlast
        simp only [Option.some.injEq] at hlast
        subst hlast
        rw [hb, List.takeWhile_cons, if_neg (by simp; omega)]
        rfl

theorem takeWhile_eq_filter_sorted {l : List (BagMsg α)} (k : Nat)
    (hs : l.Pairwise (fun a c => a.time ≤ c.time)) (d : Nat) :
    l.takeWhile (fun m => decide (m.time + d < k)) =
      l.filter (fun m => decide (m.time + d < k)) := by
  induction l with
  | nil => rfl
  | cons a l ih =>
    have h := List.pairwise_cons.mp hs
    rw [List.takeWhile_cons, List.filter_cons]
    split
    · rw [ih h.2]
    · rename_i hn
      symm
      rw [List.filter_eq_nil_iff]
      intro m hm
      have := h.1 m hm
      simp at hn ⊢
      omega

/-! ### KITTI -/

theorem readKitti_get {scale : UInt32 → UInt32} {file : List UInt8} (i : Nat)
    (h : i < min kittiLimit (file.length / 4) / 4) :
    (readKitti scale file)[i]? = some (kittiPoint scale file i) := by
  unfold readKitti
  dsimp only
  rw [List.getElem?_map, List.getElem?_range h]
  rfl

theorem kittiPlay_spec (scale : UInt32 → UInt32) (fs : List Char → Option (List UInt8)) (n : Nat) :
    ∀ (k : Kitti), (∀ f ∈ k.files, ∃ c, fs f = some c) → k.files.length < n + k.index →
      (h : k.index ≤ k.files.length) →
      kittiPlay scale fs n k = .ok ((((k.files.drop k.index).map
        (fun f => readKitti scale ((fs f).getD [])))).takeWhile (fun c => decide (c ≠ []))) := by
  induction n with
  | zero => intro k _ h1 h2; omega
  | succ n ih =>
    intro k hf hlen hle
    simp only [kittiPlay]
    unfold Kitti.readNext
    by_cases hi : k.index < k.files.length
    · have hg : k.files[k.index]? = some k.files[k.index] := List.getElem?_eq_getElem hi
      rw [hg]
      dsimp only
      obtain ⟨c, hc⟩ := hf k.files[k.index] (List.getElem_mem hi)
      rw [hc]
      simp only [Outcome.bind_ok]
      rw [List.drop_eq_getElem_cons hi, List.map_cons, hc, List.takeWhile_cons]
      simp only [Option.getD_some]
      by_cases he : readKitti scale c = []
      · rw [if_pos he, if_neg (by simp [he])]
        rfl
      · rw [if_neg he, if_pos (by simp [he])]
        have := ih { k with index := k.index + 1, heap := k.heap + 4 * kittiLimit } hf
          (by show k.files.length < n + (k.index + 1); omega) (show k.index + 1 ≤ k.files.length by omega)
        rw [this]
        rfl
    · have hg : k.files[k.index]? = none := List.getElem?_eq_none (by omega)
      rw [hg]
      simp only [Outcome.bind_ok]
      rw [List.drop_eq_nil_of_le (by omega)]
      rfl

end Verif
