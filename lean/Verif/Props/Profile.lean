import Verif.Spec.Profile
import Mathlib.Tactic.Linarith
import Mathlib.Algebra.Order.BigOperators.Group.List
import Mathlib.Data.List.Induction
/-! C79: the table of running times. -/
namespace Verif
open Spec

section maps
variable {κ α : Type} [DecidableEq κ]

theorem getKey_atKey (d : α) (f : α → α) (k k' : κ) (l : List (κ × α)) :
    getKey k' (atKey d f k l) = if k' = k then some (f ((getKey k l).getD d)) else getKey k' l := by
  induction l with
  | nil => 
    by_cases h : k' = k
    · subst h; simp [atKey, getKey]
    · rw [if_neg h]; simp [atKey, getKey, Ne.symm h]
  | cons e r ih =>
    obtain ⟨q, a⟩ := e
    by_cases hq : q = k
    · subst hq
      by_cases h : k' = q
      · subst h; simp [atKey, getKey]
      · simp [atKey, getKey, h, Ne.symm h]
    · by_cases h : k' = k
      · subst h
        simp only [atKey, if_neg hq, getKey, ih]
      · simp only [atKey, if_neg hq, getKey, ih, if_neg h]

theorem mem_keys_atKey (d : α) (f : α → α) (k k' : κ) (l : List (κ × α)) :
    k' ∈ (atKey d f k l).map (·.1) ↔ k' = k ∨ k' ∈ l.map (·.1) := by
  induction l with
  | nil => simp [atKey]
  | cons e r ih =>
    obtain ⟨q, a⟩ := e
    by_cases hq : q = k
    · subst hq; simp [atKey]
    · simp only [atKey, if_neg hq, List.map_cons, List.mem_cons, ih]
      constructor
      · rintro (h | h | h)
        · exact .inr (.inl h)
        · exact .inl h
        · exact .inr (.inr h)
      · rintro (h | h | h)
        · exact .inr (.inl h)
        · exact .inl h
        · exact .inr (.inr h)

theorem nodup_atKey (d : α) (f : α → α) (k : κ) (l : List (κ × α)) (h : (l.map (·.1)).Nodup) :
    ((atKey d f k l).map (·.1)).Nodup := by
  induction l with
  | nil => simp [atKey]
  | cons e r ih =>
    obtain ⟨q, a⟩ := e
    simp only [List.map_cons, List.nodup_cons] at h
    by_cases hq : q = k
    · subst hq; simpa [atKey] using h
    · simp only [atKey, if_neg hq, List.map_cons, List.nodup_cons]
      refine ⟨fun hm => ?_, ih h.2⟩
      rcases (mem_keys_atKey d f k q r).mp hm with e | e
      · exact hq e
      · exact h.1 e

theorem getKey_of_mem {l : List (κ × α)} (h : (l.map (·.1)).Nodup) {k : κ} {a : α} (hm : (k, a) ∈ l) : getKey k l = some a := by
  induction l with
  | nil => cases hm
  | cons e r ih =>
    obtain ⟨q, b⟩ := e
    simp only [List.map_cons, List.nodup_cons] at h
    rcases List.mem_cons.mp hm with e | hm
    · cases e; simp [getKey]
    · have : q ≠ k := by
        rintro rfl
        exact h.1 (List.mem_map.mpr ⟨_, hm, rfl⟩)
      simp only [getKey, if_neg this]
      exact ih h.2 hm

theorem mem_of_getKey {l : List (κ × α)} {k : κ} {a : α} (h : getKey k l = some a) : (k, a) ∈ l := by
  induction l with
  | nil => cases h
  | cons e r ih =>
    obtain ⟨q, b⟩ := e
    simp only [getKey] at h
    split at h
    · rename_i hq
      cases h; simp [hq]
    · exact List.mem_cons_of_mem _ (ih h)

theorem flatten_id (k : κ) (l : List (κ × List Int)) : ((atKey [] id k l).map (·.2)).flatten = (l.map (·.2)).flatten := by
  induction l with
  | nil => simp [atKey]
  | cons e r ih =>
    obtain ⟨q, a⟩ := e
    by_cases hq : q = k
    · simp [atKey, hq]
    · simp only [atKey, if_neg hq, List.map_cons, List.flatten_cons, ih]

theorem flatten_push (d : Int) (k : κ) (l : List (κ × List Int)) :
    ((atKey [] (· ++ [d]) k l).map (·.2)).flatten.Perm ((l.map (·.2)).flatten ++ [d]) := by
  induction l with
  | nil => simp [atKey]
  | cons e r ih =>
    obtain ⟨q, a⟩ := e
    by_cases hq : q = k
    · simp only [atKey, hq, if_true, List.map_cons, List.flatten_cons, List.append_assoc]
      exact List.Perm.append_left a List.perm_append_comm
    · simp only [atKey, if_neg hq, List.map_cons, List.flatten_cons, List.append_assoc]
      exact List.Perm.append_left a ih

end maps

section
variable {β τ : Type} [DecidableEq β] [DecidableEq τ]

theorem profRun_snoc (t : ProfTable β τ) (es : List (ProfEv β τ)) (e : ProfEv β τ) :
    profRun t (es ++ [e]) = (profRun t es >>= fun t' => profStep t' e) := by
  induction es generalizing t with
  | nil =>
    simp only [List.nil_append, profRun, Outcome.bind_ok]
    cases profStep t e <;> rfl
  | cons a es ih =>
    simp only [List.cons_append, profRun]
    cases profStep t a with
    | ok t1 => simp only [Outcome.bind_ok, ih]
    | abort => rfl
    | ub => rfl

/-- The entry of a block. -/
def inn (t : ProfTable β τ) (b : β) : List (τ × List Int) := (getKey b t).getD []

theorem inn_atKey (g : List (τ × List Int) → List (τ × List Int)) (b b' : β) (t : ProfTable β τ) :
    inn (atKey [] g b t) b' = if b' = b then g (inn t b) else inn t b' := by
  unfold inn
  rw [getKey_atKey]
  split <;> rfl

/-- What the table holds after the events `es`. -/
structure ProfInv (es : List (ProfEv β τ)) (t : ProfTable β τ) : Prop where
  keys : (t.map (·.1)).Nodup
  inner : ∀ b, ((inn t b).map (·.1)).Nodup
  blocks : ∀ b, b ∈ t.map (·.1) ↔ ∃ th, ProfEv.enter b th ∈ es
  threads : ∀ b th, th ∈ (inn t b).map (·.1) ↔ ProfEv.enter b th ∈ es
  merged : ∀ b, (((inn t b).map (·.2)).flatten).Perm (timesOf es b)
  single : ∀ b th, (getKey th (inn t b)).getD [] = timesOfBy es b th

theorem timesOf_snoc (es : List (ProfEv β τ)) (e : ProfEv β τ) (b : β) :
    timesOf (es ++ [e]) b = timesOf es b ++ (timeIn b e).toList := by
  unfold timesOf
  rw [List.filterMap_append]
  cases h : timeIn b e <;> simp [List.filterMap_cons, h]

theorem timesOfBy_snoc (es : List (ProfEv β τ)) (e : ProfEv β τ) (b : β) (th : τ) :
    timesOfBy (es ++ [e]) b th = timesOfBy es b th ++ (timeInBy b th e).toList := by
  unfold timesOfBy
  rw [List.filterMap_append]
  cases h : timeInBy b th e <;> simp [List.filterMap_cons, h]

theorem prof_step_inv {es : List (ProfEv β τ)} {t t' : ProfTable β τ} {e : ProfEv β τ} (h : ProfInv es t)
    (hs : profStep t e = .ok t') : ProfInv (es ++ [e]) t' := by
  cases e with
  | enter b th =>
    cases hs
    refine ⟨nodup_atKey _ _ _ _ h.keys, ?_, ?_, ?_, ?_, ?_⟩
    · intro b'
      unfold registerTimer
      rw [inn_atKey]
      split
      · exact nodup_atKey _ _ _ _ (h.inner b)
      · exact h.inner b'
    · intro b'
      unfold registerTimer
      rw [mem_keys_atKey, h.blocks]
      simp only [List.mem_append, List.mem_singleton, ProfEv.enter.injEq]
      constructor
      · rintro (rfl | ⟨th', hm⟩)
        · exact ⟨th, .inr ⟨rfl, rfl⟩⟩
        · exact ⟨th', .inl hm⟩
      · rintro ⟨th', hm | ⟨rfl, _⟩⟩
        · exact .inr ⟨th', hm⟩
        · exact .inl rfl
    · intro b' th'
      unfold registerTimer
      rw [inn_atKey]
      simp only [List.mem_append, List.mem_singleton, ProfEv.enter.injEq]
      by_cases hb : b' = b
      · subst hb
        rw [if_pos rfl, mem_keys_atKey, h.threads]
        constructor
        · rintro (rfl | hm)
          · exact .inr ⟨rfl, rfl⟩
          · exact .inl hm
        · rintro (hm | ⟨_, rfl⟩)
          · exact .inr hm
          · exact .inl rfl
      · rw [if_neg hb, h.threads]
        simp [hb]
    · intro b'
      unfold registerTimer
      rw [inn_atKey, timesOf_snoc]
      simp only [timeIn, Option.toList_none, List.append_nil]
      split
      · rename_i hb
        rw [flatten_id, hb]; exact h.merged b
      · exact h.merged b'
    · intro b' th'
      unfold registerTimer
      rw [inn_atKey, timesOfBy_snoc]
      simp only [timeInBy, Option.toList_none, List.append_nil]
      split
      · rename_i hb
        subst hb
        rw [getKey_atKey]
        split
        · rename_i ht
          rw [ht]; exact h.single b' th
        · exact h.single b' th'
      · exact h.single b' th'
  | leave b th d =>
    simp only [profStep] at hs
    split at hs
    · cases hs
    · rename_i v hv
      cases hs
      obtain ⟨l, hl, hth⟩ := Option.bind_eq_some_iff.mp hv
      have hin : inn t b = l := by simp [inn, hl]
      have hb0 : b ∈ t.map (·.1) := List.mem_map.mpr ⟨_, mem_of_getKey hl, rfl⟩
      have ht0 : th ∈ (inn t b).map (·.1) := by rw [hin]; exact List.mem_map.mpr ⟨_, mem_of_getKey hth, rfl⟩
      refine ⟨nodup_atKey _ _ _ _ h.keys, ?_, ?_, ?_, ?_, ?_⟩
      · intro b'
        rw [inn_atKey]
        split
        · exact nodup_atKey _ _ _ _ (h.inner b)
        · exact h.inner b'
      · intro b'
        rw [mem_keys_atKey]
        simp only [List.mem_append, List.mem_singleton, reduceCtorEq, or_false]
        rw [← h.blocks]
        constructor
        · rintro (rfl | hm)
          · exact hb0
          · exact hm
        · exact .inr
      · intro b' th'
        rw [inn_atKey]
        simp only [List.mem_append, List.mem_singleton, reduceCtorEq, or_false]
        rw [← h.threads]
        split
        · rename_i hb
          subst hb
          rw [mem_keys_atKey]
          constructor
          · rintro (rfl | hm)
            · exact ht0
            · exact hm
          · exact .inr
        · rfl
      · intro b'
        rw [inn_atKey, timesOf_snoc]
        by_cases hb : b' = b
        · subst hb
          simp only [timeIn, if_true, Option.toList_some]
          exact (flatten_push d th _).trans ((h.merged b').append_right [d])
        · simp only [timeIn, if_neg hb, if_neg (Ne.symm hb), Option.toList_none, List.append_nil]
          exact h.merged b'
      · intro b' th'
        rw [inn_atKey, timesOfBy_snoc]
        by_cases hb : b' = b
        · subst hb
          rw [if_pos rfl, getKey_atKey]
          by_cases ht : th' = th
          · subst ht
            simp only [timeInBy, and_self, if_true, Option.toList_some, Option.getD_some]
            rw [h.single b' th']
          · simp only [timeInBy, if_neg ht, Ne.symm ht, and_false, if_false, Option.toList_none, List.append_nil]
            exact h.single b' th'
        · simp only [timeInBy, if_neg hb, Ne.symm hb, false_and, if_false, Option.toList_none, List.append_nil]
          exact h.single b' th'

theorem prof_inv (es : List (ProfEv β τ)) : ∀ t : ProfTable β τ, profRun [] es = .ok t → ProfInv es t := by
  induction es using List.reverseRecOn with
  | nil =>
    intro t h
    cases h
    exact ⟨by simp, by simp [inn, getKey], by simp, by simp [inn, getKey], by simp [inn, getKey, timesOf], by simp [inn, getKey, timesOfBy]⟩
  | append_singleton es e ih =>
    intro t h
    rw [profRun_snoc] at h
    obtain ⟨t1, h1, h2⟩ := (Outcome.bind_eq_ok _ _ _).mp h
    exact prof_step_inv (ih t1 h1) h2

end

theorem sum64_ok (l : List Int) (s : Int) (hs : 0 ≤ s) (h0 : ∀ x ∈ l, 0 ≤ x) (hb : s + l.sum < 2 ^ 63) : sum64 s l = .ok (s + l.sum) := by
  induction l generalizing s with
  | nil => simp [sum64]
  | cons d r ih =>
    have hd := h0 d (by simp)
    have hr : 0 ≤ r.sum := List.sum_nonneg fun x hx => h0 x (by simp [hx])
    rw [List.sum_cons] at hb
    unfold sum64
    rw [if_pos ⟨by omega, by omega⟩, ih (s + d) (by omega) (fun x hx => h0 x (by simp [hx])) (by omega), List.sum_cons]
    congr 1
    omega

theorem shows_time {factor : Rat} (hf : 0 ≤ factor) {x : Int} (hx : 0 ≤ x) (hb : (x : Rat) * factor < 2 ^ 31) :
    ∃ o, timeToString factor x = .ok o ∧ Shows factor x o := by
  have hv : (0 : Rat) ≤ x * factor := mul_nonneg (by exact_mod_cast hx) hf
  have hfl : 0 ≤ ⌊(x : Rat) * factor⌋ := Int.floor_nonneg.mpr hv
  have hlt : ⌊(x : Rat) * factor⌋ < 2 ^ 31 := Int.floor_lt.mpr (by exact_mod_cast hb)
  have hfl' : (-2 ^ 31 : Int) ≤ ⌊(x : Rat) * factor⌋ := by omega
  unfold timeToString
  simp only [if_pos hv]
  rw [if_pos ⟨hfl', hlt⟩]
  refine ⟨_, rfl, ?_, ?_⟩
  · intro h1
    have : 1 ≤ ⌊(x : Rat) * factor⌋ := Int.le_floor.mpr (by exact_mod_cast h1)
    rw [if_pos this]
    exact ⟨_, rfl, Int.floor_le _, Int.lt_floor_add_one _⟩
  · intro h1
    have : ¬ 1 ≤ ⌊(x : Rat) * factor⌋ := by
      intro hc
      have := Int.le_floor.mp hc
      push_cast at this
      linarith
    rw [if_neg this]

/-- A line is printed and is right. -/
theorem profRow_ok {factor : Rat} (hf : 0 ≤ factor) {l : List Int} (hne : l ≠ []) (h0 : ∀ x ∈ l, 0 ≤ x)
    (hs : l.sum < 2 ^ 63) (hb : (l.sum : Rat) * factor < 2 ^ 31) : ∃ r, profRow factor l = .ok r ∧ RowFor factor l r := by
  set s := l.insertionSort (fun a b => a ≤ b) with hsdef
  have hperm : s.Perm l := List.perm_insertionSort _ l
  have hsum : s.sum = l.sum := hperm.sum_eq
  have hlen : s.length = l.length := hperm.length_eq
  have hsort : s.Pairwise (fun a b => a ≤ b) := by
    exact List.pairwise_insertionSort _ l
  have hsne : s ≠ [] := by
    intro e
    rw [e] at hlen
    exact hne (List.eq_nil_of_length_eq_zero hlen.symm)
  have hle : ∀ x ∈ l, x ≤ l.sum := fun x hx => List.single_le_sum h0 x hx
  have fit : ∀ x : Int, 0 ≤ x → x ≤ l.sum → ∃ o, timeToString factor x = .ok o ∧ Shows factor x o := by
    intro x hx hxl
    refine shows_time hf hx (lt_of_le_of_lt ?_ hb)
    exact mul_le_mul_of_nonneg_right (by exact_mod_cast hxl) hf
  have hsn : 0 ≤ l.sum := List.sum_nonneg h0
  have hpos : 0 < l.length := List.length_pos_of_ne_nil hne
  -- the average
  have havg : toI64 (toU64 l.sum / s.length) = l.sum / l.length := by
    have e1 : toU64 l.sum = l.sum.toNat := by
      unfold toU64
      rw [Int.emod_eq_of_lt hsn (by omega)]
    have e2 : l.sum.toNat / s.length < 2 ^ 63 := by
      refine lt_of_le_of_lt (Nat.div_le_self _ _) ?_
      omega
    unfold toI64
    rw [e1, if_pos e2, hlen]
    push_cast
    rw [Int.toNat_of_nonneg hsn]
  have ha0 : 0 ≤ l.sum / (l.length : Int) := Int.ediv_nonneg hsn (by omega)
  have ha1 : l.sum / (l.length : Int) ≤ l.sum := Int.ediv_le_self _ hsn
  have hmin := List.head_mem hsne
  have hmax := List.getLast_mem hsne
  obtain ⟨o1, t1, w1⟩ := fit _ ha0 ha1
  obtain ⟨o2, t2, w2⟩ := fit _ hsn le_rfl
  obtain ⟨o3, t3, w3⟩ := fit (s.head hsne) (h0 _ (hperm.mem_iff.mp hmin)) (hle _ (hperm.mem_iff.mp hmin))
  obtain ⟨o4, t4, w4⟩ := fit (s.getLast hsne) (h0 _ (hperm.mem_iff.mp hmax)) (hle _ (hperm.mem_iff.mp hmax))
  have hstat : getStatistics l = .ok ⟨l.length, l.sum / l.length, s.getLast hsne, s.head hsne, l.sum⟩ := by
    unfold getStatistics
    simp only [← hsdef, List.head?_eq_some_head hsne, List.getLast?_eq_some_getLast hsne]
    rw [sum64_ok s 0 le_rfl (fun x hx => h0 x (hperm.mem_iff.mp hx)) (by omega), Outcome.bind_ok, zero_add, hsum, havg, hlen]
    rfl
  refine ⟨⟨l.length, o1, o2, o3, o4⟩, ?_, rfl, w2, ⟨_, hperm.mem_iff.mp hmin, ?_, w3⟩, ⟨_, hperm.mem_iff.mp hmax, ?_, w4⟩, ⟨_, ?_, ?_, w1⟩⟩
  · unfold profRow
    rw [hstat, Outcome.bind_ok]
    simp only [t1, t2, t3, t4, Outcome.bind_ok]
    rfl
  · intro x hx
    have hx' := hperm.mem_iff.mpr hx
    obtain ⟨a, r, e⟩ := List.exists_cons_of_ne_nil hsne
    simp only [e, List.head_cons] at hx' ⊢
    rw [e] at hsort
    rcases List.mem_cons.mp hx' with rfl | hm
    · exact le_rfl
    · exact (List.pairwise_cons.mp hsort).1 x hm
  · intro x hx
    have hx' := hperm.mem_iff.mpr hx
    have e := List.dropLast_append_getLast hsne
    rw [← e] at hx' hsort
    rcases List.mem_append.mp hx' with hm | hm
    · exact (List.pairwise_append.mp hsort).2.2 x hm _ (by simp)
    · rw [List.mem_singleton.mp hm]
  · have := Int.ediv_mul_le l.sum (b := (l.length : Int)) (by omega)
    exact this
  · exact Int.lt_ediv_add_one_mul_self l.sum (by omega)

theorem profRows_ok {κ : Type} {factor : Rat} (l : List (κ × List Int))
    (h : ∀ e ∈ l, ∃ r, profRow factor e.2 = .ok r ∧ RowFor factor e.2 r) :
    ∃ rows, profRows factor l = .ok rows ∧ List.Forall₂ (fun (e : κ × List Int) r => r.1 = e.1 ∧ RowFor factor e.2 r.2) l rows := by
  induction l with
  | nil => exact ⟨[], rfl, .nil⟩
  | cons e l ih =>
    obtain ⟨k, v⟩ := e
    obtain ⟨r, hr, hw⟩ := h (k, v) (by simp)
    obtain ⟨rows, h1, h2⟩ := ih fun e he => h e (by simp [he])
    refine ⟨(k, r) :: rows, ?_, .cons ⟨rfl, hw⟩ h2⟩
    simp only [profRows, hr, h1, Outcome.bind_ok]
    rfl

theorem rowFor_perm {factor : Rat} {l l' : List Int} {r : ProfRow} (hp : l.Perm l') (h : RowFor factor l r) : RowFor factor l' r := by
  obtain ⟨h1, h2, ⟨m, hm, hm1, hm2⟩, ⟨n, hn, hn1, hn2⟩, ⟨a, ha⟩⟩ := h
  refine ⟨h1.trans hp.length_eq, hp.sum_eq ▸ h2, ⟨m, hp.mem_iff.mp hm, fun x hx => hm1 x (hp.mem_iff.mpr hx), hm2⟩,
    ⟨n, hp.mem_iff.mp hn, fun x hx => hn1 x (hp.mem_iff.mpr hx), hn2⟩, ⟨a, ?_⟩⟩
  rw [← hp.length_eq, ← hp.sum_eq]; exact ha

theorem forall₂_keys {κ : Type} {factor : Rat} {l : List (κ × List Int)} {rows : List (κ × ProfRow)}
    (h : List.Forall₂ (fun (e : κ × List Int) r => r.1 = e.1 ∧ RowFor factor e.2 r.2) l rows) : rows.map (·.1) = l.map (·.1) := by
  induction h with
  | nil => rfl
  | cons h _ ih => rw [List.map_cons, List.map_cons, ih, h.1]

theorem forall₂_mem {κ : Type} {factor : Rat} {l : List (κ × List Int)} {rows : List (κ × ProfRow)}
    (h : List.Forall₂ (fun (e : κ × List Int) r => r.1 = e.1 ∧ RowFor factor e.2 r.2) l rows) {r : κ × ProfRow} (hr : r ∈ rows) :
    ∃ e ∈ l, r.1 = e.1 ∧ RowFor factor e.2 r.2 := by
  induction h with
  | nil => cases hr
  | @cons e r' l rows h _ ih =>
    rcases List.mem_cons.mp hr with rfl | hr
    · exact ⟨e, by simp, h⟩
    · obtain ⟨e', he', hh⟩ := ih hr
      exact ⟨e', by simp [he'], hh⟩

theorem sum_filterMap_le {α : Type} (l : List α) (f g : α → Option Int) (h : ∀ a ∈ l, ∀ x, f a = some x → g a = some x)
    (h0 : ∀ a ∈ l, ∀ x, g a = some x → 0 ≤ x) : (l.filterMap f).sum ≤ (l.filterMap g).sum := by
  induction l with
  | nil => simp
  | cons a l ih =>
    have ih := ih (fun b hb => h b (by simp [hb])) fun b hb => h0 b (by simp [hb])
    cases hf : f a with
    | none =>
      cases hg : g a with
      | none => simpa [List.filterMap_cons, hf, hg] using ih
      | some x =>
        have := h0 a (by simp) x hg
        simp only [List.filterMap_cons, hf, hg, List.sum_cons]
        omega
    | some x =>
      have hg := h a (by simp) x hf
      simp only [List.filterMap_cons, hf, hg, List.sum_cons]
      omega

section
variable {β τ : Type} [DecidableEq β] [DecidableEq τ]

/-- **C79 (one line per block, partial)**: if no clock goes backwards, every block that was entered has been left at
least once, and the totals are not too long for an `int` of the unit shown, then the merged table is printed, has
exactly one line for every block that was entered, and the line counts each execution, by whatever thread, once:
right number, total, least, greatest and (rounded down) average time. Missing: the three conditions, see below. -/
theorem C79_merged_partial (factor : Rat) (hf : 0 ≤ factor) (es : List (ProfEv β τ)) (t : ProfTable β τ) (h : profRun [] es = .ok t)
    (hc : ∀ b th d, ProfEv.leave b th d ∈ es → 0 ≤ d) (hl : ∀ b th, ProfEv.enter b th ∈ es → ∃ th' d, ProfEv.leave b th' d ∈ es)
    (hs : ∀ b, (timesOf es b).sum < 2 ^ 63 ∧ ((timesOf es b).sum : Rat) * factor < 2 ^ 31) :
    ∃ rows, profReport true factor t = .ok rows ∧ (rows.map (·.1)).Nodup ∧
      (∀ b, b ∈ rows.map (·.1) ↔ ∃ th, ProfEv.enter b th ∈ es) ∧
      ∀ r ∈ rows, RowFor factor (timesOf es r.1) r.2 := by
  have inv := prof_inv es t h
  have hin : ∀ e ∈ t, inn t e.1 = e.2 := by
    intro e he
    rw [inn, getKey_of_mem inv.keys (k := e.1) (a := e.2) he]; rfl
  have hrow : ∀ e ∈ t.map (fun e => (e.1, (e.2.map (·.2)).flatten)), ∃ r, profRow factor e.2 = .ok r ∧ RowFor factor e.2 r := by
    intro e he
    obtain ⟨a, ha, rfl⟩ := List.mem_map.mp he
    have hp := inv.merged a.1
    rw [hin a ha] at hp
    have h0 : ∀ x ∈ timesOf es a.1, 0 ≤ x := by
      intro x hx
      obtain ⟨ev, hev, hx⟩ := List.mem_filterMap.mp hx
      cases ev with
      | enter _ _ => cases hx
      | leave b' th d =>
        simp only [timeIn] at hx
        split at hx
        · cases hx; exact hc _ _ _ hev
        · cases hx
    have hne : timesOf es a.1 ≠ [] := by
      obtain ⟨th, hth⟩ := (inv.blocks a.1).mp (List.mem_map.mpr ⟨a, ha, rfl⟩)
      obtain ⟨th', d, hd⟩ := hl _ _ hth
      exact List.ne_nil_of_mem (List.mem_filterMap.mpr ⟨_, hd, by simp [timeIn]; rfl⟩)
    refine profRow_ok hf ?_ (fun x hx => h0 x (hp.mem_iff.mp hx)) ?_ ?_
    · intro e; simp only at e; rw [e] at hp; exact hne hp.symm.eq_nil
    · rw [hp.sum_eq]; exact (hs _).1
    · rw [hp.sum_eq]; exact (hs _).2
  obtain ⟨rows, h1, h2⟩ := profRows_ok _ hrow
  have hk : rows.map (·.1) = t.map (·.1) := by rw [forall₂_keys h2, List.map_map]; rfl
  refine ⟨rows, by simp only [profReport, if_true]; exact h1, hk ▸ inv.keys, fun b => by rw [hk]; exact inv.blocks b, ?_⟩
  intro r hr
  obtain ⟨e, he, hr1, hr2⟩ := forall₂_mem h2 hr
  obtain ⟨a, ha, rfl⟩ := List.mem_map.mp he
  rw [hr1]
  have hp := inv.merged a.1
  rw [hin a ha] at hp
  exact rowFor_perm hp hr2

/-- **C79 (one line per block and thread, partial)**: the same for the table that is not merged: every line is that of one
thread that entered the block. -/
theorem C79_threads_partial (factor : Rat) (hf : 0 ≤ factor) (es : List (ProfEv β τ)) (t : ProfTable β τ) (h : profRun [] es = .ok t)
    (hc : ∀ b th d, ProfEv.leave b th d ∈ es → 0 ≤ d) (hl : ∀ b th, ProfEv.enter b th ∈ es → ∃ d, ProfEv.leave b th d ∈ es)
    (hs : ∀ b, (timesOf es b).sum < 2 ^ 63 ∧ ((timesOf es b).sum : Rat) * factor < 2 ^ 31) :
    ∃ rows, profReport false factor t = .ok rows ∧
      (∀ r ∈ rows, ∃ th, ProfEv.enter r.1 th ∈ es ∧ RowFor factor (timesOfBy es r.1 th) r.2) ∧
      ∀ b th, ProfEv.enter b th ∈ es → ∃ r ∈ rows, r.1 = b ∧ RowFor factor (timesOfBy es b th) r.2 := by
  have inv := prof_inv es t h
  have hin : ∀ e ∈ t, inn t e.1 = e.2 := by
    intro e he
    rw [inn, getKey_of_mem inv.keys (k := e.1) (a := e.2) he]; rfl
  -- every vector of the table is that of a thread
  have hvec : ∀ e ∈ t, ∀ v ∈ e.2, ProfEv.enter e.1 v.1 ∈ es ∧ v.2 = timesOfBy es e.1 v.1 := by
    intro e he v hv
    have hi := hin e he
    refine ⟨(inv.threads e.1 v.1).mp (hi ▸ List.mem_map.mpr ⟨v, hv, rfl⟩), ?_⟩
    rw [← inv.single e.1 v.1, hi, getKey_of_mem (hi ▸ inv.inner e.1) (k := v.1) (a := v.2) hv]; rfl
  have hrow : ∀ e ∈ t.flatMap (fun e => e.2.map fun v => (e.1, v.2)), ∃ r, profRow factor e.2 = .ok r ∧ RowFor factor e.2 r := by
    intro e he
    obtain ⟨a, ha, he⟩ := List.mem_flatMap.mp he
    obtain ⟨v, hv, rfl⟩ := List.mem_map.mp he
    obtain ⟨hen, hve⟩ := hvec a ha v hv
    simp only [hve]
    have h0 : ∀ ev ∈ es, ∀ x, timeIn a.1 ev = some x → 0 ≤ x := by
      intro ev hev x hx
      cases ev with
      | enter _ _ => cases hx
      | leave b' th d =>
        simp only [timeIn] at hx
        split at hx
        · cases hx; exact hc _ _ _ hev
        · cases hx
    have hsub : ∀ ev ∈ es, ∀ x, timeInBy a.1 v.1 ev = some x → timeIn a.1 ev = some x := by
      intro ev _ x hx
      cases ev with
      | enter _ _ => cases hx
      | leave b' th d =>
        simp only [timeInBy] at hx
        split at hx
        · rename_i hb
          simp only [timeIn, if_pos hb.1]; exact hx
        · cases hx
    have hle : (timesOfBy es a.1 v.1).sum ≤ (timesOf es a.1).sum := sum_filterMap_le es _ _ hsub h0
    refine profRow_ok hf ?_ ?_ (lt_of_le_of_lt hle (hs a.1).1) (lt_of_le_of_lt ?_ (hs a.1).2)
    · obtain ⟨d, hd⟩ := hl _ _ hen
      exact List.ne_nil_of_mem (List.mem_filterMap.mpr ⟨_, hd, by simp [timeInBy]; rfl⟩)
    · intro x hx
      obtain ⟨ev, hev, hx⟩ := List.mem_filterMap.mp hx
      exact h0 ev hev x (hsub ev hev x hx)
    · exact mul_le_mul_of_nonneg_right (by exact_mod_cast hle) hf
  obtain ⟨rows, h1, h2⟩ := profRows_ok _ hrow
  refine ⟨rows, by simp only [profReport, Bool.false_eq_true, if_false]; exact h1, ?_, ?_⟩
  · intro r hr
    obtain ⟨e, he, hr1, hr2⟩ := forall₂_mem h2 hr
    obtain ⟨a, ha, he⟩ := List.mem_flatMap.mp he
    obtain ⟨v, hv, rfl⟩ := List.mem_map.mp he
    obtain ⟨hen, hve⟩ := hvec a ha v hv
    rw [hr1]
    exact ⟨v.1, hen, hve ▸ hr2⟩
  · intro b th hen
    obtain ⟨v, hv, rfl⟩ := List.mem_map.mp ((inv.threads b th).mpr hen)
    have hb : b ∈ t.map (·.1) := (inv.blocks b).mpr ⟨_, hen⟩
    obtain ⟨a, ha, rfl⟩ := List.mem_map.mp hb
    rw [hin a ha] at hv
    have he : (a.1, v.2) ∈ t.flatMap (fun e => e.2.map fun v => (e.1, v.2)) :=
      List.mem_flatMap.mpr ⟨a, ha, List.mem_map.mpr ⟨v, hv, rfl⟩⟩
    obtain ⟨i, hi, hie⟩ := List.getElem_of_mem he
    have hlen := h2.length_eq
    refine ⟨rows[i]'(by omega), List.getElem_mem _, ?_⟩
    have := h2.get hi (by omega)
    simp only [List.get_eq_getElem, hie] at this
    rw [← (hvec a ha v hv).2]
    exact this

end

/-- Two executions by different threads, and one more. -/
def profDemo : List (ProfEv Nat Nat) :=
  [.enter 0 1, .enter 0 2, .leave 0 2 1500, .leave 0 1 3000, .enter 5 1, .leave 5 1 10, .enter 0 1, .leave 0 1 2500]

/-- The tables in milliseconds. -/
example : (profRun [] profDemo >>= profReport true (1 / 1000)) =
    .ok [(0, ⟨3, some 2, some 7, some 1, some 3⟩), (5, ⟨1, none, none, none, none⟩)] := by decide +kernel

example : (profRun [] profDemo >>= profReport false (1 / 1000)) =
    .ok [(0, ⟨2, some 2, some 5, some 2, some 3⟩), (0, ⟨1, some 1, some 1, some 1, some 1⟩),
      (5, ⟨1, none, none, none, none⟩)] := by decide +kernel

/-- **C79 fails (a block not left)**: if a block has been entered and never left, printing the table is undefined. -/
theorem C79_open_fails : (profRun [] [ProfEv.enter 0 0] >>= profReport (β := Nat) (τ := Nat) true 1) = .ub := by decide +kernel

/-- **C79 fails (clock set back)**: one time of minus one microsecond among two, and the average is nonsense. -/
theorem C79_clock_fails : getStatistics [-1, 0] = .ok ⟨2, 2 ^ 63 - 1, 0, -1, -1⟩ := by decide +kernel

theorem sum64_ub : ∀ (l : List Int) (s : Int), 0 ≤ s → s < 2 ^ 63 → (∀ d ∈ l, 0 ≤ d) → 2 ^ 63 ≤ s + l.sum → sum64 s l = .ub
  | [], s, _, h1, _, h2 => by simp at h2; omega
  | d :: r, s, h0, h1, hd, h2 => by
    have hd0 := hd d (by simp)
    rw [List.sum_cons] at h2
    rw [sum64]
    split
    · exact sum64_ub r (s + d) (by omega) (by omega) (fun x hx => hd x (by simp [hx])) (by omega)
    · rfl

/-- C79: the statistics of times that are not negative exist exactly if there is one and their sum fits 63 bits. -/
theorem C79_overflow (l : List Int) (hl : l ≠ []) (hd : ∀ d ∈ l, 0 ≤ d) : getStatistics l = .ub ↔ 2 ^ 63 ≤ l.sum := by
  have hp := List.perm_insertionSort (fun a b : Int => a ≤ b) l
  have hsum : (l.insertionSort (fun a b => a ≤ b)).sum = l.sum := hp.sum_eq
  have hmem : ∀ d ∈ l.insertionSort (fun a b => a ≤ b), 0 ≤ d := fun d h => hd d (hp.mem_iff.mp h)
  have hne : l.insertionSort (fun a b => a ≤ b) ≠ [] := fun e => hl (List.Perm.nil_eq (e ▸ hp)).symm
  unfold getStatistics
  generalize l.insertionSort (fun a b => a ≤ b) = s at *
  dsimp only
  rw [List.head?_eq_some_head hne, List.getLast?_eq_some_getLast hne]
  dsimp only
  constructor
  · intro h
    by_contra hc
    rw [sum64_ok s 0 (by omega) hmem (by omega)] at h
    cases h
  · intro h
    rw [sum64_ub s 0 (by omega) (by norm_num) hmem (by omega)]
    rfl

/-- C79: a single time is its own average, also a negative one. -/
theorem C79_single (d : Int) (h1 : -2 ^ 63 ≤ d) (h2 : d < 2 ^ 63) : getStatistics [d] = .ok ⟨1, d, d, d, d⟩ := by
  have e : toI64 (toU64 d / 1) = d := by
    unfold toI64 toU64
    rw [Nat.div_one]
    split <;> omega
  unfold getStatistics
  rw [Nat.div_one] at e
  simp [sum64, e, Outcome.pure_eq]
  constructor <;> omega

/-- **C79 fails (long runs)**: in microseconds the table cannot be printed once a block has taken 36 minutes in all. -/
theorem C79_long_fails : (profRun [] [ProfEv.enter 0 0, .leave 0 0 2147483648] >>= profReport (β := Nat) (τ := Nat) true 1) = .ub := by
  decide +kernel

end Verif
