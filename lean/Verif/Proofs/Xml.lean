import Verif.Spec.Xml
import Mathlib.Tactic.IntervalCases
import Mathlib.Data.List.TakeWhile
/-
Lemmas on the XML writer and parser (C101).
-/
namespace Verif
open Verif.Spec

theorem isXmlStart_iff (c : Char) : isXmlStart c = true ↔ NameStart c := by
  unfold isXmlStart NameStart Char.isAlpha Char.isUpper Char.isLower
  simp only [Bool.or_eq_true, Bool.and_eq_true, decide_eq_true_eq, Char.toNat, UInt32.le_iff_toNat_le,
    ge_iff_le]
  constructor
  · rintro ((((⟨h1, h2⟩ | ⟨h1, h2⟩) | h) | h) | h)
    · exact .inl (.inl ⟨h1, h2⟩)
    · exact .inl (.inr ⟨h1, h2⟩)
    · exact .inr (.inl h)
    · exact .inr (.inr (.inl h))
    · exact .inr (.inr (.inr h))
  · rintro ((⟨h1, h2⟩ | ⟨h1, h2⟩) | h | h | h)
    · exact .inl (.inl (.inl (.inl ⟨h1, h2⟩)))
    · exact .inl (.inl (.inl (.inr ⟨h1, h2⟩)))
    · exact .inl (.inl (.inr h))
    · exact .inl (.inr h)
    · exact .inr h

theorem isXmlSymbol_iff (c : Char) : isXmlSymbol c = true ↔ NameChar c := by
  unfold isXmlSymbol NameChar
  rw [← isXmlStart_iff]
  unfold Char.isDigit
  simp only [Bool.or_eq_true, Bool.and_eq_true, decide_eq_true_eq, Char.toNat, UInt32.le_iff_toNat_le,
    ge_iff_le]
  constructor
  · rintro (((h | h) | h) | h)
    · exact .inl h
    · exact .inr (.inl h)
    · exact .inr (.inr (.inl h))
    · exact .inr (.inr (.inr h))
  · rintro (h | h | h | h)
    · exact .inl (.inl (.inl h))
    · exact .inl (.inl (.inr h))
    · exact .inl (.inr h)
    · exact .inr h

theorem xmlStart_symbol {c : Char} (h : isXmlStart c = true) : isXmlSymbol c = true := by
  unfold isXmlSymbol; simp [h]

theorem xmlName_symbols {n : List Char} (h : XmlName n) : ∀ c ∈ n, isXmlSymbol c = true :=
  fun c hc => (isXmlSymbol_iff c).2 (h.2 c hc)

theorem xmlName_cons {n : List Char} (h : XmlName n) :
    ∃ c r, n = c :: r ∧ isXmlStart c = true := by
  obtain ⟨⟨c, r, rfl, hc⟩, _⟩ := h
  exact ⟨c, r, rfl, (isXmlStart_iff c).2 hc⟩

theorem take_name {n r : List Char} (h : ∀ c ∈ n, isXmlSymbol c = true)
    (hr : ∀ c t, r = c :: t → isXmlSymbol c = false) :
    (n ++ r).takeWhile isXmlSymbol = n ∧ (n ++ r).dropWhile isXmlSymbol = r := by
  rw [List.takeWhile_append_of_pos h, List.dropWhile_append_of_pos h]
  cases r with
  | nil => simp
  | cons c t => simp [hr c t rfl]

/-! Escapes -/

theorem ctl_cases {c : Char} (h : c.toNat < 32) : c = Char.ofNat c.toNat := by
  simp [Char.ofNat_toNat]

theorem xmlEscape_ctl {c : Char} (h : c.toNat < 32) (r : List Char) :
    xmlEscape ('#' :: digitChar (c.toNat / 10) :: digitChar (c.toNat % 10) :: ';' :: r) = ([c], r) := by
  have hc := ctl_cases h
  generalize c.toNat = k at h hc
  subst hc
  interval_cases k <;> rfl

theorem attrVal_esc : ∀ (v : List Char) (n : Nat) (r : List Char), v.length < n → XmlValue v →
    attrVal n '"' (escAttr v ++ '"' :: r) = some (noTabs v, r) := by
  intro v
  induction v with
  | nil =>
    intro n r hn _
    obtain ⟨n, rfl⟩ : ∃ k, n = k + 1 := ⟨n - 1, by simp at hn; omega⟩
    simp [escAttr, attrVal, noTabs]
  | cons c v ih =>
    intro n r hn hv
    obtain ⟨n, rfl⟩ : ∃ k, n = k + 1 := ⟨n - 1, by simp at hn; omega⟩
    have hv' : XmlValue v := fun h => hv (List.mem_cons_of_mem _ h)
    have ih := ih n r (by simp at hn; omega) hv'
    have e : escAttr (c :: v) ++ '"' :: r = escAttrChar c ++ (escAttr v ++ '"' :: r) := by
      simp [escAttr]
    rw [e]
    generalize escAttr v ++ '"' :: r = s at ih ⊢
    have hn2 : noTabs (c :: v) = (if c = '\t' then ' ' else c) :: noTabs v := rfl
    rw [hn2]
    unfold escAttrChar
    by_cases h1 : c = '&'
    · subst h1; simp [attrVal, xmlEscape, isXmlSpace, ih]
    by_cases h2 : c = '<'
    · subst h2; simp [attrVal, xmlEscape, isXmlSpace, ih]
    by_cases h3 : c = '>'
    · subst h3; simp [attrVal, xmlEscape, isXmlSpace, ih]
    by_cases h4 : c = '"'
    · subst h4; simp [attrVal, xmlEscape, isXmlSpace, ih]
    rw [if_neg h1, if_neg h2, if_neg h3, if_neg h4]
    by_cases h5 : c.toNat < 32 ∧ c ≠ '\t'
    · rw [if_pos h5, if_neg h5.2]
      have hx := xmlEscape_ctl h5.1 s
      simp only [List.cons_append, List.nil_append]
      unfold attrVal
      simp only [hx, ih]
      simp [isXmlSpace]
    · rw [if_neg h5]
      simp only [List.cons_append, List.nil_append]
      unfold attrVal
      have hs : isXmlSpace c = true → c = '\t' ∨ c = ' ' := by
        unfold isXmlSpace
        simp only [Bool.or_eq_true, decide_eq_true_eq]
        rintro (((h | h) | h) | h)
        · exact .inl h
        · subst h; exact absurd ⟨by decide, by decide⟩ h5
        · subst h; exact absurd ⟨by decide, by decide⟩ h5
        · exact .inr h
      by_cases hsp : isXmlSpace c = true
      · rcases hs hsp with h | h <;> subst h <;> simp [ih, isXmlSpace]
      · have h6 : c ≠ '\t' := by rintro rfl; exact hsp (by decide)
        simp [h1, h4, h6, hsp, ih]

/-! What is left to read is always a suffix -/

theorem escDec_suffix : ∀ (s : List Char) (acc k : Nat) (r : List Char),
    escDec acc s = some (k, r) → r <:+ s := by
  intro s
  induction s with
  | nil => intro acc k r h; simp [escDec] at h
  | cons c s ih =>
    intro acc k r h
    unfold escDec at h
    split_ifs at h with h1 h2
    · exact (ih _ _ _ h).trans (List.suffix_cons _ _)
    · simp only [Option.some.injEq, Prod.mk.injEq] at h
      rw [← h.2]; exact List.suffix_cons _ _

theorem escHex_suffix : ∀ (s : List Char) (acc k : Nat) (r : List Char),
    escHex acc s = some (k, r) → r <:+ s := by
  intro s
  induction s with
  | nil => intro acc k r h; simp [escHex] at h
  | cons c s ih =>
    intro acc k r h
    unfold escHex at h
    split_ifs at h with h1 h2 h3 h4
    · exact (ih _ _ _ h).trans (List.suffix_cons _ _)
    · exact (ih _ _ _ h).trans (List.suffix_cons _ _)
    · exact (ih _ _ _ h).trans (List.suffix_cons _ _)
    · simp only [Option.some.injEq, Prod.mk.injEq] at h
      rw [← h.2]; exact List.suffix_cons _ _

theorem suffix_of_append {a b : List Char} : b <:+ a ++ b := List.suffix_append _ _

theorem xmlEscape_suffix (s : List Char) : (xmlEscape s).2 <:+ s := by
  unfold xmlEscape
  split
  · exact List.suffix_refl _
  · rename_i r _
    split
    · rename_i n r' h
      exact (escHex_suffix _ _ _ _ h).trans ⟨['#', 'x'], rfl⟩
    · exact List.suffix_refl _
  · exact List.suffix_refl _
  · rename_i r _ _
    split
    · rename_i n r' h
      exact (escDec_suffix _ _ _ _ h).trans ⟨['#'], rfl⟩
    · exact List.suffix_refl _
  · exact ⟨['a', 'm', 'p', ';'], rfl⟩
  · exact ⟨['a', 'p', 'o', 's', ';'], rfl⟩
  · exact ⟨['g', 't', ';'], rfl⟩
  · exact ⟨['l', 't', ';'], rfl⟩
  · exact ⟨['q', 'u', 'o', 't', ';'], rfl⟩
  · exact List.suffix_refl _

theorem dropLf_suffix (r : List Char) : dropLf r <:+ r := by
  unfold dropLf
  split
  · exact List.suffix_cons _ _
  · exact List.suffix_refl _

theorem crlf_suffix (c : Char) (r : List Char) :
    (if c = '\r' then dropLf r else r) <:+ r := by
  split_ifs
  · exact dropLf_suffix r
  · exact List.suffix_refl _

theorem attrVal_suffix : ∀ (n : Nat) (q : Char) (s v t : List Char),
    attrVal n q s = some (v, t) → q :: t <:+ s := by
  intro n
  induction n with
  | zero => intro q s v t h; simp [attrVal] at h
  | succ n ih =>
    intro q s v t h
    cases s with
    | nil => simp [attrVal] at h
    | cons c r =>
      unfold attrVal at h
      dsimp only at h
      split_ifs at h with h1 h2 h3 h4
      · simp only [Option.some.injEq, Prod.mk.injEq] at h
        rw [h1, h.2]; exact List.suffix_refl _
      · have hr : dropLf r <:+ r := dropLf_suffix r
        generalize dropLf r = r' at h hr
        cases ha : attrVal n q r' with
        | none => simp [ha] at h
        | some w =>
          simp only [ha, Option.some.injEq, Prod.mk.injEq] at h
          have := ih q r' w.1 w.2 ha
          rw [h.2] at this
          exact (this.trans hr).trans (List.suffix_cons _ _)
      · cases ha : attrVal n q r with
        | none => simp [ha] at h
        | some w =>
          simp only [ha, Option.some.injEq, Prod.mk.injEq] at h
          have := ih q r w.1 w.2 ha
          rw [h.2] at this
          exact this.trans (List.suffix_cons _ _)
      · cases ha : attrVal n q (xmlEscape r).2 with
        | none => simp [ha] at h
        | some w =>
          simp only [ha, Option.some.injEq, Prod.mk.injEq] at h
          have := ih q _ w.1 w.2 ha
          rw [h.2] at this
          exact (this.trans (xmlEscape_suffix r)).trans (List.suffix_cons _ _)
      · cases ha : attrVal n q r with
        | none => simp [ha] at h
        | some w =>
          simp only [ha, Option.some.injEq, Prod.mk.injEq] at h
          have := ih q r w.1 w.2 ha
          rw [h.2] at this
          exact this.trans (List.suffix_cons _ _)

/-- The bound on the number of steps does not matter. -/
theorem attrVal_fuel : ∀ (n m : Nat) (q : Char) (s : List Char), s.length < n → s.length < m →
    attrVal n q s = attrVal m q s := by
  intro n
  induction n with
  | zero => intro m q s h; omega
  | succ n ih =>
    intro m q s hn hm
    obtain ⟨m, rfl⟩ : ∃ k, m = k + 1 := ⟨m - 1, by omega⟩
    cases s with
    | nil => rfl
    | cons c r =>
      simp only [List.length_cons] at hn hm
      have hr : attrVal n q r = attrVal m q r := ih m q r (by omega) (by omega)
      have he : attrVal n q (xmlEscape r).2 = attrVal m q (xmlEscape r).2 := by
        have := (xmlEscape_suffix r).length_le
        exact ih m q _ (by omega) (by omega)
      have hc : attrVal n q (if c = '\r' then dropLf r else r) =
          attrVal m q (if c = '\r' then dropLf r else r) := by
        have := (crlf_suffix c r).length_le
        exact ih m q _ (by omega) (by omega)
      unfold attrVal
      dsimp only
      rw [hr, he, hc]

theorem xmlAttrs_suffix : ∀ (n : Nat) (s : List Char) (acc a : XmlAttrs) (b : Bool) (t : List Char),
    xmlAttrs n s acc = .ok (a, b, t) → '>' :: t <:+ s := by
  intro n
  induction n with
  | zero => intro s acc a b t h; simp [xmlAttrs] at h
  | succ n ih =>
    intro s acc a b t h
    unfold xmlAttrs at h
    have hs0 : s.dropWhile isXmlSpace <:+ s := List.dropWhile_suffix _
    generalize s.dropWhile isXmlSpace = s0 at h hs0
    cases s0 with
    | nil => simp at h
    | cons c r =>
      dsimp only at h
      refine List.IsSuffix.trans ?_ hs0
      split_ifs at h with h1 h2 h3
      · have hs1 : ((c :: r).dropWhile isXmlSymbol).dropWhile isXmlSpace <:+ c :: r :=
          (List.dropWhile_suffix _).trans (List.dropWhile_suffix _)
        generalize ((c :: r).dropWhile isXmlSymbol).dropWhile isXmlSpace = s1 at h hs1
        refine List.IsSuffix.trans ?_ hs1
        split at h
        · rename_i r2
          have hs2 : r2.dropWhile isXmlSpace <:+ '=' :: r2 :=
            (List.dropWhile_suffix _).trans (List.suffix_cons _ _)
          generalize r2.dropWhile isXmlSpace = s2 at h hs2
          refine List.IsSuffix.trans ?_ hs2
          cases s2 with
          | nil => simp at h
          | cons q r3 =>
            dsimp only at h
            split_ifs at h with hq
            cases hv : attrVal (r3.length + 1) q r3 with
            | none => simp [hv] at h
            | some w =>
              simp only [hv] at h
              split_ifs at h with hh
              have h4 := ih _ _ _ _ _ h
              have h5 := attrVal_suffix _ _ _ _ _ hv
              exact ((h4.trans (List.suffix_cons _ _)).trans h5).trans (List.suffix_cons _ _)
        · simp at h
      · split at h
        · simp only [Except.ok.injEq, Prod.mk.injEq] at h
          rw [← h.2.2]; exact List.suffix_cons _ _
        · simp at h
      · simp only [Except.ok.injEq, Prod.mk.injEq] at h
        rw [← h.2.2, h3]; exact List.suffix_refl _

theorem skipPast_suffix (pat : List Char) : ∀ (s t : List Char), skipPast pat s = some t →
    pat ++ t <:+ s := by
  intro s
  induction s with
  | nil => intro t h; simp [skipPast] at h
  | cons c r ih =>
    intro t h
    unfold skipPast at h
    split_ifs at h with hp
    · obtain ⟨u, hu⟩ := hp
      rw [← hu] at h ⊢
      simp only [List.drop_left, Option.some.injEq] at h
      rw [h]; exact List.suffix_refl _
    · exact (ih t h).trans (List.suffix_cons _ _)

theorem xmlQuestion_suffix (s t : List Char) (h : xmlQuestion s = .ok t) : '>' :: t <:+ s := by
  unfold xmlQuestion at h
  cases s with
  | nil => simp at h
  | cons c r =>
    dsimp only at h
    split_ifs at h with h1
    have hd : (c :: r).dropWhile isXmlSymbol <:+ c :: r := List.dropWhile_suffix _
    generalize (c :: r).dropWhile isXmlSymbol = s1 at h hd
    refine List.IsSuffix.trans ?_ hd
    cases s1 with
    | nil => simp at h
    | cons d u =>
      dsimp only at h
      cases hp : skipPast ['?', '>'] (d :: u) with
      | none => simp [hp] at h
      | some w =>
        simp only [hp, Except.ok.injEq] at h
        rw [← h]
        exact List.IsSuffix.trans (l₂ := ['?', '>'] ++ w) ⟨['?'], rfl⟩ (skipPast_suffix _ _ w hp)

theorem doctypeIgnore_suffix : ∀ (d : Nat) (s t : List Char), doctypeIgnore d s = some t → t <:+ s := by
  intro d s
  induction d, s using doctypeIgnore.induct with
  | case1 d => intro t h; simp [doctypeIgnore] at h
  | case2 d r ih =>
    intro t h
    unfold doctypeIgnore at h
    exact (ih t h).trans ⟨['<', '!', '['], rfl⟩
  | case3 r =>
    intro t h
    unfold doctypeIgnore at h
    simp only [if_true, Option.some.injEq] at h
    rw [← h]
    exact ⟨[']', ']', '>'], rfl⟩
  | case4 d r hd ih =>
    intro t h
    simp only [doctypeIgnore, hd, if_false] at h
    exact (ih t h).trans ⟨[']', ']', '>'], rfl⟩
  | case5 d c r h1 h2 ih =>
    intro t h
    rw [doctypeIgnore.eq_4 d c r h1 h2] at h
    exact (ih t h).trans (List.suffix_cons _ _)

theorem doctypeGroup_suffix : ∀ (n d : Nat) (s t : List Char), doctypeGroup n d s = some t → '>' :: t <:+ s := by
  intro n
  induction n with
  | zero => intro d s t h; simp [doctypeGroup] at h
  | succ n ih =>
    intro d s t h
    cases s with
    | nil => simp [doctypeGroup] at h
    | cons c r =>
      have past : ∀ (pat u : List Char), (skipPast pat u).bind (doctypeGroup n d) = some t → '>' :: t <:+ u := by
        intro pat u h
        rw [Option.bind_eq_some_iff] at h
        obtain ⟨w, h1, h2⟩ := h
        exact (ih d w t h2).trans (List.IsSuffix.trans (l₂ := pat ++ w) ⟨pat, rfl⟩ (skipPast_suffix _ _ w h1))
      unfold doctypeGroup at h
      split_ifs at h with h1 h2 h3 h4
      · split at h
        · exact (past _ _ h).trans ⟨[c, '!', '-', '-'], rfl⟩
        · cases h
        · rw [Option.bind_eq_some_iff] at h
          obtain ⟨w, g1, g2⟩ := h
          exact ((ih d w t g2).trans (doctypeIgnore_suffix _ _ _ g1)).trans ⟨[c, '!', '['], rfl⟩
        · exact (ih _ _ t h).trans ⟨[c, '!'], rfl⟩
        · exact (past _ _ h).trans ⟨[c, '?'], rfl⟩
        · cases h
      · exact (past _ _ h).trans (List.suffix_cons _ _)
      · rw [Option.some.injEq] at h
        rw [← h, h3]
        exact List.suffix_rfl
      · exact (ih _ _ t h).trans (List.suffix_cons _ _)
      · exact (ih _ _ t h).trans (List.suffix_cons _ _)

theorem xmlBang_suffix (s t : List Char) (st st' : XmlState) (h : xmlBang s st = .ok (t, st')) :
    '>' :: t <:+ s := by
  unfold xmlBang at h
  split at h
  · rename_i r
    cases hp : skipPast ['-', '-', '>'] r with
    | none => simp [hp] at h
    | some w =>
      simp only [hp, Except.ok.injEq, Prod.mk.injEq] at h
      rw [← h.1]
      exact (List.IsSuffix.trans (l₂ := ['-', '-', '>'] ++ w) ⟨['-', '-'], rfl⟩ (skipPast_suffix _ _ w hp)).trans ⟨['-', '-'], rfl⟩
  · simp at h
  · rename_i r
    cases hp : skipPast [']', ']', '>'] r with
    | none => simp [hp] at h
    | some w =>
      simp only [hp, Except.ok.injEq, Prod.mk.injEq] at h
      rw [← h.1]
      exact (List.IsSuffix.trans (l₂ := [']', ']', '>'] ++ w) ⟨[']', ']'], rfl⟩ (skipPast_suffix _ _ w hp)).trans
        ⟨['[', 'C', 'D', 'A', 'T', 'A', '['], rfl⟩
  · simp at h
  · rename_i r
    split_ifs at h with ho
    cases hp : doctypeGroup (r.length + 1) 0 r with
    | none => simp [hp] at h
    | some w =>
      simp only [hp, Except.ok.injEq, Prod.mk.injEq] at h
      rw [← h.1]
      exact (doctypeGroup_suffix _ _ _ _ hp).trans ⟨['D', 'O', 'C', 'T', 'Y', 'P', 'E'], rfl⟩
  · simp at h

theorem xmlClose_suffix (s t : List Char) (st st' : XmlState) (h : xmlClose s st = .ok (t, st')) :
    '>' :: t <:+ s := by
  unfold xmlClose at h
  cases hf : st.open_ with
  | nil => simp [hf] at h
  | cons f fs =>
    simp only [hf] at h
    split_ifs at h with h1
    have hd : (s.dropWhile isXmlSymbol).dropWhile isXmlSpace <:+ s :=
      (List.dropWhile_suffix _).trans (List.dropWhile_suffix _)
    generalize (s.dropWhile isXmlSymbol).dropWhile isXmlSpace = s1 at h hd
    split at h
    · simp only [Except.ok.injEq, Prod.mk.injEq] at h
      rw [← h.1]; exact hd
    · simp at h

theorem xmlOpen_suffix (s t : List Char) (st st' : XmlState) (h : xmlOpen s st = .ok (t, st')) :
    '>' :: t <:+ s := by
  unfold xmlOpen at h
  dsimp only at h
  have hd : s.dropWhile isXmlSymbol <:+ s := List.dropWhile_suffix _
  generalize s.dropWhile isXmlSymbol = s1 at h hd
  cases s1 with
  | nil => simp at h
  | cons c r =>
    refine List.IsSuffix.trans ?_ hd
    dsimp only at h
    split_ifs at h with h1 h2 h3
    · simp only [Except.ok.injEq, Prod.mk.injEq] at h
      rw [← h.1, h1]; exact List.suffix_refl _
    · cases ha : xmlAttrs (r.length + 1) r [] with
      | error e => simp [ha] at h
      | ok w =>
        obtain ⟨a, b, u⟩ := w
        simp only [ha, Except.ok.injEq, Prod.mk.injEq] at h
        rw [← h.1]
        exact (xmlAttrs_suffix _ _ _ _ _ _ ha).trans (List.suffix_cons _ _)
    · split at h
      · simp only [Except.ok.injEq, Prod.mk.injEq] at h
        rw [← h.1]; exact List.suffix_cons _ _
      · simp at h

theorem xmlTag_suffix (s t : List Char) (st st' : XmlState) (h : xmlTag s st = .ok (t, st')) :
    '>' :: t <:+ s := by
  unfold xmlTag at h
  cases s with
  | nil => simp at h
  | cons c r =>
    dsimp only at h
    split_ifs at h with h1 h2 h3 h4
    · exact xmlOpen_suffix _ _ _ _ h
    · exact (xmlClose_suffix _ _ _ _ h).trans (List.suffix_cons _ _)
    · cases hq : xmlQuestion r with
      | error e => simp [hq] at h
      | ok u =>
        simp only [hq, Except.ok.injEq, Prod.mk.injEq] at h
        rw [← h.1]
        exact (xmlQuestion_suffix _ _ hq).trans (List.suffix_cons _ _)
    · exact (xmlBang_suffix _ _ _ _ h).trans (List.suffix_cons _ _)

theorem pcdata_suffix : ∀ (n : Nat) (s : List Char), (pcdata n s).2 <:+ s := by
  intro n
  induction n with
  | zero => intro s; exact List.suffix_refl _
  | succ n ih =>
    intro s
    cases s with
    | nil => exact List.suffix_refl _
    | cons c r =>
      unfold pcdata
      split_ifs with h1 h2 h3
      · exact List.suffix_refl _
      · exact ((ih _).trans (dropLf_suffix r)).trans (List.suffix_cons _ _)
      · exact ((ih _).trans (xmlEscape_suffix r)).trans (List.suffix_cons _ _)
      · exact (ih _).trans (List.suffix_cons _ _)

theorem pcdata_length {n : Nat} {c : Char} {r : List Char} (h : c ≠ '<') :
    (pcdata (n + 1) (c :: r)).2.length ≤ r.length := by
  unfold pcdata
  rw [if_neg h]
  split_ifs with h2 h3
  · exact ((pcdata_suffix _ _).trans (dropLf_suffix r)).length_le
  · exact ((pcdata_suffix _ _).trans (xmlEscape_suffix r)).length_le
  · exact (pcdata_suffix _ _).length_le

/-- The bound on the number of steps does not matter. -/
theorem parseTree_fuel : ∀ (n m : Nat) (s : List Char) (st : XmlState), s.length < n → s.length < m →
    parseTree n s st = parseTree m s st := by
  intro n
  induction n with
  | zero => intro m s st h; omega
  | succ n ih =>
    intro m s st hn hm
    obtain ⟨m, rfl⟩ : ∃ k, m = k + 1 := ⟨m - 1, by omega⟩
    cases s with
    | nil => rfl
    | cons c r =>
      simp only [List.length_cons] at hn hm
      unfold parseTree
      dsimp only
      split_ifs with h1 h2
      · cases ht : xmlTag r st with
        | error e => rfl
        | ok w =>
          obtain ⟨t, st'⟩ := w
          have := (xmlTag_suffix _ _ _ _ ht).length_le
          simp only [List.length_cons] at this
          exact ih m t st' (by omega) (by omega)
      · cases hd : (c :: r).dropWhile isXmlSpace with
        | nil => exact ih m [] st (by simp; omega) (by simp; omega)
        | cons c' r' =>
          have hs : c' :: r' <:+ c :: r := by rw [← hd]; exact List.dropWhile_suffix _
          have hl := hs.length_le
          simp only [List.length_cons] at hl
          dsimp only
          split_ifs with h3
          · have : (c' :: r').length < (c :: r).length := by
              rcases Nat.lt_or_ge (c' :: r').length (c :: r).length with h | h
              · exact h
              · have := List.IsSuffix.eq_of_length hs (Nat.le_antisymm hs.length_le h)
                simp only [List.cons.injEq] at this
                exact absurd (this.1.symm.trans h3) h1
            simp only [List.length_cons] at this
            exact ih m _ st (by simp; omega) (by simp; omega)
          · have : ((c' :: r').dropWhile (· ≠ '<')).length ≤ r'.length := by
              simp only [List.dropWhile_cons, ne_eq, h3, not_false_eq_true, decide_true, if_true]
              exact (List.dropWhile_suffix _).length_le
            exact ih m _ st (by omega) (by omega)
      · cases hd : (c :: r).dropWhile isXmlSpace with
        | nil => exact ih m [] st (by simp; omega) (by simp; omega)
        | cons c' r' =>
          have hs : c' :: r' <:+ c :: r := by rw [← hd]; exact List.dropWhile_suffix _
          have hl := hs.length_le
          simp only [List.length_cons] at hl
          dsimp only
          split_ifs with h3
          · have : (c' :: r').length < (c :: r).length := by
              rcases Nat.lt_or_ge (c' :: r').length (c :: r).length with h | h
              · exact h
              · have := List.IsSuffix.eq_of_length hs (Nat.le_antisymm hs.length_le h)
                simp only [List.cons.injEq] at this
                exact absurd (this.1.symm.trans h3) h1
            simp only [List.length_cons] at this
            exact ih m _ st (by simp; omega) (by simp; omega)
          · have : (pcdata (r.length + 2) (c :: r)).2.length ≤ r.length :=
              pcdata_length (n := r.length + 1) (r := r) h1
            exact ih m _ _ (by omega) (by omega)

/-- Parsing with as many steps as are needed. -/
def parseFrom (s : List Char) (st : XmlState) : Except XmlStatus XmlForest :=
  parseTree (s.length + 1) s st

theorem parseTree_eq {n : Nat} {s : List Char} {st : XmlState} (h : s.length < n) :
    parseTree n s st = parseFrom s st := parseTree_fuel _ _ _ _ h (by omega)

theorem parseFrom_nil (st : XmlState) :
    parseFrom [] st = if st.open_ = [] then .ok st.kids else .error .endElementMismatch := rfl

theorem parseFrom_tag (r : List Char) (st : XmlState) :
    parseFrom ('<' :: r) st = match xmlTag r st with
      | .ok (t, st') => parseFrom t st'
      | .error e => .error e := by
  show parseTree (r.length + 1 + 1) ('<' :: r) st = _
  conv_lhs => unfold parseTree
  dsimp only
  rw [if_pos rfl]
  cases ht : xmlTag r st with
  | error e => rfl
  | ok w =>
    obtain ⟨t, st'⟩ := w
    have := (xmlTag_suffix _ _ _ _ ht).length_le
    simp only [List.length_cons] at this
    exact parseTree_eq (by omega)

/-- Behind it, after white space, is a tag or the end of the file. -/
def Boundary (s : List Char) : Prop :=
  s.dropWhile isXmlSpace = [] ∨ ∃ r, s.dropWhile isXmlSpace = '<' :: r

theorem parseFrom_drop (s : List Char) (st : XmlState) (h : Boundary s) :
    parseFrom s st = parseFrom (s.dropWhile isXmlSpace) st := by
  cases s with
  | nil => rfl
  | cons c r =>
    by_cases hc : c = '<'
    · subst hc
      rw [List.dropWhile_cons_of_neg (by decide)]
    · show parseTree (r.length + 1 + 1) (c :: r) st = _
      conv_lhs => unfold parseTree
      dsimp only
      rw [if_neg hc]
      rcases h with h | ⟨u, h⟩
      · rw [h]; exact parseTree_eq (by simp)
      · rw [h]
        dsimp only
        rw [if_pos rfl]
        have hs : '<' :: u <:+ c :: r := by rw [← h]; exact List.dropWhile_suffix _
        refine parseTree_eq ?_
        rcases Nat.lt_or_ge ('<' :: u).length (c :: r).length with h | h
        · simpa using h
        · have := List.IsSuffix.eq_of_length hs (Nat.le_antisymm hs.length_le h)
          simp only [List.cons.injEq] at this
          exact absurd this.1.symm hc

theorem dropWhile_ws {ws rest : List Char} (hw : ∀ c ∈ ws, isXmlSpace c = true) :
    (ws ++ rest).dropWhile isXmlSpace = rest.dropWhile isXmlSpace :=
  List.dropWhile_append_of_pos hw

theorem Boundary.ws {ws rest : List Char} (hw : ∀ c ∈ ws, isXmlSpace c = true) (h : Boundary rest) :
    Boundary (ws ++ rest) := by
  unfold Boundary; rw [dropWhile_ws hw]; exact h

theorem parseFrom_ws {ws rest : List Char} (st : XmlState) (hw : ∀ c ∈ ws, isXmlSpace c = true)
    (h : Boundary rest) : parseFrom (ws ++ rest) st = parseFrom rest st := by
  rw [parseFrom_drop _ _ (h.ws hw), dropWhile_ws hw, ← parseFrom_drop _ _ h]

theorem boundary_nil : Boundary [] := .inl rfl

theorem boundary_tag (r : List Char) : Boundary ('<' :: r) :=
  .inr ⟨r, by rw [List.dropWhile_cons_of_neg (by decide)]⟩

/-! Tags as the writer writes them -/

theorem xmlSpace_not_symbol : ∀ c, isXmlSpace c = true → isXmlSymbol c = false := by
  intro c h
  unfold isXmlSpace at h
  simp only [Bool.or_eq_true, decide_eq_true_eq] at h
  rcases h with ((h | h) | h) | h <;> subst h <;> decide

theorem start_not_space {c : Char} (h : isXmlStart c = true) : isXmlSpace c = false := by
  cases hs : isXmlSpace c with
  | false => rfl
  | true =>
    have := xmlSpace_not_symbol c hs
    rw [xmlStart_symbol h] at this; cases this

/-- What may follow an attribute: a space or the end of the tag. -/
def TagSep (s : List Char) : Prop := ∃ c r, s = c :: r ∧ (c = ' ' ∨ c = '>' ∨ c = '/')

theorem TagSep.notStart {s : List Char} (h : TagSep s) : s.head?.any isXmlStart = false := by
  obtain ⟨c, r, rfl, h | h | h⟩ := h <;> subst h <;> rfl

theorem TagSep.notSymbol {s : List Char} (h : TagSep s) :
    ∀ c t, s = c :: t → isXmlSymbol c = false := by
  obtain ⟨c, r, rfl, h⟩ := h
  intro c' t e
  simp only [List.cons.injEq] at e
  obtain ⟨rfl, _⟩ := e
  rcases h with h | h | h <;> subst h <;> decide

theorem writeAttrs_sep (as : XmlAttrs) {tail : List Char} (h : TagSep tail) :
    TagSep (writeAttrs as ++ tail) := by
  cases as with
  | nil => exact h
  | cons p as => exact ⟨' ', _, rfl, .inl rfl⟩

theorem cStr_id {v : List Char} (h : XmlValue v) : cStr v = v := by
  unfold cStr
  rw [List.takeWhile_eq_self_iff]
  intro c hc
  simp only [ne_eq, decide_eq_true_eq]
  rintro rfl
  exact h hc

theorem noTabs_value {v : List Char} (h : XmlValue v) : XmlValue (noTabs v) := by
  intro hc
  unfold noTabs at hc
  rw [List.mem_map] at hc
  obtain ⟨c, hc, e⟩ := hc
  split_ifs at e with ht
  · exact absurd e (by decide)
  · exact h (e ▸ hc)

theorem escAttr_length (v : List Char) : v.length ≤ (escAttr v).length := by
  unfold escAttr
  induction v with
  | nil => simp
  | cons c v ih =>
    have : 1 ≤ (escAttrChar c).length := by
      unfold escAttrChar; split_ifs <;> simp
    simp only [List.flatMap_cons, List.length_append, List.length_cons]
    omega

theorem xmlAttrs_space (n : Nat) (s : List Char) (acc : XmlAttrs) :
    xmlAttrs n (' ' :: s) acc = xmlAttrs n s acc := by
  cases n with
  | zero => rfl
  | succ n =>
    unfold xmlAttrs
    rw [List.dropWhile_cons_of_pos (by decide)]

theorem xmlAttrs_write : ∀ (as : XmlAttrs) (n : Nat) (tail : List Char) (acc : XmlAttrs),
    (∀ p ∈ as, XmlName p.1 ∧ XmlValue p.2) → TagSep tail →
    xmlAttrs (n + as.length) (writeAttrs as ++ tail) acc =
      xmlAttrs n tail (acc ++ as.map fun p => (p.1, noTabs p.2)) := by
  intro as
  induction as with
  | nil => intro n tail acc _ _; simp [writeAttrs]
  | cons p as ih =>
    intro n tail acc hp ht
    obtain ⟨nm, v⟩ := p
    obtain ⟨hn, hv⟩ := hp _ (List.mem_cons_self ..)
    have ih := ih n tail (acc ++ [(nm, noTabs v)]) (fun p h => hp p (List.mem_cons_of_mem _ h)) ht
    have e : writeAttrs ((nm, v) :: as) ++ tail =
        ' ' :: (nm ++ ('=' :: '"' :: (escAttr v ++ '"' :: (writeAttrs as ++ tail)))) := by
      simp [writeAttrs]
    rw [e, xmlAttrs_space]
    have htn := take_name (r := '=' :: '"' :: (escAttr v ++ '"' :: (writeAttrs as ++ tail)))
      (xmlName_symbols hn) (by
        intro c t e
        simp only [List.cons.injEq] at e
        rw [← e.1]; decide)
    obtain ⟨c, r, hc, hcs⟩ := xmlName_cons hn
    have hsep := writeAttrs_sep as ht
    generalize writeAttrs as ++ tail = w at *
    have er : acc ++ List.map (fun p => (p.1, noTabs p.2)) ((nm, v) :: as) =
        acc ++ [(nm, noTabs v)] ++ List.map (fun p => (p.1, noTabs p.2)) as := by simp
    rw [er, ← ih]
    show xmlAttrs ((n + as.length) + 1) _ acc = _
    conv_lhs => unfold xmlAttrs
    generalize hy : '=' :: '"' :: (escAttr v ++ '"' :: w) = y at htn ⊢
    subst hc
    rw [List.cons_append] at htn ⊢
    rw [List.dropWhile_cons_of_neg (by rw [start_not_space hcs]; decide)]
    dsimp only
    rw [if_pos hcs, htn.1, htn.2, ← hy, List.dropWhile_cons_of_neg (by decide)]
    have hq : List.dropWhile isXmlSpace ('"' :: (escAttr v ++ '"' :: w)) =
        '"' :: (escAttr v ++ '"' :: w) := List.dropWhile_cons_of_neg (by decide)
    have hv2 := attrVal_esc v ((escAttr v ++ '"' :: w).length + 1) w (by
      have := escAttr_length v
      simp only [List.length_append, List.length_cons]; omega) hv
    simp only [hq, true_or, if_true, hv2, hsep.notStart, Bool.false_eq_true, if_false]
    rw [cStr_id (noTabs_value hv)]

theorem writeAttrs_length (as : XmlAttrs) : as.length ≤ (writeAttrs as).length := by
  induction as with
  | nil => simp
  | cons p as ih => simp [writeAttrs]; omega

theorem xmlAttrs_end (n : Nat) (t : List Char) (acc : XmlAttrs) :
    xmlAttrs (n + 1) ('>' :: t) acc = .ok (acc, false, t) ∧
    xmlAttrs (n + 1) ('/' :: '>' :: t) acc = .ok (acc, true, t) := by
  constructor
  · unfold xmlAttrs
    rw [List.dropWhile_cons_of_neg (by decide)]
    dsimp only
    rw [if_neg (by decide), if_neg (by decide), if_pos rfl]
  · unfold xmlAttrs
    rw [List.dropWhile_cons_of_neg (by decide)]
    dsimp only
    rw [if_neg (by decide), if_pos rfl]
    rfl

theorem xmlTag_start {n : List Char} (hn : XmlName n) (r : List Char) (st : XmlState) :
    xmlTag (n ++ r) st = xmlOpen (n ++ r) st := by
  obtain ⟨c, t, rfl, hc⟩ := xmlName_cons hn
  show xmlTag (c :: (t ++ r)) st = _
  unfold xmlTag
  dsimp only
  rw [if_pos hc]
  rfl

/-- A start tag. -/
theorem xmlTag_push {n : List Char} {a : XmlAttrs} (hn : XmlName n)
    (ha : ∀ p ∈ a, XmlName p.1 ∧ XmlValue p.2) (t : List Char) (st : XmlState) :
    xmlTag (n ++ (writeAttrs a ++ '>' :: t)) st =
      .ok (t, st.push n (a.map fun p => (p.1, noTabs p.2))) := by
  rw [xmlTag_start hn]
  have hsep := writeAttrs_sep a (tail := '>' :: t) ⟨'>', t, rfl, .inr (.inl rfl)⟩
  obtain ⟨h1, h2⟩ := take_name (xmlName_symbols hn) hsep.notSymbol
  unfold xmlOpen
  dsimp only
  rw [h1, h2]
  cases a with
  | nil =>
    simp only [writeAttrs, List.nil_append, List.map_nil, if_true]
  | cons p as =>
    have hw := xmlAttrs_write (p :: as) (((writeAttrs (p :: as) ++ '>' :: t).length) - (as.length + 1)
      - 1 + 1) ('>' :: t) [] ha ⟨'>', t, rfl, .inr (.inl rfl)⟩
    have hl := writeAttrs_length (p :: as)
    simp only [List.length_cons, List.length_append] at hw hl
    obtain ⟨y, hy⟩ : ∃ y, writeAttrs (p :: as) ++ '>' :: t = ' ' :: y := ⟨_, rfl⟩
    have hyl : y.length + 1 = (writeAttrs (p :: as)).length + (t.length + 1) := by
      have := congrArg List.length hy
      simp only [List.length_append, List.length_cons] at this
      omega
    rw [hy] at hw ⊢
    rw [xmlAttrs_space, (xmlAttrs_end _ _ _).1] at hw
    dsimp only
    rw [if_neg (by decide), if_pos (by decide)]
    have e : y.length + 1 =
        (writeAttrs (p :: as)).length + (t.length + 1) - (as.length + 1) - 1 + 1 + (as.length + 1) := by
      omega
    rw [e, hw]
    simp

/-- The tag of an element without children. -/
theorem xmlTag_leaf {n : List Char} {a : XmlAttrs} (hn : XmlName n)
    (ha : ∀ p ∈ a, XmlName p.1 ∧ XmlValue p.2) (t : List Char) (st : XmlState) :
    xmlTag (n ++ (writeAttrs a ++ ' ' :: '/' :: '>' :: t)) st =
      .ok (t, st.leaf n (a.map fun p => (p.1, noTabs p.2))) := by
  rw [xmlTag_start hn]
  have hts : TagSep (' ' :: '/' :: '>' :: t) := ⟨' ', _, rfl, .inl rfl⟩
  have hsep := writeAttrs_sep a hts
  obtain ⟨h1, h2⟩ := take_name (xmlName_symbols hn) hsep.notSymbol
  unfold xmlOpen
  dsimp only
  rw [h1, h2]
  have hw := xmlAttrs_write a (((writeAttrs a ++ ' ' :: '/' :: '>' :: t).length) - a.length
    - 1 + 1) (' ' :: '/' :: '>' :: t) [] ha hts
  have hl := writeAttrs_length a
  simp only [List.length_cons, List.length_append] at hw
  obtain ⟨y, hy⟩ : ∃ y, writeAttrs a ++ ' ' :: '/' :: '>' :: t = ' ' :: y := by
    cases a with
    | nil => exact ⟨_, rfl⟩
    | cons p as => exact ⟨_, rfl⟩
  have hyl : y.length + 1 = (writeAttrs a).length + (t.length + 1 + 1 + 1) := by
    have := congrArg List.length hy
    simp only [List.length_append, List.length_cons] at this
    omega
  rw [hy] at hw ⊢
  rw [xmlAttrs_space, xmlAttrs_space, (xmlAttrs_end _ _ _).2] at hw
  dsimp only
  rw [if_neg (by decide), if_pos (by decide)]
  have e : y.length + 1 =
      (writeAttrs a).length + (t.length + 1 + 1 + 1) - a.length - 1 + 1 + a.length := by
    omega
  rw [e, hw]
  simp

/-- An end tag. -/
theorem xmlTag_pop {n : List Char} (hn : XmlName n) (a : XmlAttrs) (b k : XmlForest)
    (fs : List XmlFrame) (t : List Char) :
    xmlTag ('/' :: (n ++ '>' :: t)) { open_ := ⟨n, a, b⟩ :: fs, kids := k } =
      .ok (t, { open_ := fs, kids := b.app (.elem n a k .nil) }) := by
  obtain ⟨h1, h2⟩ := take_name (r := '>' :: t) (xmlName_symbols hn) (by
    intro c u e
    simp only [List.cons.injEq] at e
    rw [← e.1]; decide)
  unfold xmlTag
  dsimp only
  rw [if_neg (by decide), if_pos rfl]
  unfold xmlClose
  dsimp only
  rw [h1, if_pos rfl, h2, List.dropWhile_cons_of_neg (by decide)]
  rfl

/-! A whole forest -/

theorem XmlForest.app_nil (f : XmlForest) : f.app .nil = f := by
  induction f with
  | nil => rfl
  | elem n a k t _ ih => simp [XmlForest.app, ih]
  | text v t ih => simp [XmlForest.app, ih]

theorem XmlForest.app_assoc (f g h : XmlForest) : (f.app g).app h = f.app (g.app h) := by
  induction f with
  | nil => rfl
  | elem n a k t _ ih => simp [XmlForest.app, ih]
  | text v t ih => simp [XmlForest.app, ih]

/-- One element as written, from behind its `<`, without the final newline. -/
def elemBody (d : Nat) (n : List Char) (a : XmlAttrs) : XmlForest → List Char
  | .nil => n ++ (writeAttrs a ++ ' ' :: '/' :: '>' :: [])
  | k => n ++ (writeAttrs a ++ '>' :: '\n' ::
      (writeForest (d + 1) k ++ (writeIndent d ++ '<' :: '/' :: (n ++ '>' :: []))))

theorem writeForest_elem (d : Nat) (n : List Char) (a : XmlAttrs) (k t : XmlForest) :
    writeForest d (.elem n a k t) =
      writeIndent d ++ ('<' :: (elemBody d n a k ++ '\n' :: writeForest d t)) := by
  cases k <;> simp [writeForest, elemBody]

theorem elemBody_kids {d : Nat} {n : List Char} {a : XmlAttrs} {k : XmlForest} (hk : k ≠ .nil) :
    elemBody d n a k = n ++ (writeAttrs a ++ '>' :: '\n' ::
      (writeForest (d + 1) k ++ (writeIndent d ++ '<' :: '/' :: (n ++ '>' :: [])))) := by
  cases k with
  | nil => exact absurd rfl hk
  | elem => rfl
  | text => rfl

theorem indent_space (d : Nat) : ∀ c ∈ writeIndent d, isXmlSpace c = true := by
  intro c hc
  have := List.eq_of_mem_replicate hc
  subst this; decide

theorem newline_space : ∀ c ∈ ['\n'], isXmlSpace c = true := by
  intro c hc; simp only [List.mem_singleton] at hc; subst hc; decide

theorem writeForest_boundary (d : Nat) {f : XmlForest} (hf : DocOk f) {rest : List Char}
    (h : Boundary rest) : Boundary (writeForest d f ++ rest) := by
  cases f with
  | nil => exact h
  | text v t => exact absurd hf id
  | elem n a k t =>
    rw [writeForest_elem, List.append_assoc]
    exact Boundary.ws (indent_space d) (boundary_tag _)

/-- Reading what was written gives the document back, and goes on behind it. -/
theorem parseFrom_write : ∀ (f : XmlForest) (d : Nat) (rest : List Char) (st : XmlState), DocOk f →
    Boundary rest →
    parseFrom (writeForest d f ++ rest) st =
      parseFrom rest { st with kids := st.kids.app (docNoTabs f) } := by
  intro f
  induction f with
  | nil => intro d rest st _ _; simp [writeForest, docNoTabs, XmlForest.app_nil]
  | text v t ih => intro d rest st hf; exact absurd hf id
  | elem n a k t ihk iht =>
    intro d rest st hf hr
    obtain ⟨hn, ha, hk, ht⟩ := hf
    have hbt := writeForest_boundary d ht hr
    rw [writeForest_elem, List.append_assoc, List.cons_append,
      parseFrom_ws _ (indent_space d) (boundary_tag _), parseFrom_tag]
    obtain ⟨a', ha'⟩ : ∃ a' : XmlAttrs, a' = a.map fun p => (p.1, noTabs p.2) := ⟨_, rfl⟩
    have fin : ∀ st' : XmlState,
        st' = { st with kids := st.kids.app (XmlForest.elem n a' (docNoTabs k) .nil) } →
        parseFrom ('\n' :: (writeForest d t ++ rest)) st' =
          parseFrom rest { st with kids := st.kids.app (docNoTabs (.elem n a k t)) } := by
      rintro st' rfl
      have := parseFrom_ws (ws := ['\n'])
        { st with kids := st.kids.app (.elem n a' (docNoTabs k) .nil) } newline_space hbt
      rw [List.singleton_append] at this
      rw [this, iht d rest _ ht hr]
      simp [docNoTabs, XmlForest.app_assoc, XmlForest.app, ha']
    by_cases hkn : k = .nil
    · subst hkn
      have e : elemBody d n a .nil ++ '\n' :: writeForest d t ++ rest =
          n ++ (writeAttrs a ++ ' ' :: '/' :: '>' :: ('\n' :: (writeForest d t ++ rest))) := by
        simp [elemBody]
      rw [e, xmlTag_leaf hn ha, ← ha']
      exact fin _ rfl
    · have e : elemBody d n a k ++ '\n' :: writeForest d t ++ rest =
          n ++ (writeAttrs a ++ '>' :: ('\n' :: (writeForest (d + 1) k ++ (writeIndent d ++
            '<' :: '/' :: (n ++ '>' :: ('\n' :: (writeForest d t ++ rest))))))) := by
        rw [elemBody_kids hkn]; simp
      rw [e, xmlTag_push hn ha, ← ha']
      dsimp only
      have hb2 : Boundary (writeIndent d ++ '<' :: '/' :: (n ++ '>' :: ('\n' ::
          (writeForest d t ++ rest)))) := Boundary.ws (indent_space d) (boundary_tag _)
      have hb1 := writeForest_boundary (d + 1) hk hb2
      have h1 := parseFrom_ws (ws := ['\n']) (st.push n a')
        newline_space hb1
      rw [List.singleton_append] at h1
      rw [h1, ihk (d + 1) _ _ hk hb2, parseFrom_ws _ (indent_space d) (boundary_tag _), parseFrom_tag]
      unfold XmlState.push
      rw [xmlTag_pop hn]
      exact fin _ (by simp [XmlForest.app])

/-- One element as written, whatever comes behind it. -/
theorem elem_read {d : Nat} {n : List Char} {a : XmlAttrs} {k : XmlForest} (hn : XmlName n)
    (ha : ∀ p ∈ a, XmlName p.1 ∧ XmlValue p.2) (hk : DocOk k) (rest : List Char) (st : XmlState) :
    parseFrom ('<' :: (elemBody d n a k ++ rest)) st =
      parseFrom rest { st with kids := st.kids.app (docNoTabs (.elem n a k .nil)) } := by
  rw [parseFrom_tag]
  by_cases hkn : k = .nil
  · subst hkn
    have e : elemBody d n a .nil ++ rest =
        n ++ (writeAttrs a ++ ' ' :: '/' :: '>' :: rest) := by simp [elemBody]
    rw [e, xmlTag_leaf hn ha]
    rfl
  · have e : elemBody d n a k ++ rest =
        n ++ (writeAttrs a ++ '>' :: ('\n' :: (writeForest (d + 1) k ++ (writeIndent d ++
          '<' :: '/' :: (n ++ '>' :: rest))))) := by
      rw [elemBody_kids hkn]; simp
    rw [e, xmlTag_push hn ha]
    dsimp only
    have hb2 : Boundary (writeIndent d ++ '<' :: '/' :: (n ++ '>' :: rest)) :=
      Boundary.ws (indent_space d) (boundary_tag _)
    have hb1 := writeForest_boundary (d + 1) hk hb2
    have h1 := parseFrom_ws (ws := ['\n']) (st.push n (a.map fun p => (p.1, noTabs p.2)))
      newline_space hb1
    rw [List.singleton_append] at h1
    rw [h1, parseFrom_write k (d + 1) _ _ hk hb2, parseFrom_ws _ (indent_space d) (boundary_tag _),
      parseFrom_tag]
    unfold XmlState.push
    rw [xmlTag_pop hn]
    simp [XmlForest.app, docNoTabs]

/-! Files that were cut off -/

theorem prefix_append_cases : ∀ {a b p : List Char}, p <+: a ++ b →
    p <+: a ∨ ∃ q, p = a ++ q ∧ q <+: b := by
  intro a
  induction a with
  | nil => intro b p h; exact .inr ⟨p, rfl, h⟩
  | cons x a ih =>
    intro b p h
    cases p with
    | nil => exact .inl (List.nil_prefix)
    | cons y p =>
      rw [List.cons_append, List.cons_prefix_cons] at h
      obtain ⟨rfl, h⟩ := h
      rcases ih h with h | ⟨q, rfl, hq⟩
      · exact .inl (List.cons_prefix_cons.2 ⟨rfl, h⟩)
      · exact .inr ⟨q, rfl, hq⟩

theorem prefix_snoc_cases {a p : List Char} {c : Char} (h : p <+: a ++ [c]) (hp : p ≠ a ++ [c]) :
    p <+: a := by
  rcases prefix_append_cases h with h | ⟨q, rfl, hq⟩
  · exact h
  · cases q with
    | nil => simp
    | cons x q =>
      rw [List.cons_prefix_cons] at hq
      obtain ⟨rfl, hq⟩ := hq
      rw [List.prefix_nil] at hq
      subst hq
      exact absurd rfl hp

theorem prefix_no_gt {a p : List Char} (h : p <+: a) (ha : '>' ∉ a) : '>' ∉ p :=
  fun hp => ha (h.subset hp)

theorem name_no_gt {n : List Char} (h : XmlName n) : '>' ∉ n := by
  intro hm
  have := xmlName_symbols h _ hm
  exact absurd this (by decide)

theorem escAttr_no_gt (v : List Char) : '>' ∉ escAttr v := by
  intro h
  unfold escAttr at h
  rw [List.mem_flatMap] at h
  obtain ⟨c, _, hc⟩ := h
  unfold escAttrChar at hc
  split_ifs at hc with h1 h2 h3 h4 h5
  · exact absurd hc (by decide)
  · exact absurd hc (by decide)
  · exact absurd hc (by decide)
  · exact absurd hc (by decide)
  · have hl := h5.1
    generalize c.toNat = k at hl hc
    revert hc
    interval_cases k <;> decide
  · simp only [List.mem_singleton] at hc
    exact h3 hc.symm

theorem writeAttrs_no_gt (a : XmlAttrs) (h : ∀ p ∈ a, XmlName p.1 ∧ XmlValue p.2) :
    '>' ∉ writeAttrs a := by
  induction a with
  | nil => simp [writeAttrs]
  | cons p a ih =>
    obtain ⟨n, v⟩ := p
    have h1 := name_no_gt (h _ (List.mem_cons_self ..)).1
    have h2 := escAttr_no_gt v
    have h3 := ih (fun p hp => h p (List.mem_cons_of_mem _ hp))
    simp only [writeAttrs, List.mem_cons, List.mem_append, not_or]
    exact ⟨by decide, h1, by decide, by decide, h2, by decide, h3⟩

theorem xmlTag_no_gt {s : List Char} (h : '>' ∉ s) (st : XmlState) :
    ∃ e, parseFrom ('<' :: s) st = .error e := by
  rw [parseFrom_tag]
  cases ht : xmlTag s st with
  | error e => exact ⟨e, rfl⟩
  | ok w =>
    obtain ⟨t, st'⟩ := w
    exact absurd ((xmlTag_suffix _ _ _ _ ht).subset (List.mem_cons_self ..)) h

theorem prefix_spaces {ws p : List Char} (hw : ∀ c ∈ ws, isXmlSpace c = true) (h : p <+: ws) :
    p.dropWhile isXmlSpace = [] :=
  List.dropWhile_eq_nil_iff.2 fun c hc => hw c (h.subset hc)

theorem parseFrom_spaces {p : List Char} (h : p.dropWhile isXmlSpace = []) {st : XmlState}
    (ho : st.open_ ≠ []) : parseFrom p st = .error .endElementMismatch := by
  rw [parseFrom_drop _ _ (.inl h), h, parseFrom_nil, if_neg ho]

theorem boundary_indent_prefix {d : Nat} {r p : List Char} (h : p <+: writeIndent d ++ '<' :: r) :
    Boundary p := by
  rcases prefix_append_cases h with h | ⟨q, rfl, hq⟩
  · exact .inl (prefix_spaces (indent_space d) h)
  · refine Boundary.ws (indent_space d) ?_
    cases q with
    | nil => exact boundary_nil
    | cons x q =>
      rw [List.cons_prefix_cons] at hq
      obtain ⟨rfl, _⟩ := hq
      exact boundary_tag _

theorem writeForest_prefix_boundary {d : Nat} {f : XmlForest} (hf : DocOk f) {p : List Char}
    (h : p <+: writeForest d f) : Boundary p := by
  cases f with
  | nil =>
    rw [writeForest, List.prefix_nil] at h
    subst h; exact boundary_nil
  | text v t => exact absurd hf id
  | elem n a k t =>
    rw [writeForest_elem] at h
    exact boundary_indent_prefix h

theorem elem_cut {d : Nat} {n : List Char} {a : XmlAttrs} {k : XmlForest} (hn : XmlName n)
    (ha : ∀ p ∈ a, XmlName p.1 ∧ XmlValue p.2) (hk : DocOk k)
    (ih : ∀ (p : List Char) (st : XmlState), st.open_ ≠ [] → p <+: writeForest (d + 1) k →
      ∃ e, parseFrom p st = .error e)
    {p : List Char} (st : XmlState) (hp : p <+: elemBody d n a k) (hne : p ≠ elemBody d n a k) :
    ∃ e, parseFrom ('<' :: p) st = .error e := by
  have hng : '>' ∉ n ++ writeAttrs a := by
    rw [List.mem_append, not_or]
    exact ⟨name_no_gt hn, writeAttrs_no_gt a ha⟩
  by_cases hkn : k = .nil
  · subst hkn
    have e : elemBody d n a .nil = (n ++ writeAttrs a ++ [' ', '/']) ++ ['>'] := by simp [elemBody]
    rw [e] at hp hne
    refine xmlTag_no_gt (prefix_no_gt (prefix_snoc_cases hp hne) ?_) st
    rw [List.mem_append, not_or]
    exact ⟨hng, by decide⟩
  · rw [elemBody_kids hkn, ← List.append_assoc] at hp hne
    rcases prefix_append_cases hp with h | ⟨q, rfl, hq⟩
    · exact xmlTag_no_gt (prefix_no_gt h hng) st
    cases q with
    | nil =>
      rw [List.append_nil]
      exact xmlTag_no_gt hng st
    | cons x q1 =>
      rw [List.cons_prefix_cons] at hq
      obtain ⟨rfl, hq⟩ := hq
      rw [List.append_assoc, parseFrom_tag, xmlTag_push hn ha]
      dsimp only
      generalize (a.map fun p => (p.1, noTabs p.2)) = a'
      have ho : (st.push n a').open_ ≠ [] := by simp [XmlState.push]
      cases q1 with
      | nil => exact ⟨_, parseFrom_spaces rfl ho⟩
      | cons x q2 =>
        rw [List.cons_prefix_cons] at hq
        obtain ⟨rfl, hq⟩ := hq
        rcases prefix_append_cases hq with h | ⟨q3, rfl, hq3⟩
        · have hb := writeForest_prefix_boundary hk h
          have := parseFrom_ws (ws := ['\n']) (st.push n a') newline_space hb
          rw [List.singleton_append] at this
          rw [this]
          exact ih _ _ ho h
        · have hb3 := boundary_indent_prefix hq3
          have := parseFrom_ws (ws := ['\n']) (st.push n a') newline_space
            (writeForest_boundary (d + 1) hk hb3)
          rw [List.singleton_append] at this
          rw [this, parseFrom_write k (d + 1) q3 _ hk hb3]
          generalize hst : ({ st.push n a' with
            kids := (st.push n a').kids.app (docNoTabs k) } : XmlState) = st2
          have ho2 : st2.open_ ≠ [] := by rw [← hst]; exact ho
          rcases prefix_append_cases hq3 with h | ⟨q4, rfl, hq4⟩
          · exact ⟨_, parseFrom_spaces (prefix_spaces (indent_space d) h) ho2⟩
          · cases q4 with
            | nil =>
              rw [List.append_nil]
              exact ⟨_, parseFrom_spaces (prefix_spaces (indent_space d) List.prefix_rfl) ho2⟩
            | cons x q5 =>
              rw [List.cons_prefix_cons] at hq4
              obtain ⟨rfl, hq5⟩ := hq4
              rw [parseFrom_ws _ (indent_space d) (boundary_tag _)]
              have hq6 : q5 <+: '/' :: n := by
                refine prefix_snoc_cases (c := '>') (by simpa using hq5) ?_
                rintro rfl
                exact hne (by simp)
              refine xmlTag_no_gt (prefix_no_gt hq6 ?_) st2
              rw [List.mem_cons, not_or]
              exact ⟨by decide, name_no_gt hn⟩

/-- The text of a forest cut off anywhere, inside an open element, is not accepted. -/
theorem forest_cut : ∀ (f : XmlForest) (d : Nat) (p : List Char) (st : XmlState), DocOk f →
    st.open_ ≠ [] → p <+: writeForest d f → ∃ e, parseFrom p st = .error e := by
  intro f
  induction f with
  | nil =>
    intro d p st _ ho h
    rw [writeForest, List.prefix_nil] at h
    subst h
    exact ⟨_, parseFrom_spaces rfl ho⟩
  | text v t ih => intro d p st hf; exact absurd hf id
  | elem n a k t ihk iht =>
    intro d p st hf ho h
    obtain ⟨hn, ha, hk, ht⟩ := hf
    rw [writeForest_elem] at h
    rcases prefix_append_cases h with h | ⟨q, rfl, hq⟩
    · exact ⟨_, parseFrom_spaces (prefix_spaces (indent_space d) h) ho⟩
    cases q with
    | nil =>
      rw [List.append_nil]
      exact ⟨_, parseFrom_spaces (prefix_spaces (indent_space d) List.prefix_rfl) ho⟩
    | cons x q =>
      rw [List.cons_prefix_cons] at hq
      obtain ⟨rfl, hq⟩ := hq
      rw [parseFrom_ws _ (indent_space d) (boundary_tag _)]
      by_cases hcut : q <+: elemBody d n a k ∧ q ≠ elemBody d n a k
      · exact elem_cut hn ha hk (fun p st ho hp => ihk (d + 1) p st hk ho hp) st hcut.1 hcut.2
      · have hq2 : ∃ q2, q = elemBody d n a k ++ q2 ∧ q2 <+: '\n' :: writeForest d t := by
          rcases prefix_append_cases hq with h | h
          · refine ⟨[], ?_, List.nil_prefix⟩
            rw [List.append_nil]
            by_contra hne
            exact hcut ⟨h, hne⟩
          · exact h
        obtain ⟨q2, rfl, hq2⟩ := hq2
        rw [elem_read hn ha hk]
        cases q2 with
        | nil =>
          exact ⟨_, parseFrom_spaces rfl ho⟩
        | cons x q3 =>
          rw [List.cons_prefix_cons] at hq2
          obtain ⟨rfl, hq3⟩ := hq2
          have := parseFrom_ws (ws := ['\n'])
            { st with kids := st.kids.app (docNoTabs (.elem n a k .nil)) } newline_space
            (writeForest_prefix_boundary ht hq3)
          rw [List.singleton_append] at this
          rw [this]
          exact iht d q3 _ ht ho hq3

/-! Totality -/

theorem xmlAttrs_fuel : ∀ (n : Nat) (s : List Char) (acc : XmlAttrs), s.length < n →
    xmlAttrs n s acc ≠ .error .fuel := by
  intro n
  induction n with
  | zero => intro s acc h; omega
  | succ n ih =>
    intro s acc hl h
    unfold xmlAttrs at h
    have hs0 : (s.dropWhile isXmlSpace).length ≤ s.length := (List.dropWhile_suffix _).length_le
    generalize s.dropWhile isXmlSpace = s0 at h hs0
    cases s0 with
    | nil => simp at h
    | cons c r =>
      dsimp only at h
      split_ifs at h with h1 h2 h3
      · have hs1 : (((c :: r).dropWhile isXmlSymbol).dropWhile isXmlSpace).length ≤ (c :: r).length :=
          ((List.dropWhile_suffix _).trans (List.dropWhile_suffix _)).length_le
        generalize ((c :: r).dropWhile isXmlSymbol).dropWhile isXmlSpace = s1 at h hs1
        split at h
        · rename_i r2
          have hs2 : (r2.dropWhile isXmlSpace).length ≤ r2.length := (List.dropWhile_suffix _).length_le
          generalize r2.dropWhile isXmlSpace = s2 at h hs2
          cases s2 with
          | nil => simp at h
          | cons q r3 =>
            dsimp only at h
            split_ifs at h with hq
            · cases hv : attrVal (r3.length + 1) q r3 with
              | none => simp [hv] at h
              | some w =>
                simp only [hv] at h
                split_ifs at h with hh
                · simp at h
                · have h5 := (attrVal_suffix _ _ _ w.1 w.2 hv).length_le
                  simp only [List.length_cons] at *
                  exact ih _ _ (by omega) h
            · simp at h
        · simp at h
      · split at h <;> simp at h
      · simp at h

theorem xmlTag_fuel (s : List Char) (st : XmlState) : xmlTag s st ≠ .error .fuel := by
  intro h
  unfold xmlTag at h
  cases s with
  | nil => simp at h
  | cons c r =>
    dsimp only at h
    split_ifs at h with h1 h2 h3 h4
    · unfold xmlOpen at h
      dsimp only at h
      generalize (c :: r).dropWhile isXmlSymbol = s1 at h
      cases s1 with
      | nil => simp at h
      | cons c' r' =>
        dsimp only at h
        split_ifs at h with h1 h2 h3
        · cases ha : xmlAttrs (r'.length + 1) r' [] with
          | error e =>
            simp only [ha, Except.error.injEq] at h
            exact xmlAttrs_fuel _ _ _ (by omega) (h ▸ ha)
          | ok w => simp [ha] at h
        · split at h <;> simp at h
        · simp at h
    · unfold xmlClose at h
      split at h
      · simp at h
      · split_ifs at h
        · split at h <;> simp at h
        · simp at h
    · unfold xmlQuestion at h
      cases r with
      | nil => simp at h
      | cons d u =>
        dsimp only at h
        by_cases hd : isXmlStart d = true
        · simp only [hd, if_true] at h
          generalize (d :: u).dropWhile isXmlSymbol = s1 at h
          cases s1 with
          | nil => simp at h
          | cons e' t =>
            dsimp only at h
            cases hp : skipPast ['?', '>'] (e' :: t) with
            | none => simp [hp] at h
            | some w => simp [hp] at h
        · simp [hd] at h
    · unfold xmlBang at h
      split at h
      · split at h <;> simp at h
      · simp at h
      · split at h <;> simp at h
      · simp at h
      · split at h
        · split at h <;> simp at h
        · simp at h
      · simp at h
    · simp at h

theorem parseTree_total : ∀ (n : Nat) (s : List Char) (st : XmlState), s.length < n →
    parseTree n s st ≠ .error .fuel := by
  intro n
  induction n with
  | zero => intro s st h; omega
  | succ n ih =>
    intro s st hn
    cases s with
    | nil =>
      unfold parseTree
      dsimp only
      split_ifs <;> simp
    | cons c r =>
      simp only [List.length_cons] at hn
      unfold parseTree
      dsimp only
      split_ifs with h1 h2
      · cases ht : xmlTag r st with
        | error e =>
          intro h
          have h' : (Except.error e : Except XmlStatus XmlForest) = .error .fuel := h
          injection h' with h'
          subst h'
          exact xmlTag_fuel r st ht
        | ok w =>
          obtain ⟨t, st'⟩ := w
          have := (xmlTag_suffix _ _ _ _ ht).length_le
          simp only [List.length_cons] at this
          exact ih t st' (by omega)
      all_goals
        cases hd : (c :: r).dropWhile isXmlSpace with
        | nil => exact ih [] st (by simp; omega)
        | cons c' r' =>
          have hs : c' :: r' <:+ c :: r := by rw [← hd]; exact List.dropWhile_suffix _
          have hl := hs.length_le
          simp only [List.length_cons] at hl
          dsimp only
          split_ifs with h3
          · have : (c' :: r').length < (c :: r).length := by
              rcases Nat.lt_or_ge (c' :: r').length (c :: r).length with h | h
              · exact h
              · have := List.IsSuffix.eq_of_length hs (Nat.le_antisymm hs.length_le h)
                simp only [List.cons.injEq] at this
                exact absurd (this.1.symm.trans h3) h1
            simp only [List.length_cons] at this
            exact ih _ st (by simp; omega)
          · first
            | (have : (pcdata (r.length + 2) (c :: r)).2.length ≤ r.length :=
                pcdata_length (n := r.length + 1) (r := r) h1
               exact ih _ _ (by omega))
            | (have : ((c' :: r').dropWhile (· ≠ '<')).length ≤ r'.length := by
                simp only [List.dropWhile_cons, ne_eq, h3, not_false_eq_true, decide_true, if_true]
                exact (List.dropWhile_suffix _).length_le
               exact ih _ st (by omega))

end Verif
