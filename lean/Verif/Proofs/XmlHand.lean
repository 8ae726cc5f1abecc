import Verif.Spec.XmlHand
import Verif.Props.Xml
import Verif.Proofs.XmlDbl
/-! The parser on XML files written by hand. -/
namespace Verif
open Spec

/-! ### references -/

theorem or_add_192 : ∀ k, k < 32 → 0xC0 ||| k = k + 192 := by decide
theorem or_add_224 : ∀ k, k < 16 → 0xE0 ||| k = k + 224 := by decide
theorem or_add_240 : ∀ k, k < 8 → 0xF0 ||| k = k + 240 := by decide
theorem or_add_128 : ∀ k, k < 64 → 0x80 ||| k = k + 128 := by decide

theorem charOfNat_toNat {n : Nat} (h : n.isValidChar) : (Char.ofNat n).toNat = n := by
  unfold Char.ofNat
  rw [dif_pos h]
  rfl

theorem utf8Bytes_eq (n : Nat) (h : n.isValidChar) : utf8Bytes n = utf8Text (Char.ofNat n) := by
  have hv : (Char.ofNat n).val.toNat = n := charOfNat_toNat h
  have hb : ∀ k : Nat, (UInt8.ofNat k).toNat = k % 256 := fun k => by simp
  have hmax : n < 0x110000 := by
    unfold Nat.isValidChar at h; omega
  unfold utf8Bytes utf8Text String.utf8EncodeChar
  simp only [hv]
  by_cases h1 : n < 0x80
  · rw [if_pos h1, if_pos (show n ≤ 127 by omega)]
    simp
  rw [if_neg h1, if_neg (show ¬ n ≤ 127 by omega)]
  by_cases h2 : n < 0x800
  · rw [if_pos h2, if_pos (show n ≤ 2047 by omega)]
    have e1 := or_add_192 (n / 64) (by omega)
    have e2 := or_add_128 (n % 64) (by omega)
    simp only [List.map_cons, List.map_nil, hb, e1, e2]
    rw [Nat.mod_eq_of_lt (show n / 64 < 32 by omega)]
  rw [if_neg h2, if_neg (show ¬ n ≤ 2047 by omega)]
  by_cases h3 : n < 0x10000
  · rw [if_pos h3, if_pos (show n ≤ 65535 by omega)]
    have e1 := or_add_224 (n / 4096) (by omega)
    have e2 := or_add_128 (n % 64) (by omega)
    have e3 := or_add_128 (n / 64 % 64) (by omega)
    simp only [List.map_cons, List.map_nil, hb, e1, e2, e3]
    rw [Nat.mod_eq_of_lt (show n / 4096 < 16 by omega)]
  rw [if_neg h3, if_neg (show ¬ n ≤ 65535 by omega)]
  have e1 := or_add_240 (n / 262144) (by omega)
  have e2 := or_add_128 (n % 64) (by omega)
  have e3 := or_add_128 (n / 64 % 64) (by omega)
  have e4 := or_add_128 (n / 4096 % 64) (by omega)
  simp only [List.map_cons, List.map_nil, hb, e1, e2, e3, e4]
  rw [Nat.mod_eq_of_lt (show n / 262144 < 8 by omega)]

theorem digitsVal_mono : ∀ {l : List Char} {acc v : Nat}, digitsVal l acc = some v → acc ≤ v := by
  intro l
  induction l with
  | nil => intro acc v h; simp [digitsVal] at h; omega
  | cons c l ih =>
    intro acc v h
    simp only [digitsVal] at h
    split at h
    · have := ih h; omega
    · cases h

theorem hexVal_mono : ∀ {l : List Char} {acc v : Nat}, hexVal l acc = some v → acc ≤ v := by
  intro l
  induction l with
  | nil => intro acc v h; simp [hexVal] at h; omega
  | cons c l ih =>
    intro acc v h
    simp only [hexVal] at h
    split_ifs at h
    · have := ih h; omega
    · have := ih h; omega
    · have := ih h; omega

theorem escDec_val (r : List Char) : ∀ (l : List Char) (acc v : Nat), digitsVal l acc = some v → v < 2 ^ 32 →
    escDec acc (l ++ ';' :: r) = some (v, r) := by
  intro l
  induction l with
  | nil =>
    intro acc v h _
    simp only [digitsVal, Option.some.injEq] at h
    subst h
    simp [escDec]
  | cons c l ih =>
    intro acc v h hv
    simp only [digitsVal] at h
    split at h
    · rename_i hc
      have hc' : 48 ≤ c.toNat ∧ c.toNat ≤ 57 := hc
      have hle := digitsVal_mono h
      simp only [List.cons_append, escDec]
      rw [if_pos hc', Nat.mod_eq_of_lt]
      · exact ih _ _ h hv
      · have : '0'.toNat = 48 := rfl
        omega
    · cases h

theorem escHex_val (r : List Char) : ∀ (l : List Char) (acc v : Nat), hexVal l acc = some v → v < 2 ^ 32 →
    escHex acc (l ++ ';' :: r) = some (v, r) := by
  intro l
  induction l with
  | nil =>
    intro acc v h _
    simp only [hexVal, Option.some.injEq] at h
    subst h
    simp [escHex]
  | cons c l ih =>
    intro acc v h hv
    simp only [hexVal] at h
    have k0 : '0'.toNat = 48 := rfl
    have ka : 'a'.toNat = 97 := rfl
    have kA : 'A'.toNat = 65 := rfl
    simp only [List.cons_append, escHex]
    split_ifs at h with h1 h2 h3
    · have h1' : 48 ≤ c.toNat ∧ c.toNat ≤ 57 := h1
      have hle := hexVal_mono h
      rw [if_pos h1', Nat.mod_eq_of_lt (by omega)]
      exact ih _ _ h hv
    · have h1' : ¬ (48 ≤ c.toNat ∧ c.toNat ≤ 57) := h1
      have h2' : 97 ≤ c.toNat ∧ c.toNat ≤ 102 := h2
      have hle := hexVal_mono h
      rw [if_neg h1', if_pos h2', Nat.mod_eq_of_lt (by omega)]
      rw [show 16 * acc + (c.toNat - 87) = 16 * acc + (c.toNat - 'a'.toNat + 10) by omega]
      exact ih _ _ h hv
    · have h1' : ¬ (48 ≤ c.toNat ∧ c.toNat ≤ 57) := h1
      have h2' : ¬ (97 ≤ c.toNat ∧ c.toNat ≤ 102) := h2
      have h3' : 65 ≤ c.toNat ∧ c.toNat ≤ 70 := h3
      have hle := hexVal_mono h
      rw [if_neg h1', if_neg h2', if_pos h3', Nat.mod_eq_of_lt (by omega)]
      rw [show 16 * acc + (c.toNat - 55) = 16 * acc + (c.toNat - 'A'.toNat + 10) by omega]
      exact ih _ _ h hv

theorem validChar_lt {n : Nat} (h : n.isValidChar) : n < 2 ^ 32 := by
  unfold Nat.isValidChar at h; omega

theorem reference_read {e u : List Char} (h : Reference e u) :
    ∃ t, e = '&' :: t ∧ ∀ r, xmlEscape (t ++ r) = (u, r) := by
  cases h with
  | amp => exact ⟨_, rfl, fun r => rfl⟩
  | lt => exact ⟨_, rfl, fun r => rfl⟩
  | gt => exact ⟨_, rfl, fun r => rfl⟩
  | quot => exact ⟨_, rfl, fun r => rfl⟩
  | apos => exact ⟨_, rfl, fun r => rfl⟩
  | @dec ds n hd hne hv h0 =>
    refine ⟨_, rfl, fun r => ?_⟩
    have h1 := escDec_val r ds 0 n hd (validChar_lt hv)
    have hall := digitsVal_all hd
    obtain ⟨d, ds', rfl⟩ := List.exists_cons_of_ne_nil hne
    have hdd := hall d (by simp)
    have e : '#' :: (d :: ds' ++ [';']) ++ r = '#' :: d :: (ds' ++ ';' :: r) := by simp
    rw [e]
    simp only [List.cons_append] at h1
    have hx : d ≠ 'x' := by rintro rfl; exact absurd hdd (by decide)
    have hs : d ≠ ';' := by rintro rfl; exact absurd hdd (by decide)
    unfold xmlEscape
    split <;> simp_all [utf8Bytes_eq]
  | @hex ds n hd hne hv h0 =>
    refine ⟨_, rfl, fun r => ?_⟩
    have h1 := escHex_val r ds 0 n hd (validChar_lt hv)
    obtain ⟨d, ds', rfl⟩ := List.exists_cons_of_ne_nil hne
    have e : '#' :: 'x' :: (d :: ds' ++ [';']) ++ r = '#' :: 'x' :: d :: (ds' ++ ';' :: r) := by simp
    rw [e]
    simp only [List.cons_append] at h1
    have hs : d ≠ ';' := by
      rintro rfl
      simp [hexVal] at hd
    unfold xmlEscape
    split
    all_goals first
      | (simp_all [utf8Bytes_eq]; done)
      | (rename_i a b c; simp only [List.cons.injEq, true_and] at c; exact absurd c.symm (a _))

/-- Neither a reference nor what it stands for contains a zero byte. -/
theorem reference_no_zero {e u : List Char} (h : Reference e u) : Char.ofNat 0 ∉ e ∧ Char.ofNat 0 ∉ u := by
  have hu : ∀ n : Nat, n.isValidChar → n ≠ 0 → Char.ofNat 0 ∉ utf8Text (Char.ofNat n) := by
    intro n hv h0 hm
    rw [← utf8Bytes_eq n hv] at hm
    have hmax : n < 0x110000 := by unfold Nat.isValidChar at hv; omega
    have hz : ∀ k, k < 256 → Char.ofNat 0 = Char.ofNat k → k = 0 := by
      intro k hk h
      have := congrArg Char.toNat h
      rw [charOfNat_toNat (Or.inl (by omega)), charOfNat_toNat (Or.inl (by omega))] at this
      exact this.symm
    unfold utf8Bytes at hm
    simp only at hm
    split_ifs at hm with h1 h2 h3
    · simp only [List.mem_singleton] at hm
      have := hz _ (Nat.mod_lt _ (by norm_num)) hm
      omega
    · rw [or_add_192 _ (by omega), or_add_128 _ (by omega)] at hm
      simp only [List.mem_cons, List.not_mem_nil, or_false] at hm
      rcases hm with hm | hm <;> (have := hz _ (Nat.mod_lt _ (by norm_num)) hm; omega)
    · rw [or_add_224 _ (by omega), or_add_128 _ (by omega), or_add_128 _ (by omega)] at hm
      simp only [List.mem_cons, List.not_mem_nil, or_false] at hm
      rcases hm with hm | hm | hm <;> (have := hz _ (Nat.mod_lt _ (by norm_num)) hm; omega)
    · rw [or_add_240 _ (by omega), or_add_128 _ (by omega), or_add_128 _ (by omega), or_add_128 _ (by omega)] at hm
      simp only [List.mem_cons, List.not_mem_nil, or_false] at hm
      rcases hm with hm | hm | hm | hm <;> (have := hz _ (Nat.mod_lt _ (by norm_num)) hm; omega)
  have hhex : ∀ (l : List Char) (acc v : Nat), hexVal l acc = some v → Char.ofNat 0 ∉ l := by
    intro l
    induction l with
    | nil => intro _ _ _; simp
    | cons c l ih =>
      intro acc v h hm
      simp only [hexVal] at h
      rcases List.mem_cons.1 hm with rfl | hm
      · rw [if_neg (by decide), if_neg (by decide), if_neg (by decide)] at h
        cases h
      · split_ifs at h
        · exact ih _ _ h hm
        · exact ih _ _ h hm
        · exact ih _ _ h hm
  cases h with
  | amp => decide
  | lt => decide
  | gt => decide
  | quot => decide
  | apos => decide
  | dec hd hne hv h0 =>
    refine ⟨?_, hu _ hv h0⟩
    simp only [List.mem_cons, List.mem_append, List.not_mem_nil, or_false, not_or]
    refine ⟨by decide, by decide, fun hm => ?_, by decide⟩
    exact absurd (digitsVal_all hd _ hm) (by decide)
  | hex hd hne hv h0 =>
    refine ⟨?_, hu _ hv h0⟩
    simp only [List.mem_cons, List.mem_append, List.not_mem_nil, or_false, not_or]
    exact ⟨by decide, by decide, by decide, hhex _ _ _ hd, by decide⟩

theorem reference_no_tag {e u : List Char} (h : Reference e u) : '<' ∉ e := by
  have hhex : ∀ (l : List Char) (acc v : Nat), hexVal l acc = some v → '<' ∉ l := by
    intro l
    induction l with
    | nil => intro _ _ _; simp
    | cons c l ih =>
      intro acc v h hm
      rw [List.mem_cons] at hm
      unfold hexVal at h
      rcases hm with rfl | hm
      · rw [if_neg (by decide), if_neg (by decide), if_neg (by decide)] at h
        cases h
      · split_ifs at h <;> exact ih _ _ h hm
  have hdec : ∀ (l : List Char) (acc v : Nat), digitsVal l acc = some v → '<' ∉ l := by
    intro l
    induction l with
    | nil => intro _ _ _; simp
    | cons c l ih =>
      intro acc v h hm
      rw [List.mem_cons] at hm
      unfold digitsVal at h
      rcases hm with rfl | hm
      · rw [if_neg (by decide)] at h
        cases h
      · split_ifs at h
        exact ih _ _ h hm
  cases h with
  | amp => decide
  | lt => decide
  | gt => decide
  | quot => decide
  | apos => decide
  | dec h _ _ _ =>
    simp only [List.mem_cons, List.mem_append, List.not_mem_nil, or_false, not_or]
    exact ⟨by decide, by decide, hdec _ _ _ h, by decide⟩
  | hex h _ _ _ =>
    simp only [List.mem_cons, List.mem_append, List.not_mem_nil, or_false, not_or]
    exact ⟨by decide, by decide, by decide, hhex _ _ _ h, by decide⟩

/-! ### values -/

theorem blank_space {b : List Char} (h : Blank b) : ∀ c ∈ b, isXmlSpace c = true := by
  intro c hc
  rcases h c hc with rfl | rfl | rfl | rfl <;> decide

theorem blank_of_space {b : List Char} (h : ∀ c ∈ b, isXmlSpace c = true) : Blank b := by
  intro c hc
  have := h c hc
  unfold isXmlSpace at this
  simp only [Bool.or_eq_true, decide_eq_true_eq] at this
  rcases this with ((h | h) | h) | h
  · exact .inr (.inl h)
  · exact .inr (.inr (.inl h))
  · exact .inr (.inr (.inr h))
  · exact .inl h

theorem blank_no_zero {b : List Char} (h : Blank b) : Char.ofNat 0 ∉ b := by
  intro hm
  rcases h _ hm with h | h | h | h <;> exact absurd h (by decide)

theorem attrVal_text {q : Char} (hq : q = '"' ∨ q = '\'') (r : List Char) {raw v : List Char} (h : AttrText q raw v) :
    ∀ n, raw.length < n → attrVal n q (raw ++ q :: r) = some (v, r) := by
  have hq1 : '&' ≠ q := by rcases hq with rfl | rfl <;> decide
  have hqs : ∀ c, isXmlSpace c = true → c ≠ q := by
    rintro c hc rfl
    rcases hq with rfl | rfl <;> exact absurd hc (by decide)
  induction h with
  | nil =>
    intro n hn
    obtain ⟨n, rfl⟩ : ∃ k, n = k + 1 := ⟨n - 1, by simp at hn; omega⟩
    simp [attrVal]
  | @plain c s v h1 h2 h3 h4 h5 h6 _ ih =>
    intro n hn
    obtain ⟨n, rfl⟩ : ∃ k, n = k + 1 := ⟨n - 1, by simp at hn; omega⟩
    have ih := ih n (by simp at hn; omega)
    simp only [List.cons_append]
    unfold attrVal
    rw [if_neg h1]
    by_cases hs : isXmlSpace c = true
    · have hc : c = ' ' := by
        unfold isXmlSpace at hs
        simp [h3, h4, h5] at hs
        exact hs
      subst hc
      simp [isXmlSpace, ih]
    · simp [hs, h2, ih]
  | @blank c s v hc _ ih =>
    intro n hn
    obtain ⟨n, rfl⟩ : ∃ k, n = k + 1 := ⟨n - 1, by simp at hn; omega⟩
    have ih := ih n (by simp at hn; omega)
    have hs : isXmlSpace c = true := by rcases hc with rfl | rfl <;> decide
    have hr : c ≠ '\r' := by rcases hc with rfl | rfl <;> decide
    simp only [List.cons_append]
    unfold attrVal
    simp [hqs c hs, hs, hr, ih]
  | @ref e u s v he _ ih =>
    intro n hn
    obtain ⟨n, rfl⟩ : ∃ k, n = k + 1 := ⟨n - 1, by simp at hn; omega⟩
    obtain ⟨t, rfl, ht⟩ := reference_read he
    have ih := ih n (by simp at hn; omega)
    simp only [List.cons_append, List.append_assoc]
    unfold attrVal
    have hs : isXmlSpace '&' = false := by decide
    simp [hq1, hs, ht, ih]

theorem attrText_no_zero {q : Char} {raw v : List Char} (h : AttrText q raw v) :
    Char.ofNat 0 ∉ raw ∧ Char.ofNat 0 ∉ v := by
  induction h with
  | nil => simp
  | plain h1 h2 h3 h4 h5 h6 _ ih =>
    simp only [List.mem_cons, not_or]
    exact ⟨⟨fun h => h6 h.symm, ih.1⟩, fun h => h6 h.symm, ih.2⟩
  | @blank c s v hc _ ih =>
    simp only [List.mem_cons, not_or]
    refine ⟨⟨?_, ih.1⟩, by decide, ih.2⟩
    rcases hc with rfl | rfl <;> decide
  | ref he _ ih =>
    have := reference_no_zero he
    simp only [List.mem_append, not_or]
    exact ⟨⟨this.1, ih.1⟩, this.2, ih.2⟩

theorem bodyText_no_zero {t v : List Char} (h : BodyText t v) : Char.ofNat 0 ∉ t ∧ Char.ofNat 0 ∉ v := by
  induction h with
  | nil => simp
  | plain h1 h2 h3 h6 _ ih =>
    simp only [List.mem_cons, not_or]
    exact ⟨⟨fun h => h6 h.symm, ih.1⟩, fun h => h6 h.symm, ih.2⟩
  | ref he _ ih =>
    have := reference_no_zero he
    simp only [List.mem_append, not_or]
    exact ⟨⟨this.1, ih.1⟩, this.2, ih.2⟩

theorem bodyText_no_tag {t v : List Char} (h : BodyText t v) : '<' ∉ t := by
  induction h with
  | nil => simp
  | plain h1 h2 h3 h6 _ ih =>
    simp only [List.mem_cons, not_or]
    exact ⟨fun h => h1 h.symm, ih⟩
  | ref he _ ih =>
    simp only [List.mem_append, not_or]
    exact ⟨reference_no_tag he, ih⟩

theorem pcdata_text (r : List Char) (hr : r = [] ∨ r.head? = some '<') {t v : List Char} (h : BodyText t v) :
    ∀ n, t.length < n → pcdata n (t ++ r) = (v, r) := by
  induction h with
  | nil =>
    intro n hn
    obtain ⟨n, rfl⟩ : ∃ k, n = k + 1 := ⟨n - 1, by simp at hn; omega⟩
    cases r with
    | nil => simp [pcdata]
    | cons c r =>
      have : c = '<' := by simpa using hr
      subst this
      simp [pcdata]
  | @plain c s v h1 h2 h3 h6 _ ih =>
    intro n hn
    obtain ⟨n, rfl⟩ : ∃ k, n = k + 1 := ⟨n - 1, by simp at hn; omega⟩
    have ih := ih n (by simp at hn; omega)
    simp only [List.cons_append]
    unfold pcdata
    simp [h1, h2, h3, ih]
  | @ref e u s v he _ ih =>
    intro n hn
    obtain ⟨n, rfl⟩ : ∃ k, n = k + 1 := ⟨n - 1, by simp at hn; omega⟩
    obtain ⟨t, rfl, ht⟩ := reference_read he
    have ih := ih n (by simp at hn; omega)
    simp only [List.cons_append, List.append_assoc]
    unfold pcdata
    simp [ht, ih]

/-! ### tags -/

/-- What may follow the name or an attribute in a tag. -/
def TagEnd (s : List Char) : Prop := ∃ c r, s = c :: r ∧ (isXmlSpace c = true ∨ c = '>' ∨ c = '/')

theorem TagEnd.notStart {s : List Char} (h : TagEnd s) : s.head?.any isXmlStart = false := by
  obtain ⟨c, r, rfl, h | h | h⟩ := h
  · cases hc : isXmlStart c with
    | false => simp [hc]
    | true => rw [start_not_space hc] at h; cases h
  · subst h; rfl
  · subst h; rfl

theorem TagEnd.notSymbol {s : List Char} (h : TagEnd s) : ∀ c t, s = c :: t → isXmlSymbol c = false := by
  obtain ⟨c, r, rfl, h⟩ := h
  intro c' t e
  simp only [List.cons.injEq] at e
  obtain ⟨rfl, _⟩ := e
  rcases h with h | h | h
  · exact xmlSpace_not_symbol _ h
  · subst h; decide
  · subst h; decide

theorem tagEnd_blank {b s : List Char} (hb : Blank b) (h : TagEnd s) : TagEnd (b ++ s) := by
  cases b with
  | nil => exact h
  | cons c b => exact ⟨c, _, rfl, .inl (blank_space hb c (by simp))⟩

theorem tagEnd_attrs {t s : List Char} {a : XmlAttrs} (ht : AttrsText t a) (h : TagEnd s) : TagEnd (t ++ s) := by
  cases ht with
  | nil => exact h
  | @cons b n b1 b2 raw v s' q a hb hne =>
    obtain ⟨c, b', rfl⟩ := List.exists_cons_of_ne_nil hne
    exact ⟨c, _, rfl, .inl (blank_space hb c (by simp))⟩

theorem xmlAttrs_blank (n : Nat) {b : List Char} (hb : Blank b) (s : List Char) (acc : XmlAttrs) :
    xmlAttrs n (b ++ s) acc = xmlAttrs n s acc := by
  cases n with
  | zero => rfl
  | succ n =>
    unfold xmlAttrs
    rw [dropWhile_ws (blank_space hb)]

theorem xmlAttrs_text {t : List Char} {a : XmlAttrs} (h : AttrsText t a) :
    ∀ (n : Nat) (tail : List Char) (acc : XmlAttrs), TagEnd tail →
    xmlAttrs (n + a.length) (t ++ tail) acc = xmlAttrs n tail (acc ++ a) := by
  induction h with
  | nil => intro n tail acc _; simp
  | @cons b nm b1 b2 raw v s q a hb hne hn hb1 hb2 hq hv hs ih =>
    intro n tail acc ht
    have ih := ih n tail (acc ++ [(nm, v)]) ht
    have hsep := tagEnd_attrs hs ht
    have e : b ++ (nm ++ (b1 ++ '=' :: (b2 ++ q :: (raw ++ q :: s)))) ++ tail =
        b ++ (nm ++ (b1 ++ '=' :: (b2 ++ q :: (raw ++ q :: (s ++ tail))))) := by simp
    rw [e, xmlAttrs_blank _ hb]
    generalize s ++ tail = w at *
    have hend : ∀ c t, b1 ++ '=' :: (b2 ++ q :: (raw ++ q :: w)) = c :: t → isXmlSymbol c = false := by
      intro c t e
      cases b1 with
      | nil =>
        simp only [List.nil_append, List.cons.injEq] at e
        rw [← e.1]; decide
      | cons d b1 =>
        simp only [List.cons_append, List.cons.injEq] at e
        rw [← e.1]
        exact xmlSpace_not_symbol _ (blank_space hb1 d (by simp))
    have htn := take_name (r := b1 ++ '=' :: (b2 ++ q :: (raw ++ q :: w))) (xmlName_symbols hn) hend
    obtain ⟨c, r, hc, hcs⟩ := xmlName_cons hn
    have er : acc ++ (nm, v) :: a = acc ++ [(nm, v)] ++ a := by simp
    rw [er, ← ih]
    show xmlAttrs ((n + a.length) + 1) _ acc = _
    conv_lhs => unfold xmlAttrs
    generalize hy : b1 ++ '=' :: (b2 ++ q :: (raw ++ q :: w)) = y at htn ⊢
    subst hc
    rw [List.cons_append] at htn ⊢
    rw [List.dropWhile_cons_of_neg (by rw [start_not_space hcs]; decide)]
    dsimp only
    rw [if_pos hcs, htn.1, htn.2, ← hy, dropWhile_ws (blank_space hb1), List.dropWhile_cons_of_neg (by decide)]
    have hqs : isXmlSpace q = false := by rcases hq with rfl | rfl <;> decide
    have hq2 : List.dropWhile isXmlSpace (b2 ++ q :: (raw ++ q :: w)) = q :: (raw ++ q :: w) := by
      rw [dropWhile_ws (blank_space hb2), List.dropWhile_cons_of_neg (by rw [hqs]; decide)]
    have hv2 := attrVal_text hq w hv ((raw ++ q :: w).length + 1) (by simp; omega)
    simp only [hq2, hq, if_true, hv2, hsep.notStart, Bool.false_eq_true, if_false]
    rw [cStr_id (attrText_no_zero hv).2]

theorem attrsText_length {t : List Char} {a : XmlAttrs} (h : AttrsText t a) : a.length ≤ t.length := by
  induction h with
  | nil => simp
  | cons _ _ _ _ _ _ _ _ ih => simp; omega

/-- A tag with attributes up to its end. -/
theorem xmlOpen_text {n t b : List Char} {a : XmlAttrs} (hn : XmlName n) (ht : AttrsText t a) (hb : Blank b)
    (s : List Char) (st : XmlState) :
    xmlTag (n ++ (t ++ (b ++ '>' :: s))) st = .ok (s, st.push n a) ∧
    xmlTag (n ++ (t ++ (b ++ '/' :: '>' :: s))) st = .ok (s, st.leaf n a) := by
  have key : ∀ (tail : List Char) (closed : Bool), TagEnd tail →
      (∀ k acc, xmlAttrs (k + 1) tail acc = .ok (acc, closed, s)) →
      (∀ c r, t ++ (b ++ tail) = c :: r → isXmlSpace c = true) →
      xmlTag (n ++ (t ++ (b ++ tail))) st = .ok (s, if closed then st.leaf n a else st.push n a) := by
    intro tail closed htail hx hsp
    rw [xmlTag_start hn]
    have hend := tagEnd_attrs ht (tagEnd_blank hb htail)
    obtain ⟨e1, e2⟩ := take_name (xmlName_symbols hn) hend.notSymbol
    have hl := attrsText_length ht
    have hp : 0 < tail.length := by
      obtain ⟨c, r, rfl, _⟩ := htail
      simp
    obtain ⟨k, hk⟩ : ∃ k, (t ++ (b ++ tail)).length = k + 1 + a.length := by
      refine ⟨(t ++ (b ++ tail)).length - a.length - 1, ?_⟩
      simp only [List.length_append]
      omega
    have hxa := xmlAttrs_text ht (k + 1) (b ++ tail) [] (tagEnd_blank hb htail)
    rw [xmlAttrs_blank _ hb, hx, List.nil_append, ← hk] at hxa
    unfold xmlOpen
    dsimp only
    rw [e1, e2]
    obtain ⟨c, r, hcr, hc⟩ := hend
    have hs := hsp c r hcr
    rw [hcr] at hxa ⊢
    dsimp only
    have hc1 : c ≠ '>' := by rintro rfl; exact absurd hs (by decide)
    rw [if_neg hc1, if_pos hs]
    have := xmlAttrs_blank (r.length + 1) (b := [c]) (blank_of_space (by simpa using hs)) r []
    rw [List.singleton_append] at this
    rw [List.length_cons, this] at hxa
    rw [hxa]
  by_cases hz : t ++ b = []
  · obtain ⟨rfl, rfl⟩ := List.append_eq_nil_iff.1 hz
    have ha : a = [] := by
      have := attrsText_length ht
      simpa using this
    subst ha
    constructor
    · rw [xmlTag_start hn]
      obtain ⟨e1, e2⟩ := take_name (r := '>' :: s) (xmlName_symbols hn) (by
        intro c t e
        simp only [List.cons.injEq] at e
        rw [← e.1]; decide)
      unfold xmlOpen
      dsimp only
      simp only [List.nil_append]
      rw [e1, e2]
      dsimp only
      rw [if_pos rfl]
    · rw [xmlTag_start hn]
      obtain ⟨e1, e2⟩ := take_name (r := '/' :: '>' :: s) (xmlName_symbols hn) (by
        intro c t e
        simp only [List.cons.injEq] at e
        rw [← e.1]; decide)
      unfold xmlOpen
      dsimp only
      simp only [List.nil_append]
      rw [e1, e2]
      dsimp only
      rw [if_neg (by decide), if_neg (by decide), if_pos rfl]
      rfl
  · have hsp : ∀ (tail : List Char) (c : Char) (r : List Char), t ++ (b ++ tail) = c :: r → isXmlSpace c = true := by
      intro tail c r e
      cases ht with
      | nil =>
        obtain ⟨d, b', rfl⟩ := List.exists_cons_of_ne_nil hz
        simp only [List.nil_append, List.cons_append, List.cons.injEq] at e
        rw [← e.1]
        exact blank_space hb d (by simp)
      | @cons b0 n b1 b2 raw v s' q a hb0 hne =>
        obtain ⟨d, b', rfl⟩ := List.exists_cons_of_ne_nil hne
        simp only [List.cons_append, List.cons.injEq] at e
        rw [← e.1]
        exact blank_space hb0 d (by simp)
    constructor
    · exact key _ false ⟨_, _, rfl, by decide⟩ (fun k acc => (xmlAttrs_end k s acc).1) (hsp _)
    · exact key _ true ⟨_, _, rfl, by decide⟩ (fun k acc => (xmlAttrs_end k s acc).2) (hsp _)

/-- An end tag. -/
theorem xmlClose_text {n b : List Char} (hn : XmlName n) (hb : Blank b) (s : List Char) (a : XmlAttrs)
    (before kids : XmlForest) (fs : List XmlFrame) :
    xmlTag ('/' :: (n ++ (b ++ '>' :: s)))
        { open_ := { name := n, attrs := a, before := before } :: fs, kids := kids } =
      .ok (s, { open_ := fs, kids := before.app (.elem n a kids .nil) }) := by
  have hend := (tagEnd_blank hb (s := '>' :: s) ⟨_, _, rfl, by decide⟩).notSymbol
  obtain ⟨e1, e2⟩ := take_name (xmlName_symbols hn) hend
  unfold xmlTag
  dsimp only
  rw [if_neg (by decide), if_pos rfl]
  unfold xmlClose
  dsimp only
  rw [e1, e2, if_pos rfl, dropWhile_ws (blank_space hb), List.dropWhile_cons_of_neg (by decide)]
  rfl

/-! ### comments -/

theorem skipPast_comment (s : List Char) : ∀ c : List Char, ¬ ['-', '-'] <:+: c → c.getLast? ≠ some '-' →
    skipPast ['-', '-', '>'] (c ++ '-' :: '-' :: '>' :: s) = some s
  | [], _, _ => by
    rw [List.nil_append, skipPast, if_pos ⟨s, rfl⟩]
    rfl
  | [x], _, hl => by
    have hx : x ≠ '-' := by simpa using hl
    have ih := skipPast_comment s [] (by simp) (by simp)
    simp only [List.cons_append, List.nil_append] at ih ⊢
    rw [skipPast, if_neg, ih]
    rintro ⟨t, ht⟩
    simp only [List.cons_append, List.cons.injEq] at ht
    exact hx ht.1.symm
  | x :: y :: c, hi, hl => by
    have ih := skipPast_comment s (y :: c) (fun h => hi (h.trans (List.infix_cons (List.infix_refl _))))
      (by rwa [List.getLast?_cons_cons] at hl)
    simp only [List.cons_append] at ih ⊢
    rw [skipPast, if_neg, ih]
    rintro ⟨t, ht⟩
    simp only [List.cons_append, List.cons.injEq] at ht
    exact hi ⟨[], c, by simp [← ht.1, ← ht.2.1]⟩

/-! ### whole documents -/

theorem markup_no_zero {i : Bool} {s : List Char} {f : XmlForest} (h : Markup i s f) : Char.ofNat 0 ∉ s := by
  have hnm : ∀ {n : List Char}, XmlName n → Char.ofNat 0 ∉ n := by
    intro n hn hm
    have := xmlName_symbols hn _ hm
    exact absurd this (by decide)
  have hat : ∀ {t : List Char} {a : XmlAttrs}, AttrsText t a → Char.ofNat 0 ∉ t := by
    intro t a h
    induction h with
    | nil => simp
    | cons hb hne hn hb1 hb2 hq hv hs ih =>
      have h1 := blank_no_zero hb
      have h2 := blank_no_zero hb1
      have h3 := blank_no_zero hb2
      have h4 := hnm hn
      have h5 := (attrText_no_zero hv).1
      simp only [List.mem_append, List.mem_cons, not_or]
      refine ⟨h1, h4, h2, by decide, h3, ?_, h5, ?_, ih⟩
      · rcases hq with rfl | rfl <;> decide
      · rcases hq with rfl | rfl <;> decide
  induction h with
  | stop hb => exact blank_no_zero hb
  | comment hb hc _ ih =>
    simp only [List.mem_append, List.mem_cons, not_or]
    exact ⟨blank_no_zero hb, by decide, by decide, by decide, by decide, hc.2.2, by decide, by decide, by decide, ih⟩
  | leaf hb hn ht hb' _ ih =>
    simp only [List.mem_append, List.mem_cons, not_or]
    exact ⟨blank_no_zero hb, by decide, hnm hn, hat ht, blank_no_zero hb', by decide, by decide, ih⟩
  | node hb hn ht hb' _ hb2 _ ih1 ih2 =>
    simp only [List.mem_append, List.mem_cons, not_or]
    exact ⟨blank_no_zero hb, by decide, hnm hn, hat ht, blank_no_zero hb', by decide, ih1, by decide, by decide,
      hnm hn, blank_no_zero hb2, by decide, ih2⟩
  | text ht _ _ _ ih =>
    simp only [List.mem_append, not_or]
    exact ⟨(bodyText_no_zero ht).1, ih⟩

/-- The parser reads on behind the text with the elements added. -/
theorem parseFrom_markup {i : Bool} {s : List Char} {f : XmlForest} (h : Markup i s f) :
    ∀ (rest : List Char) (st : XmlState), (rest = [] ∨ rest.head? = some '<') → (i = true → st.open_ ≠ []) →
    parseFrom (s ++ rest) st = parseFrom rest { st with kids := st.kids.app f } := by
  have hbd : ∀ rest : List Char, (rest = [] ∨ rest.head? = some '<') → Boundary rest := by
    intro rest h
    cases rest with
    | nil => exact boundary_nil
    | cons c r =>
      have : c = '<' := by simpa using h
      subst this
      exact boundary_tag r
  induction h with
  | stop hb =>
    intro rest st hr _
    rw [parseFrom_ws _ (blank_space hb) (hbd _ hr), XmlForest.app_nil]
  | @comment i b c s f hb hc _ ih =>
    intro rest st hr ho
    rw [List.append_assoc, List.cons_append, parseFrom_ws _ (blank_space hb) (boundary_tag _), parseFrom_tag]
    have e : xmlTag ('!' :: '-' :: '-' :: (c ++ '-' :: '-' :: '>' :: s) ++ rest) st = .ok (s ++ rest, st) := by
      simp only [List.cons_append, List.append_assoc]
      unfold xmlTag
      dsimp only
      rw [if_neg (by decide), if_neg (by decide), if_neg (by decide), if_pos rfl]
      unfold xmlBang
      simp only [skipPast_comment _ _ hc.1 hc.2.1]
    rw [e]
    exact ih rest st hr ho
  | @leaf i b n t b' s a f hb hn ht hb' _ ih =>
    intro rest st hr ho
    rw [List.append_assoc, List.cons_append, parseFrom_ws _ (blank_space hb) (boundary_tag _), parseFrom_tag]
    have e := (xmlOpen_text hn ht hb' (s ++ rest) st).2
    have e' : n ++ (t ++ (b' ++ '/' :: '>' :: s)) ++ rest = n ++ (t ++ (b' ++ '/' :: '>' :: (s ++ rest))) := by simp
    rw [e', e]
    dsimp only
    rw [ih rest (st.leaf n a) hr ho]
    unfold XmlState.leaf
    dsimp only
    rw [XmlForest.app_assoc]
    rfl
  | @node i b n t b' ks b2 s a k f hb hn ht hb' _ hb2 _ ih1 ih2 =>
    intro rest st hr ho
    rw [List.append_assoc, List.cons_append, parseFrom_ws _ (blank_space hb) (boundary_tag _), parseFrom_tag]
    have e := (xmlOpen_text hn ht hb' (ks ++ '<' :: '/' :: (n ++ (b2 ++ '>' :: (s ++ rest)))) st).1
    have e' : n ++ (t ++ (b' ++ '>' :: (ks ++ '<' :: '/' :: (n ++ (b2 ++ '>' :: s))))) ++ rest =
        n ++ (t ++ (b' ++ '>' :: (ks ++ '<' :: '/' :: (n ++ (b2 ++ '>' :: (s ++ rest)))))) := by simp
    rw [e', e]
    dsimp only
    rw [ih1 _ _ (.inr rfl) (fun _ => by simp [XmlState.push]), parseFrom_tag]
    unfold XmlState.push
    dsimp only
    rw [xmlClose_text hn hb2]
    dsimp only
    rw [ih2 rest { open_ := st.open_, kids := st.kids.app (XmlForest.elem n a (XmlForest.nil.app k) XmlForest.nil) } hr ho]
    dsimp only
    rw [XmlForest.app_assoc]
    rfl
  | @text t v s f ht hb _ hs ih =>
    intro rest st hr ho
    have ho' := ho rfl
    have hr' : s ++ rest = [] ∨ (s ++ rest).head? = some '<' := by
      cases s with
      | nil => simpa using hr
      | cons c s => simpa using hs
    have hne : t ≠ [] := by
      rintro rfl
      exact hb (by intro c hc; cases hc)
    rw [List.append_assoc]
    generalize hw : s ++ rest = w at *
    have hp := pcdata_text w hr' ht ((t ++ w).length + 1) (by simp; omega)
    have hlt : ∀ c r, (t ++ w).dropWhile isXmlSpace = c :: r → c ≠ '<' := by
      clear hp ih hw hne
      have hm : ∀ t : List Char, '<' ∉ t → (∃ c ∈ t, isXmlSpace c = false) → ∀ c r,
          (t ++ w).dropWhile isXmlSpace = c :: r → c ≠ '<' := by
        intro t
        induction t with
        | nil => rintro _ ⟨c, hc, _⟩; cases hc
        | cons x t ih =>
          rintro h1 ⟨c, hc, hcs⟩ d r e
          rw [List.cons_append] at e
          by_cases hx : isXmlSpace x = true
          · rw [List.dropWhile_cons_of_pos hx] at e
            refine ih (fun h => h1 (by simp [h])) ⟨c, ?_, hcs⟩ d r e
            rcases List.mem_cons.1 hc with rfl | h
            · rw [hx] at hcs; cases hcs
            · exact h
          · rw [List.dropWhile_cons_of_neg hx] at e
            simp only [List.cons.injEq] at e
            rw [← e.1]
            rintro rfl
            exact h1 (by simp)
      refine hm t ?_ ?_
      · exact bodyText_no_tag ht
      · by_contra hcon
        push Not at hcon
        exact hb (blank_of_space fun c hc => by simpa using hcon c hc)
    have hdn : (t ++ w).dropWhile isXmlSpace ≠ [] := by
      intro h
      apply hb
      apply blank_of_space
      intro c hc
      rw [List.dropWhile_eq_nil_iff] at h
      exact h c (by simp [hc])
    obtain ⟨c, r, hcr⟩ := List.exists_cons_of_ne_nil (show t ++ w ≠ [] by simp [hne])
    obtain ⟨c', r', hcr'⟩ := List.exists_cons_of_ne_nil hdn
    have hc' := hlt c' r' hcr'
    have hc : c ≠ '<' := by
      rintro rfl
      have : (t ++ w).head? = t.head? := by
        obtain ⟨x, y, rfl⟩ := List.exists_cons_of_ne_nil hne
        rfl
      rw [hcr] at this
      exact bodyText_no_tag ht (List.mem_of_head? this.symm)
    rw [hcr] at hcr' hp ⊢
    show parseTree (r.length + 1 + 1) (c :: r) st = _
    conv_lhs => unfold parseTree
    dsimp only
    rw [if_neg hc, hcr']
    dsimp only
    rw [if_neg hc', if_neg ho', show r.length + 2 = (c :: r).length + 1 from rfl, hp]
    dsimp only
    have hl : w.length ≤ r.length := by
      have e := congrArg List.length hcr
      obtain ⟨x, y, rfl⟩ := List.exists_cons_of_ne_nil hne
      simp only [List.length_append, List.length_cons] at e
      omega
    rw [parseTree_eq (by omega), ← hw,
      ih rest { open_ := st.open_, kids := st.kids.app (XmlForest.text (cStr v) XmlForest.nil) } hr (fun _ => ho')]
    dsimp only
    rw [XmlForest.app_assoc, cStr_id (bodyText_no_zero ht).2]
    rfl

theorem document_no_zero {s : List Char} {f : XmlForest} (h : Document s f) : Char.ofNat 0 ∉ s := by
  cases h with
  | plain h => exact markup_no_zero h
  | decl h1 h2 h =>
    simp only [List.mem_append, List.mem_cons, not_or]
    exact ⟨by decide, by decide, by decide, by decide, by decide, by decide, h2, by decide, by decide, markup_no_zero h⟩

end Verif
