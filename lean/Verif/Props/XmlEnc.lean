import Verif.Proofs.XmlEnc
/-! Property theorems C108 (XML files in other encodings). -/
namespace Verif
open Spec

/-! The name of the encoding -/

theorem isLetter_iff (c l : Char) (hl : l ∈ ['i', 's', 'o', 'l', 'a', 't', 'n']) : isLetter c l = true ↔ c.toLower = l := by
  have small : ∀ n < 128, ∀ l ∈ ['i', 's', 'o', 'l', 'a', 't', 'n'],
      (isLetter (Char.ofNat n) l = true ↔ (Char.ofNat n).toLower = l) := by decide +kernel
  by_cases h : c.toNat < 128
  · have := small c.toNat h l hl
    rwa [Char.ofNat_toNat] at this
  · have hl' : l.toNat < 128 := by
      have : ∀ l ∈ ['i', 's', 'o', 'l', 'a', 't', 'n'], l.toNat < 128 := by decide
      exact this l hl
    constructor
    · intro h1
      unfold isLetter at h1
      have h1 : c.toNat ||| 32 = l.toNat := by simpa using h1
      have : c.toNat ≤ c.toNat ||| 32 := Nat.left_le_or
      omega
    · intro h1
      exfalso
      unfold Char.toLower at h1
      have h2 : ¬ c.val ≤ 90 := by
        intro h3
        have : c.toNat ≤ 90 := h3
        omega
      rw [dif_neg (fun h3 => h2 h3.2)] at h1
      rw [h1] at h
      omega

theorem toLower_fix (c l : Char) (hl : l ∈ ['-', '8', '5', '9', '1']) : c.toLower = l ↔ c = l := by
  have small : ∀ n < 128, ∀ l ∈ ['-', '8', '5', '9', '1'], ((Char.ofNat n).toLower = l ↔ Char.ofNat n = l) := by decide +kernel
  by_cases h : c.toNat < 128
  · have := small c.toNat h l hl
    rwa [Char.ofNat_toNat] at this
  · unfold Char.toLower
    have h2 : ¬ c.val ≤ 90 := by
      intro h3
      have : c.toNat ≤ 90 := h3
      omega
    rw [dif_neg (fun h3 => h2 h3.2)]

theorem isLatin1Name_iff (n : List Char) : isLatin1Name n = true ↔
    n.map Char.toLower ∈ [['i', 's', 'o', '-', '8', '8', '5', '9', '-', '1'], ['l', 'a', 't', 'i', 'n', '1']] := by
  simp only [List.mem_cons, List.not_mem_nil, or_false]
  constructor
  · intro h
    unfold isLatin1Name at h
    split at h
    · simp only [Bool.and_eq_true] at h
      rw [isLetter_iff _ _ (by decide), isLetter_iff _ _ (by decide), isLetter_iff _ _ (by decide)] at h
      left
      simp only [List.map_cons, List.map_nil, h]
      decide
    · simp only [Bool.and_eq_true] at h
      rw [isLetter_iff _ _ (by decide), isLetter_iff _ _ (by decide), isLetter_iff _ _ (by decide), isLetter_iff _ _ (by decide),
        isLetter_iff _ _ (by decide)] at h
      right
      simp only [List.map_cons, List.map_nil, h]
      decide
    · cases h
  · rintro (h | h)
    · simp only [List.map_eq_cons_iff, List.map_eq_nil_iff] at h
      obtain ⟨c0, _, rfl, h0, c1, _, rfl, h1, c2, _, rfl, h2, c3, _, rfl, h3, c4, _, rfl, h4, c5, _, rfl, h5, c6, _, rfl, h6,
        c7, _, rfl, h7, c8, _, rfl, h8, c9, _, rfl, h9, rfl⟩ := h
      rw [toLower_fix _ _ (by decide)] at h3 h4 h5 h6 h7 h8 h9
      subst h3 h4 h5 h6 h7 h8 h9
      unfold isLatin1Name
      simp only [Bool.and_eq_true]
      rw [isLetter_iff _ _ (by decide), isLetter_iff _ _ (by decide), isLetter_iff _ _ (by decide)]
      exact ⟨⟨h0, h1⟩, h2⟩
    · simp only [List.map_eq_cons_iff, List.map_eq_nil_iff] at h
      obtain ⟨c0, _, rfl, h0, c1, _, rfl, h1, c2, _, rfl, h2, c3, _, rfl, h3, c4, _, rfl, h4, c5, _, rfl, h5, rfl⟩ := h
      rw [toLower_fix _ _ (by decide)] at h5
      subst h5
      unfold isLatin1Name
      simp only [Bool.and_eq_true]
      rw [isLetter_iff _ _ (by decide), isLetter_iff _ _ (by decide), isLetter_iff _ _ (by decide), isLetter_iff _ _ (by decide),
        isLetter_iff _ _ (by decide)]
      exact ⟨⟨⟨⟨h0, h1⟩, h2⟩, h3⟩, h4⟩

theorem isXmlSpace_iff (c : Char) : isXmlSpace c = true ↔ c = ' ' ∨ c = '\t' ∨ c = '\n' ∨ c = '\r' := by
  unfold isXmlSpace
  simp only [Bool.or_eq_true, decide_eq_true_eq]
  tauto

theorem dropWhile_split (p : Char → Bool) (l : List Char) : ∃ a, (∀ c ∈ a, p c = true) ∧ l = a ++ l.dropWhile p :=
  ⟨l.takeWhile p, fun c hc => List.mem_takeWhile_imp hc, (List.takeWhile_append_dropWhile).symm⟩

theorem dropWhile_pass (p : Char → Bool) (a : List Char) (ha : ∀ c ∈ a, p c = true) (b : Char) (hb : p b = false) (r : List Char) :
    (a ++ b :: r).dropWhile p = b :: r ∧ (a ++ b :: r).takeWhile p = a := by
  induction a with
  | nil => simp [List.dropWhile_cons, List.takeWhile_cons, hb]
  | cons x a ih =>
    have hx := ha x List.mem_cons_self
    have := ih (fun c hc => ha c (List.mem_cons_of_mem _ hc))
    simp [List.dropWhile_cons, List.takeWhile_cons, hx, this]

theorem encodingName_iff (s n : List Char) : encodingName s = some n ↔ ∃ sp1 sp2 rest q,
    (∀ c ∈ sp1 ++ sp2, isXmlSpace c = true) ∧ (q = '"' ∨ q = '\'') ∧ (∀ c ∈ n, isXmlSymbol c = true) ∧
    s = 'e' :: 'n' :: 'c' :: 'o' :: 'd' :: 'i' :: 'n' :: 'g' :: (sp1 ++ '=' :: (sp2 ++ q :: (n ++ q :: rest))) := by
  constructor
  · intro h
    unfold encodingName at h
    split at h
    · rename_i r
      obtain ⟨sp1, hs1, e1⟩ := dropWhile_split isXmlSpace r
      split at h
      · rename_i r2 hr2
        obtain ⟨sp2, hs2, e2⟩ := dropWhile_split isXmlSpace r2
        split at h
        · rename_i q r3 hr3
          split at h
          · rename_i hq
            split at h
            · rename_i hd
              simp only [Option.some.injEq] at h
              have e3 := (List.takeWhile_append_dropWhile (p := isXmlSymbol) (l := r3)).symm
              obtain ⟨rest, hrest⟩ : ∃ rest, r3.dropWhile isXmlSymbol = q :: rest := by
                generalize r3.dropWhile isXmlSymbol = d at hd
                cases d with
                | nil => cases hd
                | cons x d => simp only [List.head?_cons, Option.some.injEq] at hd; exact ⟨d, by rw [hd]⟩
              refine ⟨sp1, sp2, rest, q, ?_, hq, ?_, ?_⟩
              · intro c hc
                rcases List.mem_append.1 hc with hc | hc
                · exact hs1 c hc
                · exact hs2 c hc
              · rw [← h]; exact fun c hc => List.mem_takeWhile_imp hc
              · rw [e1, hr2, e2, hr3]
                conv_lhs => rw [e3]
                rw [hrest, h]
            · cases h
          · cases h
        · cases h
      · cases h
    · cases h
  · rintro ⟨sp1, sp2, rest, q, hs, hq, hn, rfl⟩
    have h1 : ∀ c ∈ sp1, isXmlSpace c = true := fun c hc => hs c (List.mem_append_left _ hc)
    have h2 : ∀ c ∈ sp2, isXmlSpace c = true := fun c hc => hs c (List.mem_append_right _ hc)
    have hqs : isXmlSpace q = false ∧ isXmlSymbol q = false := by
      rcases hq with rfl | rfl <;> decide
    simp only [encodingName, (dropWhile_pass isXmlSpace sp1 h1 '=' (by decide) _).1, (dropWhile_pass isXmlSpace sp2 h2 q hqs.1 _).1,
      (dropWhile_pass isXmlSymbol n hn q hqs.2 _).1, (dropWhile_pass isXmlSymbol n hn q hqs.2 _).2, if_pos hq, List.head?_cons, if_true]

theorem declScan_iff (s n : List Char) : declScan s = some n ↔ ∃ pre r, s = pre ++ 'e' :: 'n' :: r ∧ (∀ c ∈ pre, c ≠ '?') ∧
    (∀ a b, pre ≠ a ++ 'e' :: 'n' :: b) ∧ encodingName ('e' :: 'n' :: r) = some n := by
  induction s with
  | nil =>
    constructor
    · intro h; cases h
    · rintro ⟨pre, r, h, -⟩
      simp at h
  | cons c s ih =>
    cases s with
    | nil =>
      constructor
      · intro h; cases h
      · rintro ⟨pre, r, h, -⟩
        cases pre <;> simp at h
    | cons d r =>
      unfold declScan
      by_cases h1 : c = '?'
      · rw [if_pos h1]
        constructor
        · intro h; cases h
        · rintro ⟨pre, r', h, h2, -, -⟩
          cases pre with
          | nil => simp at h; rw [h1] at h; exact absurd h.1 (by decide)
          | cons x pre =>
            simp at h
            exact absurd (h.1.symm.trans h1) (h2 x List.mem_cons_self)
      rw [if_neg h1]
      by_cases h2 : c = 'e' ∧ d = 'n'
      · rw [if_pos h2, h2.1, h2.2]
        constructor
        · intro h
          exact ⟨[], r, rfl, by simp, by simp, h⟩
        · rintro ⟨pre, r', h, -, h4, h5⟩
          cases pre with
          | nil =>
            simp at h
            rw [h]; exact h5
          | cons x pre =>
            cases pre with
            | nil =>
              simp at h
            | cons y pre =>
              simp at h
              exact absurd (by rw [h.1, h.2.1]; rfl) (h4 [] pre)
      · rw [if_neg h2, ih]
        constructor
        · rintro ⟨pre, r', e, g1, g2, g3⟩
          refine ⟨c :: pre, r', by rw [e]; rfl, ?_, ?_, g3⟩
          · intro x hx
            rcases List.mem_cons.1 hx with rfl | hx
            · exact h1
            · exact g1 x hx
          · intro a b hab
            cases a with
            | nil =>
              simp at hab
              apply h2
              rw [hab.2] at e
              simp at e
              exact ⟨hab.1, e.1⟩
            | cons y a =>
              simp at hab
              exact g2 a b hab.2
        · rintro ⟨pre, r', e, g1, g2, g3⟩
          cases pre with
          | nil =>
            simp at e
            exact absurd ⟨e.1, e.2.1⟩ h2
          | cons x pre =>
            simp only [List.cons_append, List.cons.injEq] at e
            refine ⟨pre, r', e.2, fun y hy => g1 y (List.mem_cons_of_mem _ hy), fun a b hab => g2 (x :: a) b (by rw [hab]; rfl), g3⟩

theorem latin1_symbols (n : List Char) (h : isLatin1Name n = true) : ∀ c ∈ n, isXmlSymbol c = true := by
  rw [isLatin1Name_iff] at h
  intro c hc
  have hl : c.toLower ∈ n.map Char.toLower := List.mem_map_of_mem hc
  have hin : c.toLower ∈ ['i', 's', 'o', 'l', 'a', 't', 'n', '-', '8', '5', '9', '1'] := by
    simp only [List.mem_cons, List.not_mem_nil, or_false] at h
    rcases h with h | h
    · rw [h] at hl
      have : ∀ x ∈ ['i', 's', 'o', '-', '8', '8', '5', '9', '-', '1'], x ∈ ['i', 's', 'o', 'l', 'a', 't', 'n', '-', '8', '5', '9', '1'] := by decide
      exact this _ hl
    · rw [h] at hl
      have : ∀ x ∈ ['l', 'a', 't', 'i', 'n', '1'], x ∈ ['i', 's', 'o', 'l', 'a', 't', 'n', '-', '8', '5', '9', '1'] := by decide
      exact this _ hl
  have small : ∀ n < 128, (Char.ofNat n).toLower ∈ ['i', 's', 'o', 'l', 'a', 't', 'n', '-', '8', '5', '9', '1'] →
      isXmlSymbol (Char.ofNat n) = true := by decide +kernel
  by_cases hn : c.toNat < 128
  · have := small c.toNat hn
    rw [Char.ofNat_toNat] at this
    exact this hin
  · unfold isXmlSymbol isXmlStart
    simp only [Bool.or_eq_true, decide_eq_true_eq]
    exact Or.inl (Or.inl (Or.inl (Or.inr (by omega))))

theorem ite_other {p : Prop} [Decidable p] {a b l : XmlEncoding} (h : (if p then a else b) = l) (ha : a ≠ l) : b = l := by
  by_cases hp : p
  · rw [if_pos hp] at h; exact absurd h ha
  · rwa [if_neg hp] at h

theorem guess_latin1 {data : List Char} (h : guessEncoding data = .latin1) :
    ∃ n, declEncoding data = some n ∧ isLatin1Name n = true := by
  unfold guessEncoding at h
  split at h
  · have h := ite_other (ite_other (ite_other (ite_other (ite_other (ite_other (ite_other (ite_other (ite_other (ite_other
      (ite_other h (by decide)) (by decide)) (by decide)) (by decide)) (by decide)) (by decide)) (by decide)) (by decide)) (by decide))
      (by decide)) (by decide)
    split at h
    · rename_i n hn
      split at h
      · exact ⟨n, hn, by assumption⟩
      · cases h
    · cases h
  · cases h

/-- C108: a file is taken as Latin-1 exactly if its declaration says so. -/
theorem C108_latin1_iff (data : List Char) : guessEncoding data = .latin1 ↔ SaysLatin1 data := by
  have str1 : "<?xml".toList = ['<', '?', 'x', 'm', 'l'] := by decide
  have str2 : "encoding".toList = ['e', 'n', 'c', 'o', 'd', 'i', 'n', 'g'] := by decide
  have str3 : ["iso-8859-1".toList, "latin1".toList] =
    [['i', 's', 'o', '-', '8', '8', '5', '9', '-', '1'], ['l', 'a', 't', 'i', 'n', '1']] := by decide
  unfold SaysLatin1
  rw [str1, str2, str3]
  constructor
  · intro h
    obtain ⟨n, hn, hl⟩ := guess_latin1 h
    unfold declEncoding at hn
    split at hn
    · rename_i c r
      split at hn
      · rename_i hc
        rw [declScan_iff] at hn
        obtain ⟨pre, r', e, g1, g2, g3⟩ := hn
        rw [encodingName_iff] at g3
        obtain ⟨sp1, sp2, rest, q, k1, k2, k3, k4⟩ := g3
        refine ⟨[c], pre, sp1, sp2, n, rest, q, ?_, by simp, g1, g2, k2, (isLatin1Name_iff n).1 hl, ?_⟩
        · intro x hx
          rw [← isXmlSpace_iff]
          simp only [List.mem_append, List.mem_singleton] at hx
          rcases hx with (rfl | hx) | hx
          · exact hc
          · exact k1 x (List.mem_append_left _ hx)
          · exact k1 x (List.mem_append_right _ hx)
        · rw [e, k4]
          simp
      · cases hn
    · cases hn
  · rintro ⟨sp, pre, sp1, sp2, name, rest, q, h1, h2, h3, h4, h5, h6, rfl⟩
    cases sp with
    | nil => exact absurd rfl h2
    | cons c sp =>
      have hl := (isLatin1Name_iff name).2 h6
      have hsp : ∀ x ∈ c :: sp ++ sp1 ++ sp2, isXmlSpace x = true := fun x hx => (isXmlSpace_iff x).2 (h1 x hx)
      have hscan : declScan (sp ++ pre ++ ['e', 'n', 'c', 'o', 'd', 'i', 'n', 'g'] ++ sp1 ++ '=' :: (sp2 ++ q :: (name ++ q :: rest))) = some name := by
        rw [declScan_iff]
        refine ⟨sp ++ pre, ['c', 'o', 'd', 'i', 'n', 'g'] ++ sp1 ++ '=' :: (sp2 ++ q :: (name ++ q :: rest)), by simp, ?_, ?_, ?_⟩
        · intro x hx
          rcases List.mem_append.1 hx with hx | hx
          · have := h1 x (by simp [hx])
            rintro rfl
            revert this
            decide
          · exact h3 x hx
        · intro a b hab
          have key : ∀ (sp a : List Char), (∀ x ∈ sp, x ≠ 'e') → sp ++ pre = a ++ 'e' :: 'n' :: b → ∃ a', pre = a' ++ 'e' :: 'n' :: b := by
            intro sp
            induction sp with
            | nil => intro a _ h; exact ⟨a, h⟩
            | cons y sp ih =>
              intro a hy h
              cases a with
              | nil =>
                simp at h
                exact absurd h.1 (hy y List.mem_cons_self)
              | cons z a =>
                simp at h
                exact ih a (fun x hx => hy x (List.mem_cons_of_mem _ hx)) h.2
          obtain ⟨a', ha'⟩ := key sp a (by
            intro x hx
            have := h1 x (by simp [hx])
            rintro rfl
            revert this
            decide) hab
          exact h4 a' b ha'
        · rw [encodingName_iff]
          refine ⟨sp1, sp2, rest, q, ?_, h5, latin1_symbols name hl, by simp⟩
          intro x hx
          rcases List.mem_append.1 hx with hx | hx
          · exact hsp x (by simp [hx])
          · exact hsp x (by simp [hx])
      have hdecl : ∀ l, declEncoding ('<' :: '?' :: 'x' :: 'm' :: 'l' :: c :: l) = declScan l := by
        intro l
        simp only [declEncoding, hsp c (by simp), if_true]
      have hg : ∀ l, guessEncoding ('<' :: '?' :: 'x' :: 'm' :: l) = match declEncoding ('<' :: '?' :: 'x' :: 'm' :: l) with
          | some n => if isLatin1Name n then .latin1 else .utf8
          | none => .utf8 := by
        intro l
        unfold guessEncoding
        dsimp only
        rw [if_neg (by decide), if_neg (by decide), if_neg (by decide), if_neg (by decide), if_neg (by decide), if_neg (by decide),
          if_neg (by decide), if_neg (by decide), if_neg (by decide), if_neg (by decide), if_neg (by decide)]
        rfl
      have e : ['<', '?', 'x', 'm', 'l'] ++ (c :: sp) ++ pre ++ ['e', 'n', 'c', 'o', 'd', 'i', 'n', 'g'] ++ sp1 ++
          '=' :: (sp2 ++ q :: (name ++ q :: rest)) = '<' :: '?' :: 'x' :: 'm' :: 'l' :: c ::
          (sp ++ pre ++ ['e', 'n', 'c', 'o', 'd', 'i', 'n', 'g'] ++ sp1 ++ '=' :: (sp2 ++ q :: (name ++ q :: rest))) := by
        simp
      rw [e, hg, hdecl, hscan]
      simp only [hl, if_true]

/-! Marked and unmarked files -/

theorem bom_toNat : bom.toNat = 0xFEFF := by decide

theorem asUtf8_bom (t : List Char) : asUtf8 (bom :: t) = byte 0xEF :: byte 0xBB :: byte 0xBF :: asUtf8 t := by
  rw [asUtf8_cons, bom_toNat]
  have : utf8Bytes 0xFEFF = [byte 0xEF, byte 0xBB, byte 0xBF] := by decide
  rw [this]
  rfl

/-- The first byte of the UTF-8 form of a character. -/
theorem utf8_first (c : Char) : ∃ b bs, utf8Bytes c.toNat = b :: bs ∧ (b.toNat = 0 → c = nul) ∧ b.toNat < 0xF8 ∧
    (b.toNat = 0x3c → c = '<') ∧
    (c.toNat < 128 → b = c ∧ bs = []) ∧
    (b.toNat = 0xEF → ∃ b1 b2, bs = [b1, b2] ∧ (b1.toNat = 0xBB → b2.toNat = 0xBF → c = bom)) ∧ (∀ x ∈ bs, 128 ≤ x.toNat) := by
  have hc := char_lt c
  have hn : c = Char.ofNat c.toNat := (Char.ofNat_toNat c).symm
  have tn : ∀ k, k < 256 → (Char.ofNat (k % 256)).toNat = k := by
    intro k hk
    have := byte_toNat k
    unfold byte at this
    omega
  by_cases h1 : c.toNat < 0x80
  · have e : utf8Bytes c.toNat = [Char.ofNat (c.toNat % 256)] := by unfold utf8Bytes; simp only [h1, if_true]
    have hb := tn c.toNat (by omega)
    refine ⟨_, [], e, ?_, by omega, ?_, ?_, by omega, by simp⟩
    · intro h; rw [hb] at h; rw [hn, h]; try rfl
    · intro h; rw [hb] at h; rw [hn, h]; try rfl
    · intro _; refine ⟨?_, rfl⟩
      rw [Nat.mod_eq_of_lt (by omega)]; exact hn.symm
  by_cases h2 : c.toNat < 0x800
  · have e : utf8Bytes c.toNat = [Char.ofNat ((0xC0 ||| c.toNat / 64) % 256), Char.ofNat ((0x80 ||| c.toNat % 64) % 256)] := by
      unfold utf8Bytes; simp only [h1, h2, if_true, if_false]
    have o1 := or_C0 (c.toNat / 64) (by omega)
    have o2 := or_80 (c.toNat % 64) (by omega)
    have hb := tn (0xC0 ||| c.toNat / 64) (by omega)
    have hb2 := tn (0x80 ||| c.toNat % 64) (by omega)
    refine ⟨_, _, e, by omega, by omega, by omega, by omega, by omega, ?_⟩
    intro x hx
    rw [List.mem_singleton] at hx
    rw [hx]
    omega
  by_cases h3 : c.toNat < 0x10000
  · have e : utf8Bytes c.toNat = [Char.ofNat ((0xE0 ||| c.toNat / 4096) % 256), Char.ofNat ((0x80 ||| c.toNat / 64 % 64) % 256),
        Char.ofNat ((0x80 ||| c.toNat % 64) % 256)] := by
      unfold utf8Bytes; simp only [h1, h2, h3, if_true, if_false]
    have o1 := or_E0 (c.toNat / 4096) (by omega)
    have o2 := or_80 (c.toNat / 64 % 64) (by omega)
    have o3 := or_80 (c.toNat % 64) (by omega)
    have hb := tn (0xE0 ||| c.toNat / 4096) (by omega)
    have hb2 := tn (0x80 ||| c.toNat / 64 % 64) (by omega)
    have hb3 := tn (0x80 ||| c.toNat % 64) (by omega)
    refine ⟨_, _, e, by omega, by omega, by omega, by omega, ?_, ?_⟩
    · intro h
      refine ⟨_, _, rfl, ?_⟩
      intro g1 g2
      have : c.toNat = 0xFEFF := by
        rw [hb, o1] at h
        rw [hb2, o2] at g1
        rw [hb3, o3] at g2
        omega
      rw [hn, this]
      rfl
    · intro x hx
      simp only [List.mem_cons, List.not_mem_nil, or_false] at hx
      rcases hx with rfl | rfl <;> omega
  · have e : utf8Bytes c.toNat = [Char.ofNat ((0xF0 ||| c.toNat / 262144) % 256), Char.ofNat ((0x80 ||| c.toNat / 4096 % 64) % 256),
        Char.ofNat ((0x80 ||| c.toNat / 64 % 64) % 256), Char.ofNat ((0x80 ||| c.toNat % 64) % 256)] := by
      unfold utf8Bytes; simp only [h1, h2, h3, if_false]
    have o1 := or_F0 (c.toNat / 262144) (by omega)
    have o2 := or_80 (c.toNat / 4096 % 64) (by omega)
    have o3 := or_80 (c.toNat / 64 % 64) (by omega)
    have o4 := or_80 (c.toNat % 64) (by omega)
    have hb := tn (0xF0 ||| c.toNat / 262144) (by omega)
    have hb2 := tn (0x80 ||| c.toNat / 4096 % 64) (by omega)
    have hb3 := tn (0x80 ||| c.toNat / 64 % 64) (by omega)
    have hb4 := tn (0x80 ||| c.toNat % 64) (by omega)
    refine ⟨_, _, e, by omega, by omega, by omega, by omega, by omega, ?_⟩
    intro x hx
    simp only [List.mem_cons, List.not_mem_nil, or_false] at hx
    rcases hx with rfl | rfl | rfl <;> omega

theorem skipBom_none (s : List Char) (h : ∀ r, s ≠ byte 0xEF :: byte 0xBB :: byte 0xBF :: r) : skipBom s = s := by
  unfold skipBom
  split
  · rename_i a b c r
    rw [if_neg]
    rintro ⟨ha, hb, hc⟩
    apply h r
    rw [← Char.ofNat_toNat a, ← Char.ofNat_toNat b, ← Char.ofNat_toNat c, ha, hb, hc]
    rfl
  · rfl

/-- A byte order mark in front makes no difference. -/
theorem loadXml_bom (t : List Char) (h : t.head? ≠ some bom) : loadXml (asUtf8 (bom :: t)) = loadXml (asUtf8 t) := by
  have e1 : skipBom (cStr (asUtf8 (bom :: t))) = cStr (asUtf8 t) := by
    rw [asUtf8_bom]
    unfold cStr
    rw [List.takeWhile_cons_of_pos (by decide), List.takeWhile_cons_of_pos (by decide), List.takeWhile_cons_of_pos (by decide)]
    unfold skipBom
    simp only [byte_toNat]
    rfl
  have e2 : skipBom (cStr (asUtf8 t)) = cStr (asUtf8 t) := by
    apply skipBom_none
    intro r hr
    cases t with
    | nil => cases hr
    | cons c t =>
      obtain ⟨b, bs, hb, -, -, -, -, h5, -⟩ := utf8_first c
      rw [asUtf8_cons, hb] at hr
      have hpre : byte 0xEF :: byte 0xBB :: byte 0xBF :: r <+: b :: bs ++ asUtf8 t := by
        rw [← hr]; exact List.takeWhile_prefix _
      rw [List.cons_append, List.cons_prefix_cons] at hpre
      obtain ⟨hb0, hpre⟩ := hpre
      obtain ⟨b1, b2, rfl, h6⟩ := h5 (by rw [← hb0]; decide)
      rw [List.cons_append, List.cons_append, List.cons_prefix_cons, List.cons_prefix_cons] at hpre
      apply h
      rw [List.head?_cons, h6 (by rw [← hpre.1]; decide) (by rw [← hpre.2.1]; decide)]
  unfold loadXml
  rw [e1, e2]

theorem unit16_cons (o : Order) (c : Char) (hc : c ≠ nul) : ∃ x y r, (if c.toNat < 0x10000 then unit16 o c.toNat
    else unit16 o (0xD800 + (c.toNat - 0x10000) / 1024) ++ unit16 o (0xDC00 + (c.toNat - 0x10000) % 1024)) = x :: y :: r ∧
    ¬ (x.toNat = 0 ∧ y.toNat = 0) := by
  have hlt := char_lt c
  have h0 : c.toNat ≠ 0 := by
    intro h
    apply hc
    rw [← Char.ofNat_toNat c, h]
    rfl
  by_cases h : c.toNat < 0x10000
  · rw [if_pos h]
    cases o
    · exact ⟨_, _, [], rfl, by rw [byte_toNat, byte_toNat]; omega⟩
    · exact ⟨_, _, [], rfl, by rw [byte_toNat, byte_toNat]; omega⟩
  · rw [if_neg h]
    cases o
    · exact ⟨_, _, _, rfl, by rw [byte_toNat, byte_toNat]; omega⟩
    · exact ⟨_, _, _, rfl, by rw [byte_toNat, byte_toNat]; omega⟩

/-- C108: a file in any Unicode encoding that starts with a byte order mark is read as the text it holds, on machines
of either byte order. -/
theorem C108_marked (native : Bool) (f : Form) (t : List Char) (hne : t ≠ []) (h0 : t.head? ≠ some nul) (hb : t.head? ≠ some bom) :
    loadFile native (f.bytes (bom :: t)) = loadXml (asUtf8 t) := by
  unfold loadFile
  rw [← loadXml_bom t hb]
  congr 1
  cases t with
  | nil => exact absurd rfl hne
  | cons c t =>
    have hc : c ≠ nul := fun h => h0 (by rw [h]; rfl)
    cases f with
    | utf8 =>
      unfold decodeFile
      have : guessEncoding (Form.utf8.bytes (bom :: c :: t)) = .utf8 := by
        show guessEncoding (asUtf8 (bom :: c :: t)) = .utf8
        rw [asUtf8_bom]
        obtain ⟨b, bs, hb, -⟩ := utf8_first c
        rw [asUtf8_cons, hb, List.cons_append]
        unfold guessEncoding
        simp only [byte_toNat]
        simp
      rw [this]
      rfl
    | utf16 o =>
      refine decodeFile_16 native o _ ?_
      obtain ⟨x, y, r, hxy, h2⟩ := unit16_cons o c hc
      have e : asUtf16 o (bom :: c :: t) = unit16 o 0xFEFF ++ (x :: y :: r) ++ asUtf16 o t := by
        unfold asUtf16
        rw [List.flatMap_cons, List.flatMap_cons, hxy, bom_toNat]
        simp
      rw [e]
      cases o
      · unfold guessEncoding
        simp [unit16, byte_toNat]
      · unfold guessEncoding
        by_cases hx : x.toNat = 0
        · have hy : y.toNat ≠ 0 := fun hy => h2 ⟨hx, hy⟩
          simp [unit16, byte_toNat, hx, hy]
        · simp [unit16, byte_toNat, hx]
    | utf32 o =>
      refine decodeFile_32 native o _ ?_
      have e : asUtf32 o (bom :: c :: t) = (match o with
          | .big => unit16 .big (0xFEFF / 65536) ++ unit16 .big 0xFEFF
          | .little => unit16 .little 0xFEFF ++ unit16 .little (0xFEFF / 65536)) ++ asUtf32 o (c :: t) := by
        unfold asUtf32
        rw [List.flatMap_cons, bom_toNat]
        cases o <;> rfl
      rw [e]
      cases o
      · unfold guessEncoding
        simp [unit16, byte_toNat]
      · unfold guessEncoding
        simp [unit16, byte_toNat]

/-- C108: without a mark a UTF-8 file is taken as it is unless it declares another encoding. -/
theorem C108_utf8 (native : Bool) (t : List Char) (h0 : t.head? ≠ some nul) (h1 : ∀ r, t ≠ '<' :: nul :: r)
    (hl : ¬ SaysLatin1 (asUtf8 t)) : loadFile native (asUtf8 t) = loadXml (asUtf8 t) := by
  have hl' : guessEncoding (asUtf8 t) ≠ .latin1 := fun h => hl ((C108_latin1_iff _).1 h)
  unfold loadFile decodeFile
  have : guessEncoding (asUtf8 t) = .utf8 := by
    cases t with
    | nil => rfl
    | cons c t =>
      obtain ⟨b, bs, hb, hb0, hb1, hb2, hb3, -, hb5⟩ := utf8_first c
      have k0 : b.toNat ≠ 0 := fun h => h0 (by rw [hb0 h]; rfl)
      have k1 : ∀ d1 r, bs ++ asUtf8 t = d1 :: r → b.toNat = 0x3c → d1.toNat ≠ 0 := by
        intro d1 r e hb' hd
        have hc := hb2 hb'
        have := hb3 (by rw [hc]; decide)
        rw [this.2, List.nil_append] at e
        cases t with
        | nil => cases e
        | cons c' t =>
          obtain ⟨b', bs', g, g0, -⟩ := utf8_first c'
          rw [asUtf8_cons, g, List.cons_append, List.cons.injEq] at e
          rw [← e.1] at hd
          exact h1 t (by rw [hc, g0 hd])
      rw [asUtf8_cons, hb, List.cons_append] at hl' ⊢
      generalize hs : bs ++ asUtf8 t = s at hl' ⊢
      unfold guessEncoding at hl' ⊢
      split
      · rename_i d0 d1 d2 d3 r heq
        rw [List.cons.injEq] at heq
        obtain ⟨rfl, rfl⟩ := heq
        have k1 := k1 d1 _ hs
        dsimp only at hl'
        have n1 : ¬ (b.toNat = 0 ∧ d1.toNat = 0 ∧ d2.toNat = 0xfe ∧ d3.toNat = 0xff) := fun h => k0 h.1
        have n2 : ¬ (b.toNat = 0xff ∧ d1.toNat = 0xfe ∧ d2.toNat = 0 ∧ d3.toNat = 0) := by omega
        have n3 : ¬ (b.toNat = 0xfe ∧ d1.toNat = 0xff) := by omega
        have n4 : ¬ (b.toNat = 0xff ∧ d1.toNat = 0xfe) := by omega
        have n5 : ¬ (b.toNat = 0 ∧ d1.toNat = 0 ∧ d2.toNat = 0 ∧ d3.toNat = 0x3c) := fun h => k0 h.1
        have n6 : ¬ (b.toNat = 0x3c ∧ d1.toNat = 0 ∧ d2.toNat = 0 ∧ d3.toNat = 0) := fun h => k1 h.1 h.2.1
        have n7 : ¬ (b.toNat = 0 ∧ d1.toNat = 0x3c ∧ d2.toNat = 0 ∧ d3.toNat = 0x3f) := fun h => k0 h.1
        have n8 : ¬ (b.toNat = 0x3c ∧ d1.toNat = 0 ∧ d2.toNat = 0x3f ∧ d3.toNat = 0) := fun h => k1 h.1 h.2.1
        have n9 : ¬ (b.toNat = 0 ∧ d1.toNat = 0x3c) := fun h => k0 h.1
        have n10 : ¬ (b.toNat = 0x3c ∧ d1.toNat = 0) := fun h => k1 h.1 h.2
        rw [if_neg n1, if_neg n2, if_neg n3, if_neg n4] at hl' ⊢
        by_cases n : b.toNat = 0xef ∧ d1.toNat = 0xbb ∧ d2.toNat = 0xbf
        · rw [if_pos n]
        · rw [if_neg n, if_neg n5, if_neg n6, if_neg n7, if_neg n8, if_neg n9, if_neg n10] at hl' ⊢
          generalize declEncoding _ = d at hl' ⊢
          cases d with
          | none => rfl
          | some n =>
            dsimp only at hl' ⊢
            by_cases hn : isLatin1Name n = true
            · rw [if_pos hn] at hl'; exact absurd rfl hl'
            · rw [if_neg hn]
      · rfl
  rw [this]

/-- C108: without a mark, a file in any Unicode encoding that starts with `<` is read as the text it holds. -/
theorem C108_unmarked (native : Bool) (f : Form) (c : Char) (r : List Char) (hc : c ≠ nul)
    (hl : f = .utf8 → ¬ SaysLatin1 (asUtf8 ('<' :: c :: r))) :
    loadFile native (f.bytes ('<' :: c :: r)) = loadXml (asUtf8 ('<' :: c :: r)) := by
  cases f with
  | utf8 =>
    refine C108_utf8 native _ (by simp [nul]) ?_ (hl rfl)
    intro r' h
    simp only [List.cons.injEq, true_and] at h
    exact hc h.1
  | utf16 o =>
    unfold loadFile
    congr 1
    refine decodeFile_16 native o _ ?_
    obtain ⟨x, y, s, hxy, h2⟩ := unit16_cons o c hc
    have e : asUtf16 o ('<' :: c :: r) = unit16 o 0x3c ++ (x :: y :: s) ++ asUtf16 o r := by
      unfold asUtf16
      rw [List.flatMap_cons, List.flatMap_cons, hxy]
      simp
    rw [e]
    cases o
    · unfold guessEncoding
      by_cases hx : x.toNat = 0
      · have hy : y.toNat ≠ 0 := fun hy => h2 ⟨hx, hy⟩
        simp [unit16, byte_toNat, hx, hy]
      · simp [unit16, byte_toNat, hx]
    · unfold guessEncoding
      by_cases hx : x.toNat = 0
      · have hy : y.toNat ≠ 0 := fun hy => h2 ⟨hx, hy⟩
        simp [unit16, byte_toNat, hx, hy]
      · simp [unit16, byte_toNat, hx]
  | utf32 o =>
    unfold loadFile
    congr 1
    refine decodeFile_32 native o _ ?_
    have e : asUtf32 o ('<' :: c :: r) = (match o with
        | .big => unit16 .big (0x3c / 65536) ++ unit16 .big 0x3c
        | .little => unit16 .little 0x3c ++ unit16 .little (0x3c / 65536)) ++ asUtf32 o (c :: r) := by
      unfold asUtf32
      rw [List.flatMap_cons]
      cases o <;> rfl
    rw [e]
    cases o
    · unfold guessEncoding
      simp [unit16, byte_toNat]
    · unfold guessEncoding
      simp [unit16, byte_toNat]

theorem decodeLatin1_text (t : List Char) : decodeLatin1 t = asUtf8 t := by
  unfold decodeLatin1
  induction t with
  | nil => rfl
  | cons c t ih =>
    by_cases h : c.toNat ≤ 127
    · rw [List.takeWhile_cons_of_pos (by simpa using h), List.dropWhile_cons_of_pos (by simpa using h), List.cons_append, ih, asUtf8_cons]
      obtain ⟨b, bs, hb, -, -, -, h3, -⟩ := utf8_first c
      have := h3 (by omega)
      rw [hb, this.1, this.2]
      rfl
    · rw [List.takeWhile_cons_of_neg (by simpa using h), List.dropWhile_cons_of_neg (by simpa using h), List.nil_append]
      have : ∀ l : List Char, (l.flatMap fun c => utf8Bytes c.toNat) = asUtf8 l := by
        intro l
        induction l with
        | nil => rfl
        | cons x l ih => rw [List.flatMap_cons, ih, asUtf8_cons]
      exact this _

/-- C108: a file that declares Latin-1 is read as the text of the characters with the codes of its bytes. -/
theorem C108_latin1 (native : Bool) (t : List Char) (_ : ∀ c ∈ t, c.toNat < 256) (hl : SaysLatin1 t) :
    loadFile native t = loadXml (asUtf8 t) := by
  unfold loadFile decodeFile
  rw [(C108_latin1_iff t).2 hl, decodeLatin1_text]

/-- C108: what the program saves is read as it was written. -/
theorem C108_saved (native : Bool) (f : XmlForest) : loadFile native (saveXml f) = loadXml (saveXml f) := by
  have e : xmlDecl = ['<', '?', 'x', 'm', 'l', ' ', 'v', 'e', 'r', 's', 'i', 'o', 'n', '=', '"', '1', '.', '0', '"', '?', '>', '\n'] := by
    decide
  have : guessEncoding (saveXml f) = .utf8 := by
    unfold saveXml
    rw [e]
    generalize writeForest 0 f = w
    rfl
  unfold loadFile decodeFile
  rw [this]

theorem startBuilder_same (mkdir : List Char → Bool) (fmax slope : Rat) (name : String) (a b : List Char) (h : loadXml a = loadXml b) :
    startBuilder mkdir fmax slope name (some a) = startBuilder mkdir fmax slope name (some b) := by
  have : configFile (some a) = configFile (some b) := by
    simp only [configFile, h]
  unfold startBuilder
  rw [this]

/-- C108: the builder starts in the same way from the same settings text in whatever Unicode encoding. -/
theorem C108_settings (native native' : Bool) (mkdir : List Char → Bool) (fmax slope : Rat) (name : String) (f g : Form) (c : Char)
    (r : List Char) (hc : c ≠ nul) (hl : ¬ SaysLatin1 (asUtf8 ('<' :: c :: r))) :
    startFromFile native mkdir fmax slope name (some (f.bytes ('<' :: c :: r))) =
      startFromFile native' mkdir fmax slope name (some (g.bytes ('<' :: c :: r))) ∧
    startFromFile native mkdir fmax slope name (some (f.bytes (bom :: '<' :: c :: r))) =
      startBuilder mkdir fmax slope name (some (asUtf8 ('<' :: c :: r))) := by
  unfold startFromFile
  simp only [Option.map_some]
  have h1 := C108_unmarked native f c r hc (fun _ => hl)
  have h2 := C108_unmarked native' g c r hc (fun _ => hl)
  have h3 := C108_marked native f ('<' :: c :: r) (by simp) (by simp [nul]) (by simp [bom])
  unfold loadFile at h1 h2 h3
  exact ⟨startBuilder_same _ _ _ _ _ _ (h1.trans h2.symm), startBuilder_same _ _ _ _ _ _ h3⟩

/-! Examples and exceptions -/

/-- `<a b="1"/>` in UTF-16 with the high byte first. -/
example : loadFile true (asUtf16 .big ['<', 'a', ' ', 'b', '=', '"', '1', '"', '/', '>']) =
    .ok (.elem ['a'] [(['b'], ['1'])] .nil .nil) := by decide +kernel

/-- A declaration of Latin-1. -/
example : SaysLatin1 ("<?xml version='1.0' encoding='Latin1'?><a/>").toList := by
  rw [← C108_latin1_iff]
  decide +kernel

/-- C108 is false of UTF-16 files that start with an empty line and have no byte order mark: the same text in UTF-8 is
read, this one is refused. -/
theorem C108_blank_fails (native : Bool) (o : Order) :
    loadXml (asUtf8 ['\n', '<', 'a', '/', '>']) = .ok (.elem ['a'] [] .nil .nil) ∧
    loadFile native (asUtf16 o ['\n', '<', 'a', '/', '>']) = .error .noDocumentElement := by
  cases o <;> cases native <;> decide +kernel

/-- C108 is false of other declared encodings: the byte 0x80, the euro sign of windows-1252, is kept as it is. -/
theorem C108_declared_fails (native : Bool) :
    loadFile native ("<?xml encoding='windows-1252'?><a b='".toList ++ byte 0x80 :: "'/>".toList) =
      .ok (.elem ['a'] [(['b'], [byte 0x80])] .nil .nil) ∧
    asUtf8 ['€'] ≠ [byte 0x80] := by
  cases native <;> decide +kernel

/-- C108: a broken file, here half of a pair of surrogates, is not reported; the half is left out. -/
theorem C108_broken_fails (native : Bool) :
    loadFile native (asUtf16 .little ['<', 'a', ' ', 'b', '=', '"', 'x'] ++ unit16 .little 0xD800 ++ asUtf16 .little ['y', '"', '/', '>']) =
      .ok (.elem ['a'] [(['b'], ['x', 'y'])] .nil .nil) := by
  cases native <;> decide +kernel

end Verif
