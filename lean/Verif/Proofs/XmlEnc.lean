import Verif.Model.XmlEnc
import Verif.Spec.XmlEnc
import Verif.Props.ConfigText
/-! Lemmas on the encodings of XML files. -/
namespace Verif
open Spec

theorem byte_toNat (n : Nat) : (byte n).toNat = n % 256 := by
  unfold byte
  have : n % 256 < 256 := Nat.mod_lt _ (by decide)
  exact charOfNat_toNat (Or.inl (by omega))

theorem or_C0 : ∀ x < 32, 0xC0 ||| x = x % 32 + 0xC0 := by decide
theorem or_E0 : ∀ x < 16, 0xE0 ||| x = x % 16 + 0xE0 := by decide
theorem or_F0 : ∀ x < 8, 0xF0 ||| x = x % 8 + 0xF0 := by decide
theorem or_80 : ∀ x < 64, 0x80 ||| x = x + 0x80 := by decide

theorem char_lt (c : Char) : c.toNat < 0x110000 := by
  rcases c.valid with h | h
  · have : c.toNat < 0xd800 := h
    omega
  · exact h.2

theorem char_surr (c : Char) : c.toNat < 0xD800 ∨ 0xE000 ≤ c.toNat := by
  rcases c.valid with h | h
  · exact Or.inl h
  · have : 0xdfff < c.toNat := h.1
    exact Or.inr (by omega)

theorem utf8Bytes_char (c : Char) : utf8Bytes c.toNat = asUtf8 [c] := by
  have hc := char_lt c
  unfold asUtf8
  rw [List.flatMap_cons, List.flatMap_nil, List.append_nil]
  have e : c.val.toNat = c.toNat := rfl
  unfold utf8Bytes String.utf8EncodeChar
  dsimp only
  rw [e]
  generalize c.toNat = n at hc
  by_cases h1 : n < 0x80
  · rw [if_pos h1, if_pos (show n ≤ 0x7f by omega)]
    simp
  rw [if_neg h1, if_neg (show ¬ n ≤ 0x7f by omega)]
  by_cases h2 : n < 0x800
  · rw [if_pos h2, if_pos (show n ≤ 0x7ff by omega), or_C0 (n / 64) (by omega), or_80 (n % 64) (by omega)]
    simp
  rw [if_neg h2, if_neg (show ¬ n ≤ 0x7ff by omega)]
  by_cases h3 : n < 0x10000
  · rw [if_pos h3, if_pos (show n ≤ 0xffff by omega), or_E0 (n / 4096) (by omega), or_80 (n / 64 % 64) (by omega), or_80 (n % 64) (by omega)]
    simp
  rw [if_neg h3, if_neg (show ¬ n ≤ 0xffff by omega), or_F0 (n / 262144) (by omega), or_80 (n / 4096 % 64) (by omega), or_80 (n / 64 % 64) (by omega), or_80 (n % 64) (by omega)]
  simp

theorem asUtf8_cons (c : Char) (t : List Char) : asUtf8 (c :: t) = utf8Bytes c.toNat ++ asUtf8 t := by
  rw [utf8Bytes_char]
  unfold asUtf8
  simp

theorem asUtf8_nil : asUtf8 [] = [] := rfl

/-- The 16-bit units of a text. -/
def units16 (t : List Char) : List Nat := t.flatMap fun c =>
  if c.toNat < 0x10000 then [c.toNat] else [0xD800 + (c.toNat - 0x10000) / 1024, 0xDC00 + (c.toNat - 0x10000) % 1024]

theorem decode16_units (t : List Char) : decode16 (units16 t) = asUtf8 t := by
  induction t with
  | nil => rfl
  | cons c t ih =>
    have hc := char_lt c
    have hs := char_surr c
    rw [asUtf8_cons, ← ih]
    unfold units16
    rw [List.flatMap_cons]
    by_cases h : c.toNat < 0x10000
    · rw [if_pos h, List.singleton_append]
      conv_lhs => unfold decode16
      rcases hs with h1 | h1
      · rw [if_pos h1]
      · rw [if_neg (by omega), if_pos h1]
    · rw [if_neg h]
      rw [List.cons_append, List.singleton_append]
      conv_lhs => unfold decode16
      rw [if_neg (by omega), if_neg (by omega), if_pos (by omega)]
      dsimp only
      rw [if_pos (by omega)]
      have e : 0x10000 + (0xD800 + (c.toNat - 0x10000) / 1024) % 1024 * 1024 + (0xDC00 + (c.toNat - 0x10000) % 1024) % 1024 = c.toNat := by
        omega
      rw [e]

/-- Whether the words have to be swapped. -/
def needSwap (native : Bool) (o : Order) : Bool :=
  match o with
  | .big => native
  | .little => !native

theorem swap16_word (a b : Nat) (ha : a < 256) (hb : b < 256) : swap16 (a + 256 * b) = 256 * a + b ∧ swap16 (256 * a + b) = a + 256 * b := by
  unfold swap16
  omega

theorem swap32_word (a b c d : Nat) (ha : a < 256) (hb : b < 256) (hc : c < 256) (hd : d < 256) :
    swap32 (a + 256 * b + 65536 * c + 16777216 * d) = 16777216 * a + 65536 * b + 256 * c + d ∧
    swap32 (16777216 * a + 65536 * b + 256 * c + d) = a + 256 * b + 65536 * c + 16777216 * d := by
  unfold swap32
  omega

theorem words16_unit (native : Bool) (o : Order) (n : Nat) (hn : n < 65536) (r : List Char) :
    (if needSwap native o then (words16 native (unit16 o n ++ r)).map swap16 else words16 native (unit16 o n ++ r)) =
      n :: (if needSwap native o then (words16 native r).map swap16 else words16 native r) := by
  have h1 := swap16_word (n / 256) (n % 256) (by omega) (by omega)
  have h2 := swap16_word (n % 256) (n / 256) (by omega) (by omega)
  have e1 : n / 256 % 256 = n / 256 := by omega
  cases o <;> cases native <;>
    simp only [needSwap, unit16, List.cons_append, List.nil_append, words16, byte_toNat, if_true, Bool.not_true, Bool.not_false,
      Bool.false_eq_true, if_false, List.map_cons, e1] <;> congr 1
  · omega
  · rw [h1.1]; omega
  · rw [h2.2]; omega
  · omega

theorem words16_text (native : Bool) (o : Order) (t : List Char) :
    (if needSwap native o then (words16 native (asUtf16 o t)).map swap16 else words16 native (asUtf16 o t)) = units16 t := by
  induction t with
  | nil => cases o <;> cases native <;> rfl
  | cons c t ih =>
    have hc := char_lt c
    unfold asUtf16 units16 at *
    rw [List.flatMap_cons, List.flatMap_cons]
    by_cases h : c.toNat < 0x10000
    · rw [if_pos h, if_pos h, words16_unit native o _ (by omega), ih]
      rfl
    · rw [if_neg h, if_neg h, List.append_assoc, words16_unit native o _ (by omega), words16_unit native o _ (by omega), ih]
      rfl

theorem words32_text (native : Bool) (o : Order) (t : List Char) :
    (if needSwap native o then (words32 native (asUtf32 o t)).map swap32 else words32 native (asUtf32 o t)) = t.map Char.toNat := by
  induction t with
  | nil => cases o <;> cases native <;> rfl
  | cons c t ih =>
    have hc := char_lt c
    unfold asUtf32 at *
    rw [List.flatMap_cons, List.map_cons, ← ih]
    generalize c.toNat = n at hc
    have hd1 : n / 256 / 256 = n / 65536 := by rw [Nat.div_div_eq_div_mul]
    have hd2 : n / 65536 / 256 = 0 := by omega
    have hd3 : n = 65536 * (n / 65536) + 256 * (n / 256 % 256) + n % 256 := by omega
    have h1 := swap32_word (n / 65536 / 256 % 256) (n / 65536 % 256) (n / 256 % 256) (n % 256) (by omega) (by omega) (by omega) (by omega)
    have h2 := swap32_word (n % 256) (n / 256 % 256) (n / 65536 % 256) (n / 65536 / 256 % 256) (by omega) (by omega) (by omega) (by omega)
    cases o <;> cases native <;>
      simp only [needSwap, unit16, List.cons_append, List.nil_append, words32, byte_toNat, if_true, Bool.not_true, Bool.not_false,
        Bool.false_eq_true, if_false, List.map_cons] <;> congr 1
    · omega
    · rw [h1.1]; omega
    · rw [h2.2]; omega
    · omega

theorem decode32_text (t : List Char) : decode32 (t.map Char.toNat) = asUtf8 t := by
  induction t with
  | nil => rfl
  | cons c t ih =>
    unfold decode32 at *
    rw [List.map_cons, List.flatMap_cons, ih, asUtf8_cons]

theorem decodeFile_16 (native : Bool) (o : Order) (t : List Char)
    (h : guessEncoding (asUtf16 o t) = match o with
      | .big => .utf16be
      | .little => .utf16le) : decodeFile native (asUtf16 o t) = asUtf8 t := by
  unfold decodeFile
  rw [h]
  have := words16_text native o t
  cases o <;> simp only [needSwap] at this ⊢
  · cases native
    · simp only [Bool.false_eq_true, if_false] at this ⊢
      rw [this, decode16_units]
    · simp only [if_true] at this ⊢
      rw [this, decode16_units]
  · cases native
    · simp only [Bool.not_false, if_true, Bool.false_eq_true, if_false] at this ⊢
      rw [this, decode16_units]
    · simp only [Bool.not_true, if_true, Bool.false_eq_true, if_false] at this ⊢
      rw [this, decode16_units]

theorem decodeFile_32 (native : Bool) (o : Order) (t : List Char)
    (h : guessEncoding (asUtf32 o t) = match o with
      | .big => .utf32be
      | .little => .utf32le) : decodeFile native (asUtf32 o t) = asUtf8 t := by
  unfold decodeFile
  rw [h]
  have := words32_text native o t
  cases o <;> simp only [needSwap] at this ⊢
  · cases native
    · simp only [Bool.false_eq_true, if_false] at this ⊢
      rw [this, decode32_text]
    · simp only [if_true] at this ⊢
      rw [this, decode32_text]
  · cases native
    · simp only [Bool.not_false, if_true, Bool.false_eq_true, if_false] at this ⊢
      rw [this, decode32_text]
    · simp only [Bool.not_true, if_true, Bool.false_eq_true, if_false] at this ⊢
      rw [this, decode32_text]

end Verif
