import Verif.Model.XmlNum
import Verif.Spec.XmlNum
import Verif.Proofs.KittiPose
import Verif.Proofs.PackageF
import Verif.Proofs.MultiTraj
/-! Numbers in XML files. -/
namespace Verif
open Spec

/-! ### whole numbers -/

theorem isDigitChar_iff (c : Char) : isDigitChar c = true ↔ '0' ≤ c ∧ c ≤ '9' := by
  unfold isDigitChar
  rw [decide_eq_true_iff]
  exact Iff.rfl

theorem scanDec_spec (rest : List Char) (hr : ∀ c, rest.head? = some c → isDigitChar c = false) :
    ∀ (l : List Char) (acc k v : Nat), digitsVal l acc = some v →
      scanDec (acc % 2 ^ 32) k (l ++ rest) = (v % 2 ^ 32, k + l.length) := by
  intro l
  induction l with
  | nil =>
    intro acc k v h
    have h' : acc = v := Option.some.inj h
    subst h'
    cases rest with
    | nil => rfl
    | cons c r =>
      simp only [List.nil_append, scanDec]
      rw [if_neg (by rw [hr c rfl]; decide)]
      rfl
  | cons c l ih =>
    intro acc k v h
    simp only [digitsVal] at h
    split at h
    · rename_i hc
      simp only [List.cons_append, scanDec]
      rw [if_pos ((isDigitChar_iff c).2 hc)]
      have : (10 * (acc % 2 ^ 32) + (c.toNat - 48)) % 2 ^ 32 = (10 * acc + (c.toNat - '0'.toNat)) % 2 ^ 32 := by
        show _ = (10 * acc + (c.toNat - 48)) % 2 ^ 32
        omega
      rw [this, ih _ _ _ h]
      simp only [List.length_cons]
      congr 1
      omega
    · exact absurd h (by simp)

theorem digitsVal_bounds : ∀ (l : List Char) (acc v : Nat), digitsVal l acc = some v →
    acc * 10 ^ l.length ≤ v ∧ v < (acc + 1) * 10 ^ l.length := by
  intro l
  induction l with
  | nil => intro acc v h; have h' : acc = v := Option.some.inj h; subst h'; simp
  | cons c l ih =>
    intro acc v h
    simp only [digitsVal] at h
    split at h
    · rename_i hc
      have hc' : 48 ≤ c.toNat ∧ c.toNat ≤ 57 := hc
      obtain ⟨a, b⟩ := ih _ _ h
      have hz : '0'.toNat = 48 := rfl
      rw [hz] at a b
      rw [List.length_cons, Nat.pow_succ]
      have hpos : 0 < 10 ^ l.length := by positivity
      constructor
      · calc acc * (10 ^ l.length * 10) = (10 * acc) * 10 ^ l.length := by ring
          _ ≤ (10 * acc + (c.toNat - 48)) * 10 ^ l.length := Nat.mul_le_mul_right _ (by omega)
          _ ≤ v := a
      · calc v < (10 * acc + (c.toNat - 48) + 1) * 10 ^ l.length := b
          _ ≤ (10 * (acc + 1)) * 10 ^ l.length := Nat.mul_le_mul_right _ (by omega)
          _ = (acc + 1) * (10 ^ l.length * 10) := by ring
    · exact absurd h (by simp)

/-- A row of digits without the zeros in front. -/
theorem dropZero_front : ∀ (l rest : List Char) (v : Nat), digitsVal l 0 = some v → (∀ c, rest.head? = some c → isDigitChar c = false) →
    ∃ t, (l ++ rest).dropWhile (fun c => decide (c = '0')) = t ++ rest ∧ digitsVal t 0 = some v ∧
      (∀ c, t.head? = some c → 49 ≤ c.toNat ∧ c.toNat ≤ 57) := by
  intro l
  induction l with
  | nil =>
    intro rest v h hr
    refine ⟨[], ?_, h, by simp⟩
    rw [List.nil_append]
    cases rest with
    | nil => rfl
    | cons c r =>
      rw [List.dropWhile_cons_of_neg]
      have := hr c rfl
      intro hc
      rw [decide_eq_true_iff] at hc
      subst hc
      exact absurd this (by decide)
  | cons c l ih =>
    intro rest v h hr
    have h0 := h
    simp only [digitsVal] at h
    split at h
    · rename_i hc
      have hc' : 48 ≤ c.toNat ∧ c.toNat ≤ 57 := hc
      by_cases hz : c = '0'
      · subst hz
        rw [List.cons_append, List.dropWhile_cons_of_pos (by simp)]
        exact ih rest v (by simpa using h) hr
      · refine ⟨c :: l, ?_, h0, ?_⟩
        · rw [List.cons_append, List.dropWhile_cons_of_neg (by simpa using hz)]
        · intro d hd
          have : c = d := Option.some.inj hd
          subst this
          refine ⟨?_, hc'.2⟩
          rcases Nat.lt_or_ge 48 c.toNat with h | h
          · exact h
          · exfalso
            apply hz
            have : c.toNat = '0'.toNat := by show c.toNat = 48; omega
            exact Char.ext (UInt32.toNat_inj.1 this)
    · exact absurd h (by simp)

/-- The decimal branch: the number, or overflow when it needs more than 32 bits. -/
theorem unsigned_dec (ds rest : List Char) (v : Nat) (hv : digitsVal ds 0 = some v)
    (hr : ∀ c, rest.head? = some c → isDigitChar c = false) (hx : hexPrefix (ds ++ rest) = false) :
    (2 ^ 32 ≤ v → (unsignedText (ds ++ rest)).2 = true) ∧ (v < 2 ^ 32 → unsignedText (ds ++ rest) = (v, false)) := by
  obtain ⟨t, ht, htv, hth⟩ := dropZero_front ds rest v hv hr
  unfold unsignedText
  rw [if_neg (by rw [hx]; decide)]
  dsimp only
  rw [ht]
  have hs := scanDec_spec rest hr t 0 0 v htv
  rw [Nat.zero_mod, Nat.zero_add] at hs
  rw [hs]
  cases t with
  | nil =>
    have h0 : 0 = v := Option.some.inj htv
    subst h0
    simp [decOverflow]
  | cons c t =>
    have hc := hth c rfl
    have htv' := htv
    simp only [digitsVal] at htv
    rw [if_pos (show '0' ≤ c ∧ c ≤ '9' from ⟨by show 48 ≤ c.toNat; omega, hc.2⟩)] at htv
    obtain ⟨a, b⟩ := digitsVal_bounds _ _ _ htv
    have hz : '0'.toNat = 48 := rfl
    rw [hz] at a b
    simp only [List.cons_append, List.headD_cons, List.length_cons]
    set l := c.toNat - 48 with hl
    have hl1 : 1 ≤ l ∧ l ≤ 9 := by omega
    have hlead : (c.toNat < 52 ↔ l < 4) ∧ (c = '4' ↔ l = 4) := by
      refine ⟨by omega, ⟨by rintro rfl; rw [hl]; rfl, fun h => ?_⟩⟩
      have : c.toNat = '4'.toNat := by show c.toNat = 52; omega
      exact Char.ext (UInt32.toNat_inj.1 this)
    rw [Nat.mul_zero, Nat.zero_add] at a b
    unfold decOverflow
    simp only [hlead.1, hlead.2]
    rcases Nat.lt_trichotomy t.length 9 with h9 | h9 | h9
    · have hp : 10 ^ t.length ≤ 10 ^ 8 := Nat.pow_le_pow_right (by norm_num) (by omega)
      have hlt : v < 2 ^ 32 := by
        calc v < (l + 1) * 10 ^ t.length := b
          _ ≤ 10 * 10 ^ 8 := Nat.mul_le_mul (by omega) hp
          _ < 2 ^ 32 := by norm_num
      refine ⟨fun h => by omega, fun _ => ?_⟩
      rw [Nat.mod_eq_of_lt hlt]
      congr 1
      rw [decide_eq_false_iff_not]
      omega
    · rw [h9] at a b ⊢
      constructor
      · intro h
        rw [decide_eq_true_iff]
        refine ⟨by norm_num, ?_⟩
        rintro ⟨-, h' | ⟨h1, h2⟩⟩
        · have : v < 4 * 10 ^ 9 := lt_of_lt_of_le b (Nat.mul_le_mul_right _ (by omega))
          omega
        · rw [h1] at a b
          omega
      · intro h
        rw [Nat.mod_eq_of_lt h]
        congr 1
        rw [decide_eq_false_iff_not]
        rintro ⟨-, h'⟩
        apply h'
        refine ⟨by norm_num, ?_⟩
        rcases Nat.lt_trichotomy l 4 with h4 | h4 | h4
        · exact Or.inl h4
        · right
          rw [h4] at a
          exact ⟨h4, by omega⟩
        · have : 5 * 10 ^ 9 ≤ l * 10 ^ 9 := Nat.mul_le_mul_right _ (by omega)
          omega
    · have hp : 10 ^ 10 ≤ 10 ^ t.length := Nat.pow_le_pow_right (by norm_num) (by omega)
      have hge : 2 ^ 32 ≤ v := by
        calc 2 ^ 32 ≤ 1 * 10 ^ 10 := by norm_num
          _ ≤ l * 10 ^ t.length := Nat.mul_le_mul hl1.1 hp
          _ ≤ v := a
      refine ⟨fun _ => ?_, fun h => by omega⟩
      rw [decide_eq_true_iff]
      omega

/-! ### hexadecimal -/

theorem hexVal_cons (c : Char) (r : List Char) (acc : Nat) :
    hexVal (c :: r) acc = (hexDigit c).bind fun d => hexVal r (16 * acc + d) := by
  simp only [hexVal, hexDigit]
  have e1 : ('0' ≤ c ∧ c ≤ '9') ↔ (48 ≤ c.toNat ∧ c.toNat ≤ 57) := Iff.rfl
  have e2 : ('a' ≤ c ∧ c ≤ 'f') ↔ (97 ≤ c.toNat ∧ c.toNat ≤ 102) := Iff.rfl
  have e3 : ('A' ≤ c ∧ c ≤ 'F') ↔ (65 ≤ c.toNat ∧ c.toNat ≤ 70) := Iff.rfl
  simp only [e1, e2, e3]
  have z0 : '0'.toNat = 48 := rfl
  have za : 'a'.toNat = 97 := rfl
  have zA : 'A'.toNat = 65 := rfl
  split
  · rfl
  · split
    · simp only [Option.bind_some, za]
      congr 1
      omega
    · split
      · simp only [Option.bind_some, zA]
        congr 1
        omega
      · rfl

theorem hexDigit_lt {c : Char} {d : Nat} (h : hexDigit c = some d) : d < 16 := by
  unfold hexDigit at h
  split at h
  · have := Option.some.inj h; omega
  · split at h
    · have := Option.some.inj h; omega
    · split at h
      · have := Option.some.inj h; omega
      · exact absurd h (by simp)

theorem scanHex_spec (rest : List Char) (hr : ∀ c, rest.head? = some c → hexDigit c = none) :
    ∀ (l : List Char) (acc k v : Nat), hexVal l acc = some v →
      scanHex (acc % 2 ^ 32) k (l ++ rest) = (v % 2 ^ 32, k + l.length) := by
  intro l
  induction l with
  | nil =>
    intro acc k v h
    have h' : acc = v := Option.some.inj h
    subst h'
    cases rest with
    | nil => rfl
    | cons c r =>
      simp only [List.nil_append, scanHex, hr c rfl]
      rfl
  | cons c l ih =>
    intro acc k v h
    rw [hexVal_cons] at h
    cases hd : hexDigit c with
    | none => rw [hd] at h; exact absurd h (by simp)
    | some d =>
      rw [hd, Option.bind_some] at h
      simp only [List.cons_append, scanHex, hd]
      have : (16 * (acc % 2 ^ 32) + d) % 2 ^ 32 = (16 * acc + d) % 2 ^ 32 := by omega
      rw [this, ih _ _ _ h]
      simp only [List.length_cons]
      congr 1
      omega

theorem hexVal_bounds : ∀ (l : List Char) (acc v : Nat), hexVal l acc = some v →
    acc * 16 ^ l.length ≤ v ∧ v < (acc + 1) * 16 ^ l.length := by
  intro l
  induction l with
  | nil => intro acc v h; have h' : acc = v := Option.some.inj h; subst h'; simp
  | cons c l ih =>
    intro acc v h
    rw [hexVal_cons] at h
    cases hd : hexDigit c with
    | none => rw [hd] at h; exact absurd h (by simp)
    | some d =>
      rw [hd, Option.bind_some] at h
      have hlt := hexDigit_lt hd
      obtain ⟨a, b⟩ := ih _ _ h
      rw [List.length_cons, Nat.pow_succ]
      constructor
      · calc acc * (16 ^ l.length * 16) = (16 * acc) * 16 ^ l.length := by ring
          _ ≤ (16 * acc + d) * 16 ^ l.length := Nat.mul_le_mul_right _ (by omega)
          _ ≤ v := a
      · calc v < (16 * acc + d + 1) * 16 ^ l.length := b
          _ ≤ (16 * (acc + 1)) * 16 ^ l.length := Nat.mul_le_mul_right _ (by omega)
          _ = (acc + 1) * (16 ^ l.length * 16) := by ring

theorem dropZero_hex : ∀ (l rest : List Char) (v : Nat), hexVal l 0 = some v → (∀ c, rest.head? = some c → hexDigit c = none) →
    ∃ t, (l ++ rest).dropWhile (fun c => decide (c = '0')) = t ++ rest ∧ hexVal t 0 = some v ∧
      (∀ c r, t = c :: r → ∃ d, hexDigit c = some d ∧ 1 ≤ d) := by
  intro l
  induction l with
  | nil =>
    intro rest v h hr
    refine ⟨[], ?_, h, by simp⟩
    rw [List.nil_append]
    cases rest with
    | nil => rfl
    | cons c r =>
      rw [List.dropWhile_cons_of_neg]
      have := hr c rfl
      intro hc
      rw [decide_eq_true_iff] at hc
      subst hc
      exact absurd this (by decide)
  | cons c l ih =>
    intro rest v h hr
    have h0 := h
    rw [hexVal_cons] at h
    cases hd : hexDigit c with
    | none => rw [hd] at h; exact absurd h (by simp)
    | some d =>
      rw [hd, Option.bind_some] at h
      by_cases hz : c = '0'
      · subst hz
        rw [List.cons_append, List.dropWhile_cons_of_pos (by simp)]
        have : d = 0 := by
          have : hexDigit '0' = some 0 := by decide
          rw [this] at hd
          exact (Option.some.inj hd).symm
        subst this
        exact ih rest v h hr
      · refine ⟨c :: l, ?_, h0, ?_⟩
        · rw [List.cons_append, List.dropWhile_cons_of_neg (by simpa using hz)]
        · rintro c' r e
          obtain ⟨rfl, rfl⟩ := List.cons.inj e
          refine ⟨d, hd, ?_⟩
          rcases Nat.eq_zero_or_pos d with h | h
          · exfalso
            apply hz
            unfold hexDigit at hd
            split at hd
            · have hd' := Option.some.inj hd
              have : c.toNat = '0'.toNat := by show c.toNat = 48; omega
              exact Char.ext (UInt32.toNat_inj.1 this)
            · split at hd
              · have := Option.some.inj hd; omega
              · split at hd
                · have := Option.some.inj hd; omega
                · exact absurd hd (by simp)
          · exact h

theorem unsigned_hex (x : Char) (hx : x = 'x' ∨ x = 'X') (ds rest : List Char) (v : Nat) (hv : hexVal ds 0 = some v)
    (hr : ∀ c, rest.head? = some c → hexDigit c = none) :
    (2 ^ 32 ≤ v → (unsignedText ('0' :: x :: (ds ++ rest))).2 = true) ∧
      (v < 2 ^ 32 → unsignedText ('0' :: x :: (ds ++ rest)) = (v, false)) := by
  obtain ⟨t, ht, htv, hth⟩ := dropZero_hex ds rest v hv hr
  have hp : hexPrefix ('0' :: x :: (ds ++ rest)) = true := by
    rcases hx with rfl | rfl <;> simp [hexPrefix]
  unfold unsignedText
  rw [if_pos hp]
  dsimp only
  rw [show List.drop 2 ('0' :: x :: (ds ++ rest)) = ds ++ rest from rfl, ht]
  have hs := scanHex_spec rest hr t 0 0 v htv
  rw [Nat.zero_mod, Nat.zero_add] at hs
  rw [hs]
  dsimp only
  cases t with
  | nil =>
    have h0 : 0 = v := Option.some.inj htv
    subst h0
    simp
  | cons c t =>
    obtain ⟨d, hd, hd1⟩ := hth c t rfl
    have hlt := hexDigit_lt hd
    rw [hexVal_cons, hd, Option.bind_some, Nat.mul_zero, Nat.zero_add] at htv
    obtain ⟨a, b⟩ := hexVal_bounds _ _ _ htv
    rw [List.length_cons]
    rcases Nat.lt_or_ge t.length 8 with h8 | h8
    · have hq : 16 ^ t.length ≤ 16 ^ 7 := Nat.pow_le_pow_right (by norm_num) (by omega)
      have hlt : v < 2 ^ 32 := by
        calc v < (d + 1) * 16 ^ t.length := b
          _ ≤ 16 * 16 ^ 7 := Nat.mul_le_mul (by omega) hq
          _ = 2 ^ 32 := by norm_num
      refine ⟨fun h => by omega, fun _ => ?_⟩
      rw [Nat.mod_eq_of_lt hlt]
      congr 1
      rw [decide_eq_false_iff_not]
      omega
    · have hq : 16 ^ 8 ≤ 16 ^ t.length := Nat.pow_le_pow_right (by norm_num) (by omega)
      have hge : 2 ^ 32 ≤ v := by
        calc 2 ^ 32 = 1 * 16 ^ 8 := by norm_num
          _ ≤ d * 16 ^ t.length := Nat.mul_le_mul hd1 hq
          _ ≤ v := a
      refine ⟨fun _ => ?_, fun h => by omega⟩
      rw [decide_eq_true_iff]
      omega

/-! ### the sign -/

theorem dropWhile_all {p : Char → Bool} : ∀ (l t : List Char), (∀ c ∈ l, p c = true) → (l ++ t).dropWhile p = t.dropWhile p := by
  intro l t
  induction l with
  | nil => intro _; rfl
  | cons c l ih =>
    intro h
    rw [List.cons_append, List.dropWhile_cons_of_pos (h c (by simp))]
    exact ih fun d hd => h d (by simp [hd])

/-- Spaces and a sign in front of a text beginning with a digit. -/
theorem sign_front {p : Char → Bool} (sp t : List Char) (sign : Option Char) (hsp : ∀ c ∈ sp, p c = true)
    (hsign : IsSign sign) (h1 : p '-' = false) (h2 : p '+' = false)
    (ht : ∀ c, t.head? = some c → p c = false ∧ c ≠ '-' ∧ c ≠ '+') :
    (sp ++ sign.toList ++ t).dropWhile p = sign.toList ++ t ∧ skipSign (sign.toList ++ t) = t ∧
      ((sign.toList ++ t).head? = some '-' ↔ sign = some '-') := by
  rw [List.append_assoc, dropWhile_all _ _ hsp]
  rcases hsign with rfl | rfl | rfl
  · simp only [Option.toList_none, List.nil_append]
    cases t with
    | nil => simp [skipSign]
    | cons c t =>
      obtain ⟨a, b, d⟩ := ht c rfl
      refine ⟨List.dropWhile_cons_of_neg (by rw [a]; decide), ?_, ?_⟩
      · unfold skipSign
        rw [if_neg]
        simp [b, d]
      · simp [b]
  · refine ⟨?_, by simp [skipSign], by simp⟩
    simp only [Option.toList_some, List.singleton_append]
    rw [List.dropWhile_cons_of_neg (by rw [h1]; decide)]
  · refine ⟨?_, by simp [skipSign], by simp⟩
    simp only [Option.toList_some, List.singleton_append]
    rw [List.dropWhile_cons_of_neg (by rw [h2]; decide)]

/-- Both integer readers, given the unsigned part. -/
theorem getInt_of (sp t : List Char) (sign : Option Char) (v : Nat) (hsp : ∀ c ∈ sp, isXmlSpace c = true)
    (hsign : IsSign sign) (ht : ∀ c, t.head? = some c → isXmlSpace c = false ∧ c ≠ '-' ∧ c ≠ '+')
    (hu1 : 2 ^ 32 ≤ v → (unsignedText t).2 = true) (hu2 : v < 2 ^ 32 → unsignedText t = (v, false)) :
    getInt (sp ++ sign.toList ++ t) = clampInt (-2147483648) 2147483647 (withSign sign v) ∧
      (getUint (sp ++ sign.toList ++ t) : ℤ) = clampInt 0 4294967295 (withSign sign v) := by
  obtain ⟨e1, e2, e3⟩ := sign_front sp t sign hsp hsign (by decide) (by decide) ht
  unfold getInt getUint stringToU32
  dsimp only
  rw [e1, e2]
  simp only [e3]
  unfold withSign
  by_cases hs : sign = some '-'
  · simp only [hs, if_true]
    rcases Nat.lt_or_ge v (2 ^ 32) with hv | hv
    · rw [hu2 hv]
      unfold clampInt
      constructor
      · by_cases h : v ≤ 2 ^ 31
        · rw [if_neg (show ¬ (((v, false).2 = true) ∨ (2 ^ 32 - 2 ^ 31) % 2 ^ 32 < (v, false).1) by simp; omega)]
          dsimp only
          rcases Nat.eq_zero_or_pos v with h0 | h0
          · subst h0; simp
          · rw [Nat.mod_eq_of_lt (by omega), if_neg (by omega), if_neg (by omega), if_neg (by omega)]
            omega
        · rw [if_pos (Or.inr (by simp; omega)), if_neg (by omega), if_pos (by omega)]
          norm_num
      · rcases Nat.eq_zero_or_pos v with h0 | h0
        · subst h0; simp
        · rw [if_pos (Or.inr (by simpa using h0)), if_pos (by omega)]
          rfl
    · have := hu1 hv
      rw [if_pos (Or.inl this), if_pos (Or.inl this)]
      unfold clampInt
      rw [if_pos (show -(v : ℤ) < -2147483648 by omega), if_pos (show -(v : ℤ) < 0 by omega)]
      constructor <;> norm_num
  · simp only [hs, if_false]
    rcases Nat.lt_or_ge v (2 ^ 32) with hv | hv
    · rw [hu2 hv]
      unfold clampInt
      dsimp only
      simp only [Bool.false_eq_true, false_or]
      constructor
      · by_cases h : v < 2 ^ 31
        · rw [if_neg (show ¬ 2 ^ 31 - 1 < v by omega), if_pos h, if_neg (by omega), if_neg (by omega)]
        · rw [if_pos (show 2 ^ 31 - 1 < v by omega), if_pos (by norm_num), if_neg (by omega), if_pos (by omega)]
          norm_num
      · rw [if_neg (by omega), if_neg (by omega), if_neg (by omega)]
    · have := hu1 hv
      rw [if_pos (Or.inl this), if_pos (Or.inl this)]
      unfold clampInt
      rw [if_neg (show ¬ (v : ℤ) < -2147483648 by omega), if_neg (show ¬ (v : ℤ) < 0 by omega),
        if_pos (show (2147483647 : ℤ) < v by omega), if_pos (show (4294967295 : ℤ) < v by omega)]
      constructor <;> norm_num

end Verif
