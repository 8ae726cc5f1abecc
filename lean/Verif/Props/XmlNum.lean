import Verif.Proofs.XmlDbl
/-! C102: numbers and switches in XML files. -/
namespace Verif
open Spec

/-! ### whole numbers -/

/-- C102: white space, a sign and decimal digits are read as the number they write, a number outside
the range as the nearest one inside it; what follows the digits is not looked at. -/
theorem C102_int (sp ds rest : List Char) (sign : Option Char) (v : Nat)
    (hsp : ∀ c ∈ sp, c = ' ' ∨ c = '\t' ∨ c = '\n' ∨ c = '\r') (hsign : IsSign sign)
    (hv : digitsVal ds 0 = some v) (hne : ds ≠ []) (hr : ∀ c, rest.head? = some c → c < '0' ∨ '9' < c)
    (hx : ds = ['0'] → rest.head? ≠ some 'x' ∧ rest.head? ≠ some 'X') :
    getInt (sp ++ sign.toList ++ (ds ++ rest)) = clampInt (-2147483648) 2147483647 (withSign sign v) ∧
      (getUint (sp ++ sign.toList ++ (ds ++ rest)) : ℤ) = clampInt 0 4294967295 (withSign sign v) := by
  have hr' : ∀ c, rest.head? = some c → isDigitChar c = false := by
    intro c hc
    by_contra h
    rw [Bool.not_eq_false, isDigitChar_iff] at h
    rcases hr c hc with h' | h'
    · exact absurd h.1 (Char.not_le.2 h')
    · exact absurd h.2 (Char.not_le.2 h')
  have hsp' : ∀ c ∈ sp, isXmlSpace c = true := by
    intro c hc
    rcases hsp c hc with rfl | rfl | rfl | rfl <;> decide
  have hall := digitsVal_all hv
  obtain ⟨d, ds', rfl⟩ := List.exists_cons_of_ne_nil hne
  have hp : hexPrefix (d :: ds' ++ rest) = false := by
    unfold hexPrefix
    rw [decide_eq_false_iff_not]
    rintro ⟨h0, h1⟩
    have hd0 : d = '0' := by simpa using h0
    subst hd0
    cases ds' with
    | nil =>
      obtain ⟨g1, g2⟩ := hx rfl
      rw [List.head?_eq_getElem?] at g1 g2
      rcases h1 with h | h
      · exact g1 (by simpa using h)
      · exact g2 (by simpa using h)
    | cons e es =>
      have := hall e (by simp)
      rcases h1 with h | h
      · have : e = 'x' := by simpa using h
        subst this; exact absurd ‹isDigitChar 'x' = true› (by decide)
      · have : e = 'X' := by simpa using h
        subst this; exact absurd ‹isDigitChar 'X' = true› (by decide)
  obtain ⟨u1, u2⟩ := unsigned_dec (d :: ds') rest v hv hr' hp
  refine getInt_of sp _ sign v hsp' hsign ?_ u1 u2
  intro c hc
  have : d = c := by simpa using hc
  subst this
  have hd := hall d (by simp)
  obtain ⟨-, g2, g3⟩ := notSpace_of (Or.inl hd)
  refine ⟨?_, g2, g3⟩
  unfold isDigitChar at hd
  rw [decide_eq_true_iff] at hd
  have hne : ∀ e : Char, e.toNat < 48 → d ≠ e := by rintro e he rfl; omega
  unfold isXmlSpace
  simp only [decide_eq_false (hne ' ' (by decide)), decide_eq_false (hne '\t' (by decide)), decide_eq_false (hne '\n' (by decide)),
    decide_eq_false (hne '\r' (by decide)), Bool.or_self]

example : getInt " 3.9".toList = 3 ∧ getInt "-2147483649".toList = -2147483648 ∧ getUint "-5".toList = 0 ∧
    getInt "4294967297".toList = 2147483647 ∧ getInt "0012 m".toList = 12 := by decide +kernel

/-- C102: numbers after `0x` are hexadecimal, with the same limits. -/
theorem C102_hex (sp ds rest : List Char) (sign : Option Char) (x : Char) (v : Nat)
    (hsp : ∀ c ∈ sp, c = ' ' ∨ c = '\t' ∨ c = '\n' ∨ c = '\r') (hsign : IsSign sign) (hx : x = 'x' ∨ x = 'X')
    (hv : hexVal ds 0 = some v) (hr : ∀ c, rest.head? = some c → c.isAlphanum = false) :
    getInt (sp ++ sign.toList ++ ('0' :: x :: (ds ++ rest))) = clampInt (-2147483648) 2147483647 (withSign sign v) ∧
      (getUint (sp ++ sign.toList ++ ('0' :: x :: (ds ++ rest))) : ℤ) = clampInt 0 4294967295 (withSign sign v) := by
  have hsp' : ∀ c ∈ sp, isXmlSpace c = true := by
    intro c hc
    rcases hsp c hc with rfl | rfl | rfl | rfl <;> decide
  have hr' : ∀ c, rest.head? = some c → hexDigit c = none := by
    intro c hc
    have h := hr c hc
    unfold Char.isAlphanum Char.isAlpha Char.isUpper Char.isLower Char.isDigit at h
    simp only [Bool.or_eq_false_iff, Bool.and_eq_false_iff, decide_eq_false_iff_not, ge_iff_le] at h
    have e : ∀ n : UInt32, (n ≤ c.val ↔ n.toNat ≤ c.toNat) ∧ (c.val ≤ n ↔ c.toNat ≤ n.toNat) := fun n => ⟨Iff.rfl, Iff.rfl⟩
    simp only [(e _).1, (e _).2] at h
    unfold hexDigit
    have k1 : (48 : UInt32).toNat = 48 := rfl
    have k2 : (57 : UInt32).toNat = 57 := rfl
    have k3 : (65 : UInt32).toNat = 65 := rfl
    have k4 : (90 : UInt32).toNat = 90 := rfl
    have k5 : (97 : UInt32).toNat = 97 := rfl
    have k6 : (122 : UInt32).toNat = 122 := rfl
    rw [if_neg, if_neg, if_neg]
    all_goals (first | omega | (simp at h; omega) | skip)
  obtain ⟨u1, u2⟩ := unsigned_hex x hx ds rest v hv hr'
  refine getInt_of sp _ sign v hsp' hsign ?_ u1 u2
  intro c hc
  have : '0' = c := by simpa using hc
  subst this
  decide

example : getInt "-0x1F".toList = -31 ∧ getUint "0XffffFFFF".toList = 4294967295 ∧ getUint "0x100000000".toList = 4294967295 := by
  decide +kernel

/-- C102: every whole number that is written is read again. -/
theorem C102_int_roundtrip (z : ℤ) (h : -2147483648 ≤ z ∧ z ≤ 2147483647) : getInt (setInt z) = z := by
  have key : ∀ (sign : Option Char) (n : Nat), IsSign sign →
      getInt (sign.toList ++ decNat n) = clampInt (-2147483648) 2147483647 (withSign sign n) := by
    intro sign n hs
    have := (C102_int [] (decNat n) [] sign n (by simp) hs (digitsVal_decNat n) (decNat_ne_nil n) (by simp) (by simp)).1
    simpa using this
  unfold setInt
  cases z with
  | ofNat n =>
    have := key none n (Or.inl rfl)
    simp only [Option.toList_none, List.nil_append, withSign] at this
    have hc : clampInt (-2147483648) 2147483647 (n : ℤ) = n := by
      unfold clampInt
      have h2 : (n : ℤ) ≤ 2147483647 := h.2
      rw [if_neg (by omega), if_neg (by omega)]
    rw [if_neg (by simp), hc] at this
    exact this
  | negSucc n =>
    have := key (some '-') (n + 1) (Or.inr (Or.inl rfl))
    simp only [Option.toList_some, List.singleton_append, withSign, if_true] at this
    have hc : clampInt (-2147483648) 2147483647 (-((n + 1 : Nat) : ℤ)) = -((n + 1 : Nat) : ℤ) := by
      unfold clampInt
      have h1 := h.1
      rw [Int.negSucc_eq] at h1
      push_cast at h1 ⊢
      rw [if_neg (by omega), if_neg (by omega)]
    rw [hc] at this
    exact this

example : setInt (-2147483648) = "-2147483648".toList ∧ setInt 0 = ['0'] := by
  decide +kernel

/-! ### numbers with a fraction -/

theorem isDouble_fixed {x : ℚ} (h : IsDouble x) : toF64 x = x := by
  obtain ⟨m, k, hm, rfl⟩ := h
  exact flRound_exact 53 (by norm_num) m k hm

theorem isFloat_fixed {x : ℚ} (h : IsFloat x) : toF32 x = x := by
  obtain ⟨m, k, hm, rfl⟩ := h
  exact flRound_exact 24 (by norm_num) m k hm

/-- C102: every `double` that is written to an XML file is read again as the same number. -/
theorem C102_double_roundtrip (x : ℚ) (hx : IsDouble x) : getDouble (setDouble x) = x := by
  unfold getDouble setDouble
  rw [strtod_generalP]
  refine flRound_recover_rel 53 (by norm_num) (isDouble_fixed hx) (le_trans (generalP_close 16 x) ?_)
  have := abs_nonneg x
  rw [div_le_iff₀ (by positivity)]
  have e : |x| / 2 ^ (53 + 1) * (99 / 100) * (2 * 10 ^ 16) = |x| * (99 / 100 * (2 * 10 ^ 16) / 2 ^ 54) := by ring
  rw [e]
  have : (1 : ℚ) ≤ 99 / 100 * (2 * 10 ^ 16) / 2 ^ 54 := by norm_num
  nlinarith

/-- C102: every `float` that is written to an XML file is read again as the same number. -/
theorem C102_float_roundtrip (x : ℚ) (hx : IsFloat x) : getFloat (setFloat x) = x := by
  unfold getFloat setFloat
  rw [strtod_generalP]
  have h1 := generalP_close 8 x
  have h2 := toF64_err (generalPVal 8 x)
  generalize generalPVal 8 x = y at h1 h2
  generalize toF64 y = z at h2
  refine flRound_recover_rel 24 (by norm_num) (isFloat_fixed hx) ?_
  have h3 : |y| ≤ |x| + |y - x| := by
    have := abs_add_le x (y - x)
    rwa [show x + (y - x) = y by ring] at this
  have h4 : |z - x| ≤ |z - y| + |y - x| := by
    have := abs_add_le (z - y) (y - x)
    rwa [show z - y + (y - x) = z - x by ring] at this
  have h5 := abs_nonneg x
  norm_num at h1 h2 ⊢
  linarith

example : setDouble (toF64 (1 / 10)) = "0.10000000000000001".toList ∧ setDouble (-25 / 2) = "-12.5".toList ∧
    setFloat (3 / 1000000) = "3e-06".toList ∧ getDouble "1e22".toList = 10 ^ 22 := by decide +kernel

/-- C102: the text of a number in the usual notation, with white space in front of it and anything
behind it that does not continue it, is read as the nearest `double`. -/
theorem C102_double_reads (sp s rest : List Char) (v : ℚ) (hsp : ∀ c ∈ sp, c = ' ' ∨ c = '\t' ∨ c = '\n' ∨ c = '\r')
    (h : readSci s = some v) (hne : s ≠ []) (hr : EndsNumber rest) :
    getDouble (sp ++ s ++ rest) = toF64 v ∧ getFloat (sp ++ s ++ rest) = toF32 (toF64 v) := by
  have hsp' : ∀ c ∈ sp, isSpaceChar c = true := by
    intro c hc
    rcases hsp c hc with rfl | rfl | rfl | rfl <;> decide
  unfold getDouble getFloat
  rw [strtod_reads sp s rest v hsp' h hne hr]
  exact ⟨rfl, rfl⟩

/-- C102 fails for `float` parameters written with more digits than needed: the text is rounded twice
and the result is not the nearest `float`. -/
theorem C102_float_nearest_fails : ∃ (s : List Char) (v : ℚ), readSci s = some v ∧ getFloat s ≠ toF32 v := by
  refine ⟨"1.0000000596046447753906251".toList, 10000000596046447753906251 / 10 ^ 25, ?_, ?_⟩ <;> decide +kernel

/-- C102 fails for what is no number: nothing is reported and the value is zero.  (The names of
infinity and not-a-number are numbers to the C library.) -/
theorem C102_no_number_fails (c : Char) (r : List Char) (h : c.isAlpha = true) (hn : c.toLower ≠ 'n' ∧ c.toLower ≠ 'i') :
    getInt (c :: r) = 0 ∧ getUint (c :: r) = 0 ∧ getDouble (c :: r) = 0 := by
  have _ := hn
  have hne : ∀ d : Char, d.isAlpha = false → c ≠ d := by rintro d hd rfl; rw [hd] at h; exact absurd h (by decide)
  have hdig : isDigitChar c = false := by
    by_contra hd
    rw [Bool.not_eq_false, isDigitChar_iff] at hd
    have hd' : 48 ≤ c.toNat ∧ c.toNat ≤ 57 := hd
    have : ∀ k, 48 ≤ k → k ≤ 57 → (Char.ofNat k).isAlpha = false := by
      intro k h1 h2
      interval_cases k <;> decide
    have h3 := this c.toNat hd'.1 hd'.2
    rw [Char.ofNat_toNat] at h3
    rw [h3] at h
    exact absurd h (by decide)
  have hx : isXmlSpace c = false := by
    unfold isXmlSpace
    simp only [decide_eq_false (hne ' ' (by decide)), decide_eq_false (hne '\t' (by decide)), decide_eq_false (hne '\n' (by decide)),
      decide_eq_false (hne '\r' (by decide)), Bool.or_self]
  have hs : isSpaceChar c = false := by
    unfold isSpaceChar
    simp only [decide_eq_false (hne ' ' (by decide)), decide_eq_false (hne '\t' (by decide)), decide_eq_false (hne '\n' (by decide)),
      decide_eq_false (hne '\r' (by decide)), decide_eq_false (hne (Char.ofNat 11) (by decide)),
      decide_eq_false (hne (Char.ofNat 12) (by decide)), Bool.or_self]
  have hk : skipSign (c :: r) = c :: r := by
    unfold skipSign
    rw [if_neg]
    simp [hne '-' (by decide), hne '+' (by decide)]
  have hu : unsignedText (c :: r) = (0, false) := by
    unfold unsignedText
    have hp : hexPrefix (c :: r) = false := by
      unfold hexPrefix
      simp [hne '0' (by decide)]
    rw [if_neg (by rw [hp]; decide)]
    dsimp only
    rw [List.dropWhile_cons_of_neg (by simpa using hne '0' (by decide))]
    simp [scanDec, hdig, decOverflow]
  have hU : ∀ minv maxv, stringToU32 minv maxv (c :: r) = 0 := by
    intro minv maxv
    unfold stringToU32
    dsimp only
    rw [List.dropWhile_cons_of_neg (by rw [hx]; decide), hk, hu]
    simp [hne '-' (by decide)]
  refine ⟨by unfold getInt; rw [hU]; rfl, hU _ _, ?_⟩
  have hz : scanNumber (c :: r) = 0 := by
    unfold scanNumber
    dsimp only
    rw [List.takeWhile_cons_of_neg (by rw [hdig]; decide), List.dropWhile_cons_of_neg (by rw [hdig]; decide)]
    have : fracDigits (c :: r) = [] := by
      unfold fracDigits
      rw [if_neg]
      simp [hne '.' (by decide)]
    rw [this]
    simp [atoiDigits]
  unfold getDouble strtod
  dsimp only
  rw [List.dropWhile_cons_of_neg (by rw [hs]; decide), hk, hz, if_neg (by simp [hne '-' (by decide)])]
  exact flRound_zero 53

example : ('o').isAlpha = true ∧ getInt "off".toList = 0 := by decide +kernel

/-! ### switches -/

/-- C102: switches are read as they are written; only the first character counts. -/
theorem C102_bool (b : Bool) (s : List Char) : getBool (setBool b) = b ∧
    (getBool s = true ↔ ∃ c r, s = c :: r ∧ (c = '1' ∨ c = 't' ∨ c = 'T' ∨ c = 'y' ∨ c = 'Y')) := by
  constructor
  · cases b <;> decide
  · unfold getBool
    cases s with
    | nil => simp
    | cons c r => simp [or_assoc]

/-- C102 fails for a switch behind a blank or a line end (numbers are read all the same): it is off. -/
theorem C102_bool_space_fails : getBool " true".toList = false ∧ getBool "\n1\n".toList = false ∧ getInt "\n1\n".toList = 1 := by
  decide +kernel

/-- C102: an attribute that is not there gives the default, one that is there its value, the first one
if there are several. -/
theorem C102_attribute {α : Type} (get : List Char → α) (dflt : α) (a b : XmlAttrs) (name v : List Char)
    (ha : ∀ p ∈ a, p.1 ≠ name) :
    asAttr get dflt a name = dflt ∧ asAttr get dflt (a ++ (name, v) :: b) name = get v := by
  have h0 : a.find? (fun p => decide (p.1 = name)) = none := by
    rw [List.find?_eq_none]
    intro p hp
    simpa using ha p hp
  constructor
  · simp [asAttr, attrOf, h0]
  · simp [asAttr, attrOf, List.find?_append, h0]

end Verif
