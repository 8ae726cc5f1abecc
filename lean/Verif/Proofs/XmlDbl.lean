import Verif.Proofs.XmlNum
/-! Numbers with a fraction in XML files. -/
namespace Verif
open Spec

/-! ### printing -/

theorem readSci_partsP (d m : Nat) (e : ℤ) :
    readSciUnsigned (partsTextP d m e) = some ((m : ℚ) * 10 ^ (e - d)) := by
  have split : ∀ k : Nat, ((m / 10 ^ k : Nat) : ℚ) + ((m % 10 ^ k : Nat) : ℚ) / 10 ^ k = m / 10 ^ k := by
    intro k
    have : (m : ℚ) = 10 ^ k * ((m / 10 ^ k : Nat) : ℚ) + ((m % 10 ^ k : Nat) : ℚ) := by
      exact_mod_cast (Nat.div_add_mod m (10 ^ k)).symm
    rw [eq_div_iff (by positivity), add_mul, div_mul_cancel₀ _ (by positivity)]
    linarith
  unfold partsTextP
  by_cases h : -4 ≤ e ∧ e < d + 1
  · rw [if_pos h]
    unfold readSciUnsigned
    rw [cutAt_none (whole_frac_no_e _ _ _)]
    simp only
    rw [readUnsigned_frac _ _ _ (Nat.mod_lt _ (by positivity)), split]
    have : e - d = -((d - e).toNat : ℤ) := by omega
    rw [this, zpow_neg, zpow_natCast, div_eq_mul_inv]
  · rw [if_neg h]
    unfold readSciUnsigned
    have hno : 'e' ∉ expText e := by
      intro h
      rcases exp_chars e _ h with h | h | h
      · exact absurd h (by decide)
      · exact absurd h (by decide)
      · exact digit_ne h (by decide) rfl
    rw [cutAt_cons _ (whole_frac_no_e _ _ _), cutAt_none hno]
    simp only
    rw [readUnsigned_frac _ _ _ (Nat.mod_lt _ (by positivity)), readSigned_exp, split]
    show some _ = _
    congr 1
    rw [zpow_sub₀ (by norm_num), zpow_natCast]
    ring

theorem partsP_head (d m : Nat) (e : ℤ) : ∃ c s, partsTextP d m e = c :: s ∧ c ≠ '-' := by
  have : ∀ (a : Nat) (t : List Char), ∃ c s, decNat a ++ t = c :: s ∧ c ≠ '-' := by
    intro a t
    cases hd : decNat a with
    | nil => exact absurd hd (decNat_ne_nil _)
    | cons c r => exact ⟨c, r ++ t, rfl, digit_ne (decNat_chars a c (by rw [hd]; simp)) (by decide)⟩
  unfold partsTextP
  split
  · exact this _ _
  · rw [List.append_assoc]; exact this _ _

/-- The number a text of `generalP` stands for. -/
def generalPVal (d : Nat) (x : ℚ) : ℚ :=
  if x = 0 then 0
  else if x < 0 then -(((sciPartsP d (-x)).1 : ℚ) * 10 ^ ((sciPartsP d (-x)).2 - d))
  else ((sciPartsP d x).1 : ℚ) * 10 ^ ((sciPartsP d x).2 - d)

theorem readSci_generalP (d : Nat) (x : ℚ) : readSci (generalP d x) = some (generalPVal d x) := by
  unfold generalP generalPVal
  split
  · decide
  · split
    · rw [readSci, readSci_partsP]; rfl
    · obtain ⟨c, s, h, hc⟩ := partsP_head d (sciPartsP d x).1 (sciPartsP d x).2
      have := readSci_partsP d (sciPartsP d x).1 (sciPartsP d x).2
      rw [h] at this ⊢
      rw [readSci]
      · exact this
      · intro s' hs'
        cases hs'
        exact hc rfl

theorem sciPartsP_close (d : Nat) {x : ℚ} (hx : 0 < x) :
    |((sciPartsP d x).1 : ℚ) * 10 ^ ((sciPartsP d x).2 - d) - x| ≤ x / (2 * 10 ^ d) := by
  have hlog : (10 : ℚ) ^ Int.log 10 x ≤ x := by
    have := Int.zpow_log_le_self (R := ℚ) (b := 10) (by norm_num) hx
    exact_mod_cast this
  have hval : ((sciPartsP d x).1 : ℚ) * 10 ^ ((sciPartsP d x).2 - d) =
      (roundEven (x / (10 : ℚ) ^ (Int.log 10 x - d)) : ℚ) * 10 ^ (Int.log 10 x - d) := by
    unfold sciPartsP
    dsimp only
    split
    · rename_i h
      rw [h, show Int.log 10 x + 1 - (d : ℤ) = (Int.log 10 x - d) + 1 from by ring,
        zpow_add₀ (by norm_num)]
      push_cast
      rw [pow_succ]
      ring
    · rfl
  rw [hval]
  set u : ℚ := (10 : ℚ) ^ (Int.log 10 x - d) with hu
  have hu0 : 0 < u := by positivity
  have hux : u * 10 ^ d ≤ x := by
    have : u * 10 ^ d = 10 ^ Int.log 10 x := by
      rw [hu, zpow_sub₀ (by norm_num), zpow_natCast, div_mul_cancel₀ _ (by positivity)]
    rw [this]; exact hlog
  have hc := roundEven_close (x / u) (by positivity)
  have hxu : x / u * u = x := by field_simp
  generalize (roundEven (x / u) : ℚ) = r at *
  have e : r * u - x = (r - x / u) * u := by rw [sub_mul, hxu]
  rw [e, abs_mul, abs_of_pos hu0, le_div_iff₀ (by positivity)]
  have hc' : |r - x / u| ≤ 1 / 2 := by
    first | exact hc | (rw [abs_sub_comm]; exact hc)
  nlinarith [mul_le_mul_of_nonneg_right hc' (show (0 : ℚ) ≤ 2 * (u * 10 ^ d) by positivity)]

theorem generalP_close (d : Nat) (x : ℚ) : |generalPVal d x - x| ≤ |x| / (2 * 10 ^ d) := by
  unfold generalPVal
  split
  · rename_i h; rw [h]; simp
  · rename_i h0
    split
    · rename_i h
      have := sciPartsP_close d (x := -x) (by linarith)
      rw [abs_of_neg h, ← abs_neg]
      rw [show -(-(((sciPartsP d (-x)).1 : ℚ) * 10 ^ ((sciPartsP d (-x)).2 - d)) - x) =
        ((sciPartsP d (-x)).1 : ℚ) * 10 ^ ((sciPartsP d (-x)).2 - d) - -x from by ring]
      exact this
    · rename_i h
      have hx : 0 < x := lt_of_le_of_ne (not_lt.mp h) (Ne.symm h0)
      rw [abs_of_pos hx]
      exact sciPartsP_close d hx

/-! ### recovering a number that needs no rounding -/

theorem flRound_recover_rel (p : ℕ) (hp : 2 ≤ p) {x y : ℚ} (hy : flRound p y = y)
    (h : |x - y| ≤ |y| / 2 ^ (p + 1) * (99 / 100)) : flRound p x = y := by
  by_cases hy0 : y = 0
  · subst hy0
    rw [abs_zero, zero_div, zero_mul, sub_zero] at h
    have : x = 0 := abs_eq_zero.1 (le_antisymm h (abs_nonneg _))
    rw [this]; exact hy
  have hu := flUlp_pos p y
  obtain ⟨m, hm⟩ : ∃ m : ℤ, y = m * flUlp p y := by
    rw [flRound_of_ne p hy0] at hy
    exact ⟨_, hy.symm⟩
  have hlog1 := log_le_abs hy0
  have hlog2 := abs_lt_log y
  set e := Int.log 2 |y| with he
  have hue : flUlp p y = (2 : ℚ) ^ (e - p + 1) := rfl
  have htop : (2 : ℚ) ^ (e + 1) = 2 ^ p * flUlp p y := by
    rw [hue, ← zpow_natCast, ← zpow_add₀ (by norm_num)]
    congr 1; ring
  have hbot : 2 * (2 : ℚ) ^ e = 2 ^ p * flUlp p y := by
    rw [← htop, zpow_add₀ (by norm_num), zpow_one]; ring
  have hpp : (2 : ℚ) ^ (p + 1) = 2 * 2 ^ p := by rw [pow_succ]; ring
  have h2p : (0 : ℚ) < 2 ^ p := by positivity
  have hyab : |y| < 2 ^ p * flUlp p y := by rw [← htop]; exact hlog2
  have hq : |y| / 2 ^ (p + 1) < flUlp p y / 2 := by
    rw [hpp, div_lt_div_iff₀ (by positivity) (by norm_num)]
    nlinarith
  have hdist : |x - y| < flUlp p y / 2 := by
    have h0 : 0 ≤ |y| / 2 ^ (p + 1) := by positivity
    linarith
  have hmabs : |y| = (|m| : ℤ) * flUlp p y := by
    conv_lhs => rw [hm]
    rw [abs_mul, abs_of_pos hu]; push_cast; rfl
  by_cases hpow : |y| = 2 ^ e
  · -- a power of two
    apply flRound_recover p hp hy0 hy
    have : |y| / 2 ^ (p + 1) = flUlp p y / 4 := by
      rw [hpow, hpp, div_eq_div_iff (by positivity) (by norm_num)]
      linarith
    rw [this] at h
    linarith
  · have hgt : (2 : ℚ) ^ e < |y| := lt_of_le_of_ne hlog1 (Ne.symm hpow)
    -- one step above it at least
    have hmnat : (2 : ℤ) ^ p + 2 ≤ 2 * |m| := by
      have h1 : (2 : ℚ) ^ p * flUlp p y < 2 * (|m| : ℤ) * flUlp p y := by
        rw [← hbot, mul_assoc, ← hmabs]; linarith
      have h2 := lt_of_mul_lt_mul_right h1 hu.le
      have h3 : (2 : ℤ) ^ p < 2 * |m| := by exact_mod_cast h2
      obtain ⟨k, rfl⟩ : ∃ k, p = k + 1 := ⟨p - 1, by omega⟩
      rw [pow_succ] at h3 ⊢
      omega
    have hge : (2 : ℚ) ^ e + flUlp p y ≤ |y| := by
      have h1 : (2 : ℚ) ^ p + 2 ≤ 2 * (|m| : ℤ) := by exact_mod_cast hmnat
      have h2 := mul_le_mul_of_nonneg_right h1 hu.le
      rw [add_mul, ← hbot, mul_assoc 2 ((|m| : ℤ) : ℚ), ← hmabs] at h2
      linarith
    have hmlt : |m| < 2 ^ p := by
      rw [hmabs, htop] at hlog2
      have := lt_of_mul_lt_mul_right hlog2 hu.le
      exact_mod_cast this
    have hle : |y| + flUlp p y ≤ 2 ^ (e + 1) := by
      have h1 : ((|m| : ℤ) : ℚ) + 1 ≤ 2 ^ p := by exact_mod_cast hmlt
      have h2 := mul_le_mul_of_nonneg_right h1 hu.le
      rw [add_mul, ← hmabs, one_mul, ← htop] at h2
      exact h2
    have hx1 : |x| < (2 : ℚ) ^ (e + 1) := by
      have := abs_sub_abs_le_abs_sub x y
      linarith
    have hx2 : (2 : ℚ) ^ e ≤ |x| := by
      have := abs_sub_abs_le_abs_sub y x
      rw [abs_sub_comm] at this
      linarith
    have hx0 : x ≠ 0 := by
      rintro rfl
      rw [abs_zero] at hx2
      have : (0 : ℚ) < 2 ^ e := by positivity
      linarith
    have hl : Int.log 2 |x| = e := by
      have h1 := lt_of_le_of_lt (log_le_abs hx0) hx1
      have h2 := lt_of_le_of_lt hx2 (abs_lt_log x)
      have h3 := (zpow_lt_zpow_iff_right₀ (by norm_num : (1 : ℚ) < 2)).1 h1
      have h4 := (zpow_lt_zpow_iff_right₀ (by norm_num : (1 : ℚ) < 2)).1 h2
      omega
    have hxu : flUlp p x = flUlp p y := by unfold flUlp; rw [hl]
    rw [flRound_of_ne p hx0, rintEven_near (k := m), hxu, ← hm]
    rw [hxu]
    have e1 : x / flUlp p y - m = (x - y) / flUlp p y := by
      rw [eq_div_iff hu.ne', sub_mul, div_mul_cancel₀ _ hu.ne', ← hm]
    rw [e1, abs_div, abs_of_pos hu, div_lt_iff₀ hu]
    linarith

/-! ### reading -/

theorem cutAt_one {c : Char} : ∀ {s a : List Char}, cutAt c s = [a] → s = a ∧ c ∉ a := by
  intro s
  induction s with
  | nil => intro a h; simp only [cutAt, List.cons.injEq, and_true] at h; subst h; simp
  | cons d s ih =>
    intro a h
    simp only [cutAt] at h
    split at h
    · rename_i hd
      exfalso
      have := (List.cons.inj h).2
      cases s with
      | nil => simp [cutAt] at this
      | cons d' s' =>
        simp only [cutAt] at this
        split at this
        · exact absurd this (by simp)
        · split at this <;> exact absurd this (by simp)
    · rename_i hd
      split at h
      · rename_i t ts hc
        obtain ⟨h1, h2⟩ := List.cons.inj h
        subst h1 h2
        obtain ⟨e1, e2⟩ := ih hc
        subst e1
        refine ⟨rfl, ?_⟩
        simp only [List.mem_cons, not_or]
        exact ⟨Ne.symm hd, e2⟩
      · rename_i hc
        exfalso
        cases s with
        | nil => simp [cutAt] at hc
        | cons d' s' =>
          simp only [cutAt] at hc
          split at hc
          · exact absurd hc (by simp)
          · split at hc <;> exact absurd hc (by simp)

theorem cutAt_two {c : Char} : ∀ {s a b : List Char}, cutAt c s = [a, b] → s = a ++ c :: b ∧ c ∉ a ∧ c ∉ b := by
  intro s
  induction s with
  | nil => intro a b h; simp [cutAt] at h
  | cons d s ih =>
    intro a b h
    simp only [cutAt] at h
    split at h
    · rename_i hd
      obtain ⟨h1, h2⟩ := List.cons.inj h
      subst h1 hd
      obtain ⟨e1, e2⟩ := cutAt_one h2
      subst e1
      exact ⟨rfl, by simp, e2⟩
    · rename_i hd
      split at h
      · rename_i t ts hc
        obtain ⟨h1, h2⟩ := List.cons.inj h
        subst h1 h2
        obtain ⟨e1, e2, e3⟩ := ih hc
        subst e1
        refine ⟨rfl, ?_, e3⟩
        simp only [List.mem_cons, not_or]
        exact ⟨Ne.symm hd, e2⟩
      · exact absurd h (by simp)

theorem digitsVal_all : ∀ {l : List Char} {acc v : Nat}, digitsVal l acc = some v → ∀ c ∈ l, isDigitChar c = true := by
  intro l
  induction l with
  | nil => simp
  | cons c l ih =>
    intro acc v h
    simp only [digitsVal] at h
    split at h
    · rename_i hc
      intro x hx
      rcases List.mem_cons.1 hx with rfl | hx
      · exact (isDigitChar_iff _).2 hc
      · exact ih h x hx
    · exact absurd h (by simp)

theorem atoiDigits_val (rest : List Char) (hr : ∀ c, rest.head? = some c → isDigitChar c = false) :
    ∀ (l : List Char) (acc v : Nat), digitsVal l acc = some v → atoiDigits (l ++ rest) acc = v := by
  intro l
  induction l with
  | nil =>
    intro acc v h
    have h' : acc = v := Option.some.inj h
    subst h'
    cases rest with
    | nil => rfl
    | cons c r =>
      simp only [List.nil_append, atoiDigits]
      rw [if_neg (by rw [hr c rfl]; decide)]
  | cons c l ih =>
    intro acc v h
    simp only [digitsVal] at h
    split at h
    · rename_i hc
      simp only [List.cons_append, atoiDigits]
      rw [if_pos ((isDigitChar_iff c).2 hc)]
      exact ih _ _ h
    · exact absurd h (by simp)

theorem takeWhile_stop {p : Char → Bool} (l rest : List Char) (hl : ∀ c ∈ l, p c = true)
    (hr : ∀ c, rest.head? = some c → p c = false) :
    (l ++ rest).takeWhile p = l ∧ (l ++ rest).dropWhile p = rest := by
  induction l with
  | nil =>
    cases rest with
    | nil => simp
    | cons c r =>
      rw [List.nil_append]
      have := hr c rfl
      exact ⟨List.takeWhile_cons_of_neg (by rw [this]; decide), List.dropWhile_cons_of_neg (by rw [this]; decide)⟩
  | cons c l ih =>
    obtain ⟨a, b⟩ := ih fun x hx => hl x (by simp [hx])
    rw [List.cons_append, List.takeWhile_cons_of_pos (hl c (by simp)), List.dropWhile_cons_of_pos (hl c (by simp)), a, b]
    exact ⟨rfl, rfl⟩

/-- The mantissa, followed by something that does not continue it. -/
theorem scan_mantissa (s r : List Char) (v : ℚ) (h : readUnsigned s = some v)
    (hr : ∀ c, r.head? = some c → isDigitChar c = false ∧ c ≠ '.') :
    scanNumber (s ++ r) = v * (10 : ℚ) ^ scanExp r := by
  unfold readUnsigned at h
  split at h
  · rename_i a hc
    obtain ⟨rfl, -⟩ := cutAt_one hc
    obtain ⟨n, hn, rfl⟩ : ∃ n : ℕ, digitsVal s 0 = some n ∧ (n : ℚ) = v := by
      cases hn : digitsVal s 0 with
      | none => rw [hn] at h; exact absurd h (by simp)
      | some n => rw [hn] at h; exact ⟨n, rfl, by simpa using h⟩
    obtain ⟨t1, t2⟩ := takeWhile_stop s r (digitsVal_all hn) (fun c h => (hr c h).1)
    unfold scanNumber
    dsimp only
    rw [t1, t2]
    have h1 : fracDigits r = [] := by
      unfold fracDigits
      rw [if_neg]
      intro h; exact (hr _ h).2 rfl
    have h2 : afterFrac r = r := by
      unfold afterFrac
      rw [if_neg]
      intro h; exact (hr _ h).2 rfl
    rw [h1, h2, List.append_nil]
    have := atoiDigits_val [] (by simp) s 0 n hn
    rw [List.append_nil] at this
    rw [this]
    simp
  · rename_i a b hc
    obtain ⟨rfl, -, -⟩ := cutAt_two hc
    cases hn : digitsVal a 0 with
    | none => rw [hn] at h; exact absurd h (by simp)
    | some n =>
      cases hm : digitsVal b 0 with
      | none => rw [hn, hm] at h; exact absurd h (by simp)
      | some m =>
        rw [hn, hm] at h
        have hv : (n : ℚ) + (m : ℚ) / 10 ^ b.length = v := Option.some.inj h
        subst hv
        obtain ⟨t1, t2⟩ := takeWhile_stop a ('.' :: (b ++ r)) (digitsVal_all hn)
          (fun c h => by rw [← Option.some.inj h]; decide)
        obtain ⟨t3, t4⟩ := takeWhile_stop b r (digitsVal_all hm) (fun c h => (hr c h).1)
        unfold scanNumber
        dsimp only
        rw [List.append_assoc, List.cons_append, t1, t2]
        have h1 : fracDigits ('.' :: (b ++ r)) = b := by
          unfold fracDigits
          rw [if_pos (by rfl)]
          exact t3
        have h2 : afterFrac ('.' :: (b ++ r)) = r := by
          unfold afterFrac
          rw [if_pos (by rfl)]
          exact t4
        rw [h1, h2]
        obtain ⟨w, hw, hwv⟩ : ∃ w, digitsVal (a ++ b) 0 = some w ∧ w = n * 10 ^ b.length + m := by
          rw [digitsVal_append, hn, Option.bind_some]
          have : ∀ (l : List Char) (k acc v : Nat), digitsVal l acc = some v →
              digitsVal l (acc + k) = some (v + k * 10 ^ l.length) := by
            intro l
            induction l with
            | nil => intro k acc v h; have h' : acc = v := Option.some.inj h; subst h'; simp [digitsVal]
            | cons c l ih =>
              intro k acc v h
              simp only [digitsVal] at h ⊢
              split at h
              · rename_i hc
                rw [if_pos hc, show 10 * (acc + k) + (c.toNat - '0'.toNat) = (10 * acc + (c.toNat - '0'.toNat)) + 10 * k by ring,
                  ih _ _ _ h, List.length_cons, Nat.pow_succ]
                congr 1; ring
              · exact absurd h (by simp)
          refine ⟨_, ?_, rfl⟩
          have := this b n 0 m hm
          rw [Nat.zero_add] at this
          rw [this]
          congr 1; ring
        have := atoiDigits_val [] (by simp) (a ++ b) 0 w hw
        rw [List.append_nil] at this
        rw [this, hwv, zpow_sub₀ (by norm_num), zpow_natCast]
        push_cast
        field_simp
  · exact absurd h (by simp)

theorem scanExp_signed (b rest : List Char) (k : ℤ) (h : readSigned b = some k)
    (hr : ∀ c, rest.head? = some c → isDigitChar c = false) : scanExp ('e' :: (b ++ rest)) = k := by
  unfold scanExp
  rw [if_pos (Or.inl (by rfl)), List.tail_cons]
  unfold readSigned at h
  split at h
  · rename_i s
    obtain ⟨n, hn, hk⟩ : ∃ n : ℕ, digitsVal s 0 = some n ∧ -(n : ℤ) = k := by
      cases hn : digitsVal s 0 with
      | none => rw [hn] at h; exact absurd h (by simp)
      | some n => rw [hn] at h; exact ⟨n, rfl, by simpa using h⟩
    subst hk
    simp only [List.cons_append, signedDigits]
    rw [if_pos trivial, atoiDigits_val rest hr s 0 n hn]
  · rename_i s
    obtain ⟨n, hn, hk⟩ : ∃ n : ℕ, digitsVal s 0 = some n ∧ (n : ℤ) = k := by
      cases hn : digitsVal s 0 with
      | none => rw [hn] at h; exact absurd h (by simp)
      | some n => rw [hn] at h; exact ⟨n, rfl, by simpa using h⟩
    subst hk
    simp only [List.cons_append, signedDigits]
    rw [if_neg (by decide), if_pos trivial, atoiDigits_val rest hr s 0 n hn]
  · exact absurd h (by simp)

theorem endsNumber_facts {rest : List Char} (h : EndsNumber rest) :
    ∀ c, rest.head? = some c → isDigitChar c = false ∧ c ≠ '.' ∧ c ≠ 'e' ∧ c ≠ 'E' ∧ c ≠ '-' ∧ c ≠ '+' := by
  intro c hc
  obtain ⟨h1, h2, h3, h4⟩ := h c hc
  have hd : isDigitChar c = false := by
    by_contra hd
    rw [Bool.not_eq_false, isDigitChar_iff] at hd
    have : c.isDigit = true := by
      unfold Char.isDigit
      simp only [Bool.and_eq_true, decide_eq_true_eq]
      exact ⟨hd.1, hd.2⟩
    unfold Char.isAlphanum at h1
    rw [this, Bool.or_true] at h1
    exact absurd h1 (by decide)
  refine ⟨hd, h2, ?_, ?_, h4, h3⟩
  · rintro rfl; exact absurd h1 (by decide)
  · rintro rfl; exact absurd h1 (by decide)

theorem scanNumber_sci (s rest : List Char) (v : ℚ) (h : readSciUnsigned s = some v) (hr : EndsNumber rest) :
    scanNumber (s ++ rest) = v := by
  have hf := endsNumber_facts hr
  have h0 : scanExp rest = 0 := by
    unfold scanExp
    rw [if_neg]
    rintro (h | h)
    · exact (hf _ h).2.2.1 rfl
    · exact (hf _ h).2.2.2.1 rfl
  unfold readSciUnsigned at h
  split at h
  · rename_i a hc
    obtain ⟨rfl, -⟩ := cutAt_one hc
    rw [scan_mantissa s rest v h (fun c hc => ⟨(hf c hc).1, (hf c hc).2.1⟩), h0]
    simp
  · rename_i a b hc
    obtain ⟨rfl, -, -⟩ := cutAt_two hc
    cases hu : readUnsigned a with
    | none => rw [hu] at h; exact absurd h (by simp)
    | some w =>
      cases hk : readSigned b with
      | none => rw [hu, hk] at h; exact absurd h (by simp)
      | some k =>
        rw [hu, hk] at h
        have hv : w * (10 : ℚ) ^ k = v := Option.some.inj h
        rw [List.append_assoc, List.cons_append,
          scan_mantissa a ('e' :: (b ++ rest)) w hu (fun c hc => by rw [← Option.some.inj hc]; decide),
          scanExp_signed b rest k hk (fun c hc => (hf c hc).1), hv]
  · exact absurd h (by simp)

/-- What a text of a number begins with. -/
theorem readSciUnsigned_head {s : List Char} {v : ℚ} (h : readSciUnsigned s = some v) :
    ∀ c, s.head? = some c → isDigitChar c = true ∨ c = '.' ∨ c = 'e' := by
  have key : ∀ (a : List Char) (w : ℚ), readUnsigned a = some w → ∀ c, a.head? = some c → isDigitChar c = true ∨ c = '.' := by
    intro a w hw c hc
    unfold readUnsigned at hw
    split at hw
    · rename_i a' he
      obtain ⟨rfl, -⟩ := cutAt_one he
      obtain ⟨n, hn⟩ : ∃ n : ℕ, digitsVal a 0 = some n := by
        cases hn : digitsVal a 0 with
        | none => rw [hn] at hw; exact absurd hw (by simp)
        | some n => exact ⟨n, rfl⟩
      exact Or.inl (digitsVal_all hn c (List.mem_of_mem_head? hc))
    · rename_i a' b' he
      obtain ⟨rfl, -, -⟩ := cutAt_two he
      cases hn : digitsVal a' 0 with
      | none => rw [hn] at hw; exact absurd hw (by simp)
      | some n =>
        cases a' with
        | nil => right; exact (Option.some.inj hc).symm
        | cons d a' => left; exact digitsVal_all hn c (by rw [Option.some.inj hc.symm]; simp)
    · exact absurd hw (by simp)
  intro c hc
  unfold readSciUnsigned at h
  split at h
  · rename_i a he
    obtain ⟨rfl, -⟩ := cutAt_one he
    rcases key _ _ h c hc with h | h
    · exact Or.inl h
    · exact Or.inr (Or.inl h)
  · rename_i a b he
    obtain ⟨rfl, -, -⟩ := cutAt_two he
    cases hu : readUnsigned a with
    | none => rw [hu] at h; exact absurd h (by simp)
    | some w =>
      cases a with
      | nil => right; right; exact (Option.some.inj hc).symm
      | cons d a' =>
        rcases key _ _ hu c hc with h | h
        · exact Or.inl h
        · exact Or.inr (Or.inl h)
  · exact absurd h (by simp)

theorem notSpace_of {c : Char} (h : isDigitChar c = true ∨ c = '.' ∨ c = 'e') :
    isSpaceChar c = false ∧ c ≠ '-' ∧ c ≠ '+' := by
  rcases h with h | rfl | rfl
  · unfold isDigitChar at h
    rw [decide_eq_true_iff] at h
    have hne : ∀ d : Char, d.toNat < 48 → c ≠ d := by rintro d hd rfl; omega
    refine ⟨?_, hne _ (by decide), hne _ (by decide)⟩
    unfold isSpaceChar
    simp only [decide_eq_false (hne ' ' (by decide)), decide_eq_false (hne '\t' (by decide)), decide_eq_false (hne '\n' (by decide)),
      decide_eq_false (hne '\r' (by decide)), decide_eq_false (hne (Char.ofNat 11) (by decide)),
      decide_eq_false (hne (Char.ofNat 12) (by decide)), Bool.or_self]
  · decide
  · decide

/-- `strtod` on the text of a number, after white space and before something that is no number. -/
theorem strtod_reads (sp s rest : List Char) (v : ℚ) (hsp : ∀ c ∈ sp, isSpaceChar c = true)
    (h : readSci s = some v) (hne : s ≠ []) (hr : EndsNumber rest) : strtod (sp ++ s ++ rest) = toF64 v := by
  have hf := endsNumber_facts hr
  unfold strtod
  dsimp only
  by_cases hm : s.head? = some '-'
  · obtain ⟨s', rfl⟩ : ∃ s', s = '-' :: s' := by
      cases s with
      | nil => exact absurd rfl hne
      | cons c s' => exact ⟨s', by rw [Option.some.inj hm]⟩
    rw [readSci, Option.map_eq_some_iff] at h
    obtain ⟨w, hw, rfl⟩ := h
    have hd : (sp ++ '-' :: s' ++ rest).dropWhile isSpaceChar = '-' :: (s' ++ rest) := by
      rw [List.append_assoc, dropWhile_all _ _ hsp, List.cons_append, List.dropWhile_cons_of_neg (by decide)]
    rw [hd]
    have hk : skipSign ('-' :: (s' ++ rest)) = s' ++ rest := by simp [skipSign]
    rw [if_pos (by rfl), hk, scanNumber_sci _ _ _ hw hr]
  · have h' : readSciUnsigned s = some v := by
      unfold readSci at h
      split at h
      · exact absurd rfl hm
      · exact h
    obtain ⟨c, s', rfl⟩ := List.exists_cons_of_ne_nil hne
    obtain ⟨g1, g2, g3⟩ := notSpace_of (readSciUnsigned_head h' c rfl)
    have hd : (sp ++ c :: s' ++ rest).dropWhile isSpaceChar = c :: s' ++ rest := by
      rw [List.append_assoc, dropWhile_all _ _ hsp, List.cons_append, List.dropWhile_cons_of_neg (by rw [g1]; decide)]
    rw [hd]
    have hk : skipSign (c :: s' ++ rest) = c :: s' ++ rest := by
      unfold skipSign
      rw [if_neg]
      simp [g2, g3]
    rw [if_neg (by simp [g2]), hk, scanNumber_sci _ _ _ h' hr]

theorem generalP_ne_nil (d : Nat) (x : ℚ) : generalP d x ≠ [] := by
  unfold generalP
  split
  · simp
  · split
    · simp
    · obtain ⟨c, s, h, -⟩ := partsP_head d (sciPartsP d x).1 (sciPartsP d x).2
      rw [h]; simp

theorem strtod_generalP (d : Nat) (x : ℚ) : strtod (generalP d x) = toF64 (generalPVal d x) := by
  have := strtod_reads [] (generalP d x) [] _ (by simp) (readSci_generalP d x) (generalP_ne_nil d x) (by intro c h; simp at h)
  simpa using this

end Verif
