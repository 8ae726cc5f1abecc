import Verif.Model.MultiTraj
import Verif.Proofs.Names
namespace Verif

theorem submapKey_toNat (id : SubmapId) :
    (submapKey id).toNat = ((id.trajectory % 18446744073709551616).toNat * 4294967296 +
      (id.submap % 18446744073709551616).toNat) % 18446744073709551616 := by
  unfold submapKey
  rw [UInt64.toNat_add, UInt64.toNat_shiftLeft, UInt64.toNat_ofNat', UInt64.toNat_ofNat']
  rw [show (32 : UInt64).toNat % 64 = 32 from rfl, Nat.shiftLeft_eq]
  omega

theorem submapKey_inj {a b : SubmapId}
    (ha : -2147483648 ≤ a.trajectory ∧ a.trajectory ≤ 2147483647 ∧
      -2147483648 ≤ a.submap ∧ a.submap ≤ 2147483647)
    (hb : -2147483648 ≤ b.trajectory ∧ b.trajectory ≤ 2147483647 ∧
      -2147483648 ≤ b.submap ∧ b.submap ≤ 2147483647)
    (h : submapKey a = submapKey b) : a = b := by
  have h' : (submapKey a).toNat = (submapKey b).toNat := by rw [h]
  rw [submapKey_toNat, submapKey_toNat] at h'
  obtain ⟨at', as'⟩ := a
  obtain ⟨bt, bs⟩ := b
  simp only at *
  have h1 : as' = bs := by omega
  subst h1
  have h2 : at' = bt := by omega
  subst h2
  rfl

theorem splitOn_token (d : Char) (a b : List Char) (ha : d ∉ a) :
    ∀ tok, splitOn d (a ++ d :: b) tok = (tok ++ a) :: splitOn d b [] := by
  induction a with
  | nil => intro tok; simp [splitOn]
  | cons c a ih =>
    intro tok
    have hc : c ≠ d := fun h => ha (by simp [h])
    have ha' : d ∉ a := fun h => ha (by simp [h])
    simp only [List.cons_append, splitOn]
    rw [if_neg hc, ih ha']
    simp

theorem strFind_first (c : Char) (a b : List Char) (ha : c ∉ a) :
    strFind c (a ++ c :: b) = some a.length := by
  induction a with
  | nil => simp [strFind]
  | cons d a ih =>
    have hc : d ≠ c := fun h => ha (by simp [h])
    have ha' : c ∉ a := fun h => ha (by simp [h])
    simp only [List.cons_append, strFind]
    rw [if_neg hc, ih ha']
    simp

theorem isDigitChar_digit (d : Nat) (h : d < 10) : isDigitChar (digitChar d) = true := by
  unfold isDigitChar
  rw [digitChar_toNat d h]
  simp only [decide_eq_true_eq]
  omega

theorem atoiDigits_all (l : List Char) (h : ∀ c ∈ l, isDigitChar c = true) :
    ∀ acc, atoiDigits l acc = l.foldl (fun acc c => 10 * acc + (c.toNat - 48)) acc := by
  induction l with
  | nil => intro acc; rfl
  | cons c l ih =>
    intro acc
    simp only [atoiDigits, List.foldl_cons]
    rw [if_pos (h c (by simp)), ih (fun x hx => h x (by simp [hx]))]

theorem atoiDigits_decNat (n : Nat) : atoiDigits (decNat n) 0 = n := by
  rw [atoiDigits_all]
  · exact decVal_decNat n
  · intro c hc
    obtain ⟨d, hd, rfl⟩ := decNat_chars n c hc
    exact isDigitChar_digit d hd

theorem digitChar_plain (d : Nat) (h : d < 10) :
    isSpaceChar (digitChar d) = false ∧ digitChar d ≠ '-' ∧ digitChar d ≠ '+' ∧
      digitChar d ≠ ']' ∧ digitChar d ≠ '[' ∧ digitChar d ≠ ',' := by
  interval_cases d <;> decide

/-- The first character of a printed number. -/
theorem decNat_head (n : Nat) : ∃ d r, d < 10 ∧ decNat n = digitChar d :: r := by
  cases hc : decNat n with
  | nil => exact absurd hc (decNat_ne_nil n)
  | cons c r =>
    obtain ⟨d, hd, e⟩ := decNat_chars n c (by rw [hc]; simp)
    exact ⟨d, r, hd, by rw [e]⟩

theorem atoi_decInt (z : Int) (h : -2147483648 ≤ z ∧ z ≤ 2147483647) :
    atoi (decInt z) = .ok z := by
  cases z with
  | ofNat n =>
    obtain ⟨d, r, hd, hn⟩ := decNat_head n
    have hp := digitChar_plain d hd
    unfold atoi
    have hdw : (decInt (Int.ofNat n)).dropWhile isSpaceChar = decNat n := by
      show (decNat n).dropWhile isSpaceChar = decNat n
      rw [hn, List.dropWhile_cons, if_neg (by rw [hp.1]; simp)]
    rw [hdw]
    dsimp only
    have hv : signedDigits (decNat n) = (n : Int) := by
      have := atoiDigits_decNat n
      rw [hn] at this ⊢
      unfold signedDigits
      dsimp only
      rw [if_neg hp.2.1, if_neg hp.2.2.1, this]
    rw [hv]
    exact if_pos h
  | negSucc n =>
    unfold atoi
    have hdw : (decInt (Int.negSucc n)).dropWhile isSpaceChar = '-' :: decNat (n + 1) := by
      show ('-' :: decNat (n + 1)).dropWhile isSpaceChar = _
      rw [List.dropWhile_cons, if_neg (by decide)]
    rw [hdw]
    dsimp only
    have hv : signedDigits ('-' :: decNat (n + 1)) = Int.negSucc n := by
      unfold signedDigits
      dsimp only
      rw [if_pos rfl, atoiDigits_decNat]
      omega
    rw [hv]
    exact if_pos h

theorem decInt_plain (z : Int) : ']' ∉ decInt z ∧ '[' ∉ decInt z ∧ ',' ∉ decInt z := by
  have hn : ∀ n, ']' ∉ decNat n ∧ '[' ∉ decNat n ∧ ',' ∉ decNat n := by
    intro n
    refine ⟨?_, ?_, ?_⟩
    · intro h
      obtain ⟨d, hd, e⟩ := decNat_chars n _ h
      exact (digitChar_plain d hd).2.2.2.1 e.symm
    · intro h
      obtain ⟨d, hd, e⟩ := decNat_chars n _ h
      exact (digitChar_plain d hd).2.2.2.2.1 e.symm
    · intro h
      obtain ⟨d, hd, e⟩ := decNat_chars n _ h
      exact (digitChar_plain d hd).2.2.2.2.2 e.symm
  cases z with
  | ofNat n => exact hn n
  | negSucc n =>
    have := hn (n + 1)
    simp only [decInt, List.mem_cons, not_or]
    exact ⟨⟨by decide, this.1⟩, ⟨by decide, this.2.1⟩, ⟨by decide, this.2.2⟩⟩

/-- An `int32_t`. -/
def IsInt32 (z : Int) : Prop := -2147483648 ≤ z ∧ z ≤ 2147483647

theorem connectionOfToken_print (id : SubmapId) (ht : IsInt32 id.trajectory)
    (hs : IsInt32 id.submap) :
    connectionOfToken ('[' :: (decInt id.trajectory ++ ',' :: decInt id.submap)) = .ok id := by
  have ht' := decInt_plain id.trajectory
  unfold connectionOfToken
  have h1 : strFind '[' ('[' :: (decInt id.trajectory ++ ',' :: decInt id.submap)) = some 0 := by
    simp [strFind]
  have h2 : strFind ',' ('[' :: (decInt id.trajectory ++ ',' :: decInt id.submap)) =
      some ('[' :: decInt id.trajectory).length := by
    have := strFind_first ',' ('[' :: decInt id.trajectory) (decInt id.submap)
      (by simp only [List.mem_cons, not_or]; exact ⟨by decide, ht'.2.2⟩)
    simpa using this
  rw [h1, h2]
  dsimp only
  rw [Outcome.check_pos (by simp)]
  simp only [Outcome.bind_ok]
  have h3 : (('[' :: (decInt id.trajectory ++ ',' :: decInt id.submap)).drop (0 + 1)).take
      (('[' :: decInt id.trajectory).length - (0 + 1)) = decInt id.trajectory := by
    simp
  have h4 : ('[' :: (decInt id.trajectory ++ ',' :: decInt id.submap)).drop
      (('[' :: decInt id.trajectory).length + 1) = decInt id.submap := by
    simp only [List.length_cons, List.drop_succ_cons]
    rw [← List.drop_drop, List.drop_left, List.drop_succ_cons, List.drop_zero]
  rw [h3, h4, atoi_decInt _ ht, atoi_decInt _ hs]
  rfl

theorem connections_tokens (ids : List SubmapId)
    (h : ∀ id ∈ ids, IsInt32 id.trajectory ∧ IsInt32 id.submap) :
    connectionsOfTokens (splitOn ']' (connectionsStr ids) []) = .ok ids := by
  induction ids with
  | nil => rfl
  | cons id ids ih =>
    have hp := decInt_plain id.trajectory
    have hq := decInt_plain id.submap
    have e : connectionsStr (id :: ids) =
        ('[' :: (decInt id.trajectory ++ ',' :: decInt id.submap)) ++
          ']' :: connectionsStr ids := by
      simp [connectionsStr]
    rw [e, splitOn_token]
    · simp only [List.nil_append, connectionsOfTokens]
      rw [connectionOfToken_print id (h id (by simp)).1 (h id (by simp)).2]
      simp only [Outcome.bind_ok]
      rw [ih (fun x hx => h x (by simp [hx]))]
      rfl
    · simp only [List.mem_cons, List.mem_append, not_or]
      exact ⟨by decide, hp.1, by decide, hq.1⟩

theorem connections_roundtrip (ids : List SubmapId)
    (h : ∀ id ∈ ids, IsInt32 id.trajectory ∧ IsInt32 id.submap) :
    connectionsStrToIds (connectionsStr ids) = .ok ids := by
  unfold connectionsStrToIds
  split
  · rename_i h0
    cases ids with
    | nil => rfl
    | cons id ids => simp [connectionsStr] at h0
  · exact connections_tokens ids h

end Verif
