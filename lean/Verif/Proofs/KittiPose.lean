import Verif.Model.KittiPose
import Verif.Spec.KittiPose
import Verif.Proofs.PathExport
import Mathlib.Algebra.Order.Field.Power
import Mathlib.Data.List.TakeWhile
/-! Reading back what the KITTI export writes. -/
namespace Verif
open Spec

theorem dropZeros_spec (s : List Char) : ∃ j, s = dropZeros s ++ List.replicate j '0' := by
  have h := List.takeWhile_append_dropWhile (p := fun c : Char => decide (c = '0')) (l := s.reverse)
  refine ⟨(s.reverse.takeWhile fun c : Char => decide (c = '0')).length, ?_⟩
  have hr : s.reverse.takeWhile (fun c : Char => decide (c = '0')) =
      List.replicate (s.reverse.takeWhile fun c : Char => decide (c = '0')).length '0' := by
    apply List.eq_replicate_of_mem
    intro c hc
    simpa using List.mem_takeWhile_imp hc
  have e : s = (s.reverse.takeWhile (fun c : Char => decide (c = '0')) ++
      s.reverse.dropWhile (fun c : Char => decide (c = '0'))).reverse := by
    rw [h, List.reverse_reverse]
  rw [List.reverse_append] at e
  unfold dropZeros
  nth_rewrite 1 [e]
  congr 1
  rw [hr]
  simp

theorem digitsVal_zeros (j acc : Nat) : digitsVal (List.replicate j '0') acc = some (acc * 10 ^ j) := by
  induction j generalizing acc with
  | zero => simp [digitsVal]
  | succ j ih =>
    rw [List.replicate_succ, digitsVal, if_pos (by decide), ih]
    congr 1
    rw [Nat.pow_succ]
    simp
    ring

theorem dropZeros_chars {s : List Char} (h : ∀ c ∈ s, ∃ d, d < 10 ∧ c = digitChar d) :
    ∀ c ∈ dropZeros s, ∃ d, d < 10 ∧ c = digitChar d := by
  intro c hc
  obtain ⟨j, hj⟩ := dropZeros_spec s
  exact h c (by rw [hj]; simp [hc])

/-- Reading a whole part and a fraction. -/
theorem readUnsigned_frac (a k b : Nat) (hb : b < 10 ^ k) :
    readUnsigned (decNat a ++ fracText k b) = some ((a : ℚ) + (b : ℚ) / 10 ^ k) := by
  obtain ⟨j, hj⟩ := dropZeros_spec (padDigits k b)
  have hlen : (dropZeros (padDigits k b)).length + j = k := by
    have := congrArg List.length hj
    rw [pad_length, List.length_append, List.length_replicate] at this
    omega
  have hval : (digitsVal (dropZeros (padDigits k b)) 0).bind (digitsVal (List.replicate j '0')) =
      some b := by
    rw [← digitsVal_append, ← hj, digitsVal_pad, Nat.mod_eq_of_lt hb]; simp
  have hch := dropZeros_chars (pad_chars k b)
  unfold fracText
  cases ht : dropZeros (padDigits k b) with
  | nil =>
    rw [ht] at hval
    simp only [digitsVal, Option.bind_some, digitsVal_zeros] at hval
    have : b = 0 := by simpa using hval.symm
    subst this
    simp [readUnsigned_int]
  | cons c s =>
    rw [ht] at hval hlen hch
    cases hv : digitsVal (c :: s) 0 with
    | none => rw [hv] at hval; simp at hval
    | some v =>
      rw [hv, Option.bind_some, digitsVal_zeros] at hval
      have hvb : v * 10 ^ j = b := by simpa using hval
      dsimp only
      unfold readUnsigned
      rw [cutAt_cons _ fun h => digit_ne (decNat_chars a _ h) (by decide) rfl,
        cutAt_none fun h => digit_ne (hch _ h) (by decide) rfl]
      simp only [digitsVal_decNat, hv]
      show some ((a : ℚ) + (v : ℚ) / 10 ^ (c :: s).length) = _
      congr 2
      rw [← hvb, ← hlen, pow_add]
      push_cast
      field_simp

theorem readSigned_exp (e : ℤ) : readSigned (expText e) = some e := by
  have h0 : ∀ n : Nat, digitsVal (if n < 10 then '0' :: decNat n else decNat n) 0 = some n := by
    intro n
    split
    · rw [digitsVal, if_pos (by decide)]
      exact digitsVal_decNat n
    · exact digitsVal_decNat n
  unfold expText
  by_cases h : e < 0
  · rw [if_pos h, readSigned, h0]
    show some (-(e.natAbs : ℤ)) = some e
    congr 1
    omega
  · rw [if_neg h, readSigned, h0]
    show some (e.natAbs : ℤ) = some e
    congr 1
    omega

theorem frac_chars (k b : Nat) : ∀ c ∈ fracText k b, c = '.' ∨ ∃ d, d < 10 ∧ c = digitChar d := by
  have hch := dropZeros_chars (pad_chars k b)
  unfold fracText
  cases ht : dropZeros (padDigits k b) with
  | nil => simp
  | cons c s =>
    rw [ht] at hch
    intro x hx
    rcases List.mem_cons.mp hx with h | h
    · left; exact h
    · right; exact hch x h

theorem whole_frac_no_e (a k b : Nat) : 'e' ∉ decNat a ++ fracText k b := by
  intro h
  rcases List.mem_append.mp h with h | h
  · exact digit_ne (decNat_chars a _ h) (by decide) rfl
  · rcases frac_chars k b _ h with h | h
    · exact absurd h (by decide)
    · exact digit_ne h (by decide) rfl

theorem exp_chars (e : ℤ) : ∀ c ∈ expText e, c = '-' ∨ c = '+' ∨ ∃ d, d < 10 ∧ c = digitChar d := by
  intro c hc
  unfold expText at hc
  rcases List.mem_cons.mp hc with h | h
  · split at h
    · left; exact h
    · right; left; exact h
  · right; right
    split at h
    · rcases List.mem_cons.mp h with h | h
      · exact ⟨0, by norm_num, by rw [h]; decide⟩
      · exact decNat_chars _ _ h
    · exact decNat_chars _ _ h

/-- The number a text of parts stands for. -/
theorem readSci_parts (m : Nat) (e : ℤ) :
    readSciUnsigned (partsText m e) = some ((m : ℚ) * 10 ^ (e - 7)) := by
  have split : ∀ k : Nat, ((m / 10 ^ k : Nat) : ℚ) + ((m % 10 ^ k : Nat) : ℚ) / 10 ^ k = m / 10 ^ k := by
    intro k
    have : (m : ℚ) = 10 ^ k * ((m / 10 ^ k : Nat) : ℚ) + ((m % 10 ^ k : Nat) : ℚ) := by
      exact_mod_cast (Nat.div_add_mod m (10 ^ k)).symm
    rw [eq_div_iff (by positivity), add_mul, div_mul_cancel₀ _ (by positivity)]
    linarith
  unfold partsText
  by_cases h : -4 ≤ e ∧ e < 8
  · rw [if_pos h]
    unfold readSciUnsigned
    rw [cutAt_none (whole_frac_no_e _ _ _)]
    simp only
    rw [readUnsigned_frac _ _ _ (Nat.mod_lt _ (by positivity)), split]
    have : e - 7 = -((7 - e).toNat : ℤ) := by omega
    rw [this, zpow_neg, zpow_natCast, div_eq_mul_inv]
  · rw [if_neg h]
    unfold readSciUnsigned
    have hno : 'e' ∉ expText e := by
      intro h
      rcases exp_chars e _ h with h | h | h
      · exact absurd h (by decide)
      · exact absurd h (by decide)
      · exact digit_ne h (by decide) rfl
    rw [cutAt_cons _ (whole_frac_no_e _ _ _), cutAt_none hno]
    simp only
    rw [readUnsigned_frac _ _ _ (Nat.mod_lt _ (by positivity)), readSigned_exp, split]
    show some _ = _
    congr 1
    rw [zpow_sub₀ (by norm_num)]
    norm_num
    ring

theorem parts_head (m : Nat) (e : ℤ) : ∃ c s, partsText m e = c :: s ∧ c ≠ '-' := by
  have : ∀ (a : Nat) (t : List Char), ∃ c s, decNat a ++ t = c :: s ∧ c ≠ '-' := by
    intro a t
    cases hd : decNat a with
    | nil => exact absurd hd (decNat_ne_nil _)
    | cons c r => exact ⟨c, r ++ t, rfl, digit_ne (decNat_chars a c (by rw [hd]; simp)) (by decide)⟩
  unfold partsText
  split
  · exact this _ _
  · rw [List.append_assoc]; exact this _ _

/-- The number a text of `general8` stands for. -/
def general8Val (x : ℚ) : ℚ :=
  if x = 0 then 0
  else if x < 0 then -(((sciParts (-x)).1 : ℚ) * 10 ^ ((sciParts (-x)).2 - 7))
  else ((sciParts x).1 : ℚ) * 10 ^ ((sciParts x).2 - 7)

theorem readSci_general8 (x : ℚ) : readSci (general8 x) = some (general8Val x) := by
  unfold general8 general8Val
  split
  · decide
  · split
    · rw [readSci, readSci_parts]; rfl
    · obtain ⟨c, s, h, hc⟩ := parts_head (sciParts x).1 (sciParts x).2
      have := readSci_parts (sciParts x).1 (sciParts x).2
      rw [h] at this ⊢
      rw [readSci]
      · exact this
      · intro s' hs'
        cases hs'
        exact hc rfl

theorem sciParts_close {x : ℚ} (hx : 0 < x) :
    |((sciParts x).1 : ℚ) * 10 ^ ((sciParts x).2 - 7) - x| ≤ x / 20000000 := by
  have hlog : (10 : ℚ) ^ Int.log 10 x ≤ x := by
    have := Int.zpow_log_le_self (R := ℚ) (b := 10) (by norm_num) hx
    exact_mod_cast this
  have hval : ((sciParts x).1 : ℚ) * 10 ^ ((sciParts x).2 - 7) =
      (roundEven (x / (10 : ℚ) ^ (Int.log 10 x - 7)) : ℚ) * 10 ^ (Int.log 10 x - 7) := by
    unfold sciParts
    dsimp only
    split
    · rename_i h
      rw [h, show Int.log 10 x + 1 - 7 = (Int.log 10 x - 7) + 1 from by ring,
        zpow_add₀ (by norm_num)]
      norm_num
      ring
    · rfl
  rw [hval]
  set u : ℚ := (10 : ℚ) ^ (Int.log 10 x - 7) with hu
  have hu0 : 0 < u := by positivity
  have hux : u * 10000000 ≤ x := by
    have : u * 10000000 = 10 ^ Int.log 10 x := by
      rw [hu, zpow_sub₀ (by norm_num)]; norm_num
    rw [this]; exact hlog
  have hc := abs_le.mp (roundEven_close (x / u) (by positivity))
  have hxu : x / u * u = x := by field_simp
  generalize (roundEven (x / u) : ℚ) = r at *
  rw [abs_le]
  constructor
  · nlinarith [hc.1]
  · nlinarith [hc.2]

theorem general8_close (x : ℚ) : Close8 (general8Val x) x := by
  unfold Close8 general8Val
  split
  · rename_i h; rw [h]; simp
  · rename_i h0
    split
    · rename_i h
      have := sciParts_close (x := -x) (by linarith)
      rw [abs_of_neg h, abs_sub_comm]
      rw [show x - -(((sciParts (-x)).1 : ℚ) * 10 ^ ((sciParts (-x)).2 - 7)) =
        ((sciParts (-x)).1 : ℚ) * 10 ^ ((sciParts (-x)).2 - 7) - -x from by ring]
      exact this
    · rename_i h
      have hx : 0 < x := lt_of_le_of_ne (not_lt.mp h) (Ne.symm h0)
      rw [abs_of_pos hx]
      exact sciParts_close hx

theorem parts_chars (m : Nat) (e : ℤ) : ∀ c ∈ partsText m e,
    c = '.' ∨ c = 'e' ∨ c = '-' ∨ c = '+' ∨ ∃ d, d < 10 ∧ c = digitChar d := by
  intro c hc
  unfold partsText at hc
  split at hc
  · rcases List.mem_append.mp hc with h | h
    · exact .inr (.inr (.inr (.inr (decNat_chars _ _ h))))
    · rcases frac_chars _ _ _ h with h | h
      · exact .inl h
      · exact .inr (.inr (.inr (.inr h)))
  · rcases List.mem_append.mp hc with h | h
    · rcases List.mem_append.mp h with h | h
      · exact .inr (.inr (.inr (.inr (decNat_chars _ _ h))))
      · rcases frac_chars _ _ _ h with h | h
        · exact .inl h
        · exact .inr (.inr (.inr (.inr h)))
    · rcases List.mem_cons.mp h with h | h
      · exact .inr (.inl h)
      · rcases exp_chars _ _ h with h | h | h
        · exact .inr (.inr (.inl h))
        · exact .inr (.inr (.inr (.inl h)))
        · exact .inr (.inr (.inr (.inr h)))

theorem general8_not {c : Char} (x : ℚ) (hc : c = ' ' ∨ c = '\n') : c ∉ general8 x := by
  intro h
  have key : ∀ m e, c ∉ partsText m e := by
    intro m e hm
    rcases hc with rfl | rfl <;>
    · rcases parts_chars m e _ hm with h | h | h | h | h
      · exact absurd h (by decide)
      · exact absurd h (by decide)
      · exact absurd h (by decide)
      · exact absurd h (by decide)
      · exact digit_ne h (by decide) rfl
  unfold general8 at h
  split at h
  · rcases hc with rfl | rfl <;> simp at h
  · split at h
    · rcases List.mem_cons.mp h with h | h
      · rcases hc with rfl | rfl <;> exact absurd h (by decide)
      · exact key _ _ h
    · exact key _ _ h

/-- A line without its line feed. -/
def blankBody : List ℚ → List Char
  | [] => []
  | [x] => general8 x
  | x :: y :: r => general8 x ++ ' ' :: blankBody (y :: r)

theorem blankLine_eq : ∀ l : List ℚ, blankLine l = blankBody l ++ ['\n']
  | [] => rfl
  | [x] => rfl
  | x :: y :: r => by
    rw [blankLine, blankBody, blankLine_eq (y :: r)]
    simp

theorem blankBody_no_newline : ∀ l : List ℚ, '\n' ∉ blankBody l
  | [] => by simp [blankBody]
  | [x] => general8_not x (.inr rfl)
  | x :: y :: r => by
    rw [blankBody]
    intro h
    rcases List.mem_append.mp h with h | h
    · exact general8_not x (.inr rfl) h
    · rcases List.mem_cons.mp h with h | h
      · exact absurd h (by decide)
      · exact blankBody_no_newline (y :: r) h

theorem readBlankCells_body : ∀ (x : ℚ) (l : List ℚ),
    readBlankCells (cutAt ' ' (blankBody (x :: l))) = some ((x :: l).map general8Val)
  | x, [] => by
    rw [blankBody, cutAt_none (general8_not x (.inl rfl))]
    simp [readBlankCells, readSci_general8]
  | x, y :: r => by
    rw [blankBody, cutAt_cons _ (general8_not x (.inl rfl)), readBlankCells,
      readSci_general8, readBlankCells_body y r]
    rfl

theorem readBlankTable_lines (poses : List (Mat4 ℚ)) :
    readBlankTable (poses.flatMap fun p => blankLine (kittiNumbers p)) =
      some (poses.map fun p => (kittiNumbers p).map general8Val) := by
  unfold readBlankTable
  induction poses with
  | nil => rfl
  | cons q qs ih =>
    rw [List.flatMap_cons, blankLine_eq, List.append_assoc, List.singleton_append,
      cutAt_cons _ (blankBody_no_newline _)]
    have hne : cutAt '\n' (qs.flatMap fun p => blankLine (kittiNumbers p)) ≠ [] := by
      intro e
      rw [e] at ih
      cases ih
    cases hc : cutAt '\n' (qs.flatMap fun p => blankLine (kittiNumbers p)) with
    | nil => exact absurd hc hne
    | cons l ls =>
      rw [readBlankLines]
      · rw [← hc, ih]
        unfold kittiNumbers
        rw [readBlankCells_body]
        rfl
      · simp

end Verif
