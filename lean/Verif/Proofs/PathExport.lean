import Mathlib.Data.Rat.Floor
import Mathlib.Algebra.Order.Field.Rat
import Mathlib.Tactic.Linarith
import Mathlib.Tactic.Ring
import Mathlib.Tactic.FieldSimp
import Mathlib.Tactic.NormNum
import Mathlib.Data.List.Forall2
import Verif.Spec.PathExport
import Verif.Proofs.Names
/-! Reading back what the path export writes. -/
namespace Verif
open Spec

theorem cutAt_none {c : Char} : ∀ {a : List Char}, c ∉ a → cutAt c a = [a]
  | [], _ => rfl
  | d :: r, h => by
    have h1 : d ≠ c := fun e => h (by simp [e])
    rw [cutAt, if_neg h1, cutAt_none (a := r) fun m => h (by simp [m])]

theorem cutAt_cons {c : Char} : ∀ {a : List Char} (r : List Char), c ∉ a →
    cutAt c (a ++ c :: r) = a :: cutAt c r
  | [], r, _ => by rw [List.nil_append, cutAt, if_pos rfl]
  | d :: a, r, h => by
    have h1 : d ≠ c := fun e => h (by simp [e])
    rw [List.cons_append, cutAt, if_neg h1, cutAt_cons (a := a) r fun m => h (by simp [m])]

theorem digitsVal_append (a b : List Char) (acc : Nat) :
    digitsVal (a ++ b) acc = (digitsVal a acc).bind (digitsVal b) := by
  induction a generalizing acc with
  | nil => rfl
  | cons c a ih =>
    rw [List.cons_append, digitsVal, digitsVal]
    split
    · exact ih _
    · rfl

theorem digitChar_range (d : Nat) (h : d < 10) : '0' ≤ digitChar d ∧ digitChar d ≤ '9' := by
  interval_cases d <;> decide

theorem digitsVal_digit (d acc : Nat) (h : d < 10) :
    digitsVal [digitChar d] acc = some (10 * acc + d) := by
  rw [digitsVal, if_pos (digitChar_range d h), digitsVal, digitChar_toNat d h]
  congr 2
  show 48 + d - 48 = d
  omega

theorem digitsVal_decNat (n : Nat) : digitsVal (decNat n) 0 = some n := by
  induction n using Nat.strongRecOn with
  | _ n ih =>
    rw [decNat]
    split
    · rename_i h
      rw [digitsVal_digit n 0 h]
      simp
    · rename_i h
      rw [digitsVal_append, ih (n / 10) (by omega), Option.bind_some,
        digitsVal_digit _ _ (by omega)]
      congr 1
      omega

theorem digitsVal_pad (k : Nat) (n acc : Nat) :
    digitsVal (padDigits k n) acc = some (acc * 10 ^ k + n % 10 ^ k) := by
  induction k generalizing n acc with
  | zero => simp [padDigits, digitsVal, Nat.mod_one]
  | succ k ih =>
    rw [padDigits, digitsVal_append, ih, Option.bind_some, digitsVal_digit _ _ (by omega)]
    congr 1
    have : n % 10 ^ (k + 1) = 10 * (n / 10 % 10 ^ k) + n % 10 := by
      rw [Nat.pow_succ, Nat.mul_comm (10 ^ k) 10, Nat.mod_mul]
      omega
    rw [this, Nat.pow_succ]
    ring

theorem pad_length (k n : Nat) : (padDigits k n).length = k := by
  induction k generalizing n with
  | zero => rfl
  | succ k ih => simp [padDigits, ih]

theorem pad_chars (k n : Nat) : ∀ c ∈ padDigits k n, ∃ d, d < 10 ∧ c = digitChar d := by
  induction k generalizing n with
  | zero => simp [padDigits]
  | succ k ih =>
    intro c hc
    simp only [padDigits, List.mem_append, List.mem_singleton] at hc
    rcases hc with hc | hc
    · exact ih _ _ hc
    · exact ⟨n % 10, by omega, hc⟩

theorem digit_ne {c d : Char} (h : ∃ k, k < 10 ∧ c = digitChar k) (hd : ¬ ('0' ≤ d ∧ d ≤ '9')) :
    c ≠ d := by
  obtain ⟨k, hk, rfl⟩ := h
  intro e
  exact hd (e ▸ digitChar_range k hk)

theorem readUnsigned_int (n : Nat) : readUnsigned (decNat n) = some (n : Rat) := by
  unfold readUnsigned
  rw [cutAt_none fun h => digit_ne (decNat_chars n _ h) (by decide) rfl]
  simp [digitsVal_decNat]

theorem readUnsigned_fixed (a b : Nat) (hb : b < 1000000) :
    readUnsigned (decNat a ++ '.' :: padDigits 6 b) = some ((a : Rat) + (b : Rat) / 1000000) := by
  unfold readUnsigned
  rw [cutAt_cons _ fun h => digit_ne (decNat_chars a _ h) (by decide) rfl,
    cutAt_none fun h => digit_ne (pad_chars 6 b _ h) (by decide) rfl]
  simp only [digitsVal_decNat, digitsVal_pad, pad_length]
  have : b % 10 ^ 6 = b := Nat.mod_eq_of_lt (by norm_num; exact hb)
  rw [this]
  norm_num

/-- Blanks around a text that has none at its ends are dropped. -/
theorem trim_eq (pre post : Bool) (s : List Char) (hne : s ≠ []) (h1 : s.head? ≠ some ' ')
    (h2 : s.getLast? ≠ some ' ') :
    (((((if pre then [' '] else []) ++ s ++ (if post then [' '] else [])).dropWhile
      (· = ' ')).reverse.dropWhile (· = ' ')).reverse) = s := by
  have hd : ∀ t : List Char, (s ++ t).dropWhile (· = ' ') = s ++ t := by
    intro t
    cases s with
    | nil => exact absurd rfl hne
    | cons c r =>
      have : c ≠ ' ' := fun e => h1 (by simp [e])
      simp [List.dropWhile_cons, this]
  have hr : s.reverse.dropWhile (· = ' ') = s.reverse := by
    cases hs : s.reverse with
    | nil => rfl
    | cons c r =>
      have : c ≠ ' ' := fun e => h2 (by rw [← List.head?_reverse, hs, e]; rfl)
      simp [List.dropWhile_cons, this]
  have e1 : ((if pre then [' '] else []) ++ s ++ (if post then [' '] else [])).dropWhile (· = ' ') =
      s ++ (if post then [' '] else []) := by
    cases pre
    · simpa using hd _
    · simpa [List.dropWhile_cons] using hd _
  rw [e1]
  cases post
  · simp [hr]
  · simp [hr]

/-- The number a decimal text stands for. -/
def fixedVal (x : Rat) : Rat :=
  let micro := roundEven ((if x < 0 then -x else x) * 1000000)
  if x < 0 then -((micro : Rat) / 1000000) else (micro : Rat) / 1000000

theorem roundEven_close (m : Rat) (hm : 0 ≤ m) : |(roundEven m : Rat) - m| ≤ 1 / 2 := by
  have hf : ((m.floor.toNat : Nat) : Rat) = (m.floor : Rat) := by
    have : 0 ≤ m.floor := Rat.le_floor_iff.mpr (by simpa using hm)
    exact_mod_cast Int.toNat_of_nonneg this
  have h1 : (m.floor : Rat) ≤ m := Rat.floor_le m
  have h2 : m < (m.floor : Rat) + 1 := by
    exact_mod_cast Rat.lt_floor_add_one m
  unfold roundEven
  simp only [hf]
  split
  · rename_i h
    rw [abs_le]; constructor <;> [linarith; linarith]
  · split
    · rename_i h h'
      push_cast
      rw [hf, abs_le]; constructor <;> linarith
    · rename_i h h'
      have : m - m.floor = 1 / 2 := le_antisymm (not_lt.mp h') (not_lt.mp h)
      split
      · rw [abs_le]; constructor <;> linarith
      · push_cast
        rw [hf, abs_le]; constructor <;> linarith

theorem fixedVal_close (x : Rat) : Close6 (fixedVal x) x := by
  unfold Close6 fixedVal
  by_cases h : x < 0
  · simp only [h, if_true]
    have := abs_le.mp (roundEven_close (-x * 1000000) (by linarith))
    rw [abs_le]
    constructor <;> linarith [this.1, this.2]
  · simp only [h, if_false]
    have := abs_le.mp (roundEven_close (x * 1000000) (by linarith))
    rw [abs_le]
    constructor <;> linarith [this.1, this.2]

theorem fixed6_ends (x : Rat) : fixed6 x ≠ [] ∧ (fixed6 x).head? ≠ some ' ' ∧
    (fixed6 x).getLast? ≠ some ' ' ∧ ∀ c ∈ fixed6 x, c = '-' ∨ c = '.' ∨ ∃ d, d < 10 ∧ c = digitChar d := by
  unfold fixed6
  generalize roundEven ((if x < 0 then -x else x) * 1000000) = m
  have hch : ∀ c ∈ (if x < 0 then ['-'] else []) ++ decNat (m / 1000000) ++
      '.' :: padDigits 6 (m % 1000000), c = '-' ∨ c = '.' ∨ ∃ d, d < 10 ∧ c = digitChar d := by
    intro c hc
    simp only [List.mem_append, List.mem_cons] at hc
    rcases hc with (hc | hc) | hc | hc
    · split at hc
      · left; simpa using hc
      · cases hc
    · right; right; exact decNat_chars _ _ hc
    · right; left; exact hc
    · right; right; exact pad_chars _ _ _ hc
  have nb : ∀ c ∈ (if x < 0 then ['-'] else []) ++ decNat (m / 1000000) ++
      '.' :: padDigits 6 (m % 1000000), c ≠ ' ' := by
    intro c hc
    rcases hch c hc with rfl | rfl | h
    · decide
    · decide
    · exact digit_ne h (by decide)
  refine ⟨by simp, ?_, ?_, hch⟩
  · intro e; exact nb ' ' (List.mem_of_mem_head? e) rfl
  · intro e; exact nb ' ' (List.mem_of_getLast? e) rfl

theorem readNumber_fixed (pre post : Bool) (x : Rat) :
    readNumber ((if pre then [' '] else []) ++ fixed6 x ++ (if post then [' '] else [])) =
      some (fixedVal x) := by
  obtain ⟨h0, h1, h2, _⟩ := fixed6_ends x
  unfold readNumber
  rw [trim_eq pre post _ h0 h1 h2]
  unfold fixed6 fixedVal
  generalize roundEven ((if x < 0 then -x else x) * 1000000) = m
  have hval : ((m / 1000000 : Nat) : Rat) + ((m % 1000000 : Nat) : Rat) / 1000000 =
      (m : Rat) / 1000000 := by
    have : (m : Rat) = 1000000 * ((m / 1000000 : Nat) : Rat) + ((m % 1000000 : Nat) : Rat) := by
      exact_mod_cast (Nat.div_add_mod m 1000000).symm
    rw [this]; ring
  by_cases h : x < 0
  · simp only [h, if_true, List.cons_append, List.nil_append]
    rw [readUnsigned_fixed _ _ (Nat.mod_lt _ (by norm_num)), hval]
    rfl
  · simp only [h, if_false, List.nil_append]
    cases hd : decNat (m / 1000000) with
    | nil => exact absurd hd (decNat_ne_nil _)
    | cons c r =>
      have hc : c ≠ '-' := digit_ne (decNat_chars (m / 1000000) c (by rw [hd]; simp)) (by decide)
      rw [List.cons_append]
      simp only [hc, if_false]
      rw [← List.cons_append, ← hd, readUnsigned_fixed _ _ (Nat.mod_lt _ (by norm_num)), hval]

theorem readNumber_nat (n : Nat) : readNumber (decNat n) = some (n : Rat) := by
  have nb : ∀ c ∈ decNat n, c ≠ ' ' := fun c hc => digit_ne (decNat_chars n c hc) (by decide)
  have := trim_eq false false (decNat n) (decNat_ne_nil n)
    (fun e => nb ' ' (List.mem_of_mem_head? e) rfl) (fun e => nb ' ' (List.mem_of_getLast? e) rfl)
  simp only [Bool.false_eq_true, if_false, List.nil_append, List.append_nil] at this
  unfold readNumber
  rw [this]
  cases hd : decNat n with
  | nil => exact absurd hd (decNat_ne_nil _)
  | cons c r =>
    have hc : c ≠ '-' := digit_ne (decNat_chars n c (by rw [hd]; simp)) (by decide)
    simp only [hc, if_false]
    rw [← hd, readUnsigned_int]

/-- The text of a line without its line feed. -/
def pathBody (index : Nat) (q : PathPose) : List Char :=
  decNat index ++ ',' :: ((' ' :: fixed6 q.tx) ++ ',' :: ((' ' :: fixed6 q.ty) ++
    ',' :: ((' ' :: fixed6 q.tz) ++ ',' :: ((' ' :: fixed6 q.rx) ++ ',' :: ((' ' :: fixed6 q.ry) ++
      ',' :: (' ' :: fixed6 q.rz ++ [' ']))))))

theorem pathLine_eq (index : Nat) (q : PathPose) : pathLine index q = pathBody index q ++ ['\n'] := by
  simp [pathLine, pathBody, commaSpace]

theorem fixed6_not {c : Char} (x : Rat) (h1 : c ≠ '-') (h2 : c ≠ '.')
    (h3 : ¬ ('0' ≤ c ∧ c ≤ '9')) : c ∉ fixed6 x := by
  intro h
  rcases (fixed6_ends x).2.2.2 c h with e | e | e
  · exact h1 e
  · exact h2 e
  · exact digit_ne e h3 rfl

theorem readCells_body (index : Nat) (q : PathPose) :
    readCells (cutAt ',' (pathBody index q)) =
      some ((index : Rat) :: (poseNumbers q).map fixedVal) := by
  have hf : ∀ x : Rat, ',' ∉ ' ' :: fixed6 x := by
    intro x h
    rcases List.mem_cons.mp h with h | h
    · exact absurd h (by decide)
    · exact fixed6_not x (by decide) (by decide) (by decide) h
  have hl : ',' ∉ ' ' :: fixed6 q.rz ++ [' '] := by
    intro h
    rcases List.mem_append.mp h with h | h
    · exact hf _ h
    · exact absurd (List.mem_singleton.mp h) (by decide)
  have hn : ',' ∉ decNat index := fun h => digit_ne (decNat_chars index _ h) (by decide) rfl
  have r1 : ∀ x : Rat, readNumber (' ' :: fixed6 x) = some (fixedVal x) := by
    intro x
    have := readNumber_fixed true false x
    simpa using this
  have r2 : readNumber (' ' :: fixed6 q.rz ++ [' ']) = some (fixedVal q.rz) := by
    have := readNumber_fixed true true q.rz
    simpa using this
  unfold pathBody
  rw [cutAt_cons _ hn, cutAt_cons _ (hf _), cutAt_cons _ (hf _), cutAt_cons _ (hf _),
    cutAt_cons _ (hf _), cutAt_cons _ (hf _), cutAt_none hl]
  simp only [readCells, readNumber_nat, r1, r2]
  rfl

theorem body_no_newline (index : Nat) (q : PathPose) : '\n' ∉ pathBody index q := by
  have hf : ∀ x : Rat, '\n' ∉ fixed6 x := fun x =>
    fixed6_not x (by decide) (by decide) (by decide)
  have hn : '\n' ∉ decNat index := fun h => digit_ne (decNat_chars index _ h) (by decide) rfl
  simp only [pathBody, List.mem_append, List.mem_cons, List.mem_singleton, hf, hn]
  decide

/-- The text for a list of poses. -/
def linesFrom : Nat → List PathPose → List Char
  | _, [] => []
  | k, q :: qs => pathLine k q ++ linesFrom (k + 1) qs

theorem readTable_lines (k : Nat) (qs : List PathPose) :
    readTable (linesFrom k qs) =
      some ((qs.zipIdx k).map fun x => (x.2 : Rat) :: (poseNumbers x.1).map fixedVal) := by
  unfold readTable
  induction qs generalizing k with
  | nil => rfl
  | cons q qs ih =>
    rw [linesFrom, pathLine_eq, List.append_assoc, List.singleton_append,
      cutAt_cons _ (body_no_newline k q)]
    have hne : cutAt '\n' (linesFrom (k + 1) qs) ≠ [] := by
      intro e
      have := ih (k + 1)
      rw [e] at this
      cases this
    cases hc : cutAt '\n' (linesFrom (k + 1) qs) with
    | nil => exact absurd hc hne
    | cons l ls =>
      rw [readLines]
      · rw [readCells_body, ← hc, ih]
        rfl
      · simp

end Verif
