import Verif.Model.M2dp
import Mathlib.Tactic.Ring
import Mathlib.Tactic.Linarith
import Mathlib.Tactic.FieldSimp
import Mathlib.Tactic.Positivity
import Mathlib.Algebra.Order.Floor.Ring
import Mathlib.Algebra.BigOperators.Group.List.Basic
/- Proofs for the place descriptor. -/
namespace Verif

theorem ratDot_comm (a b : List Rat) : ratDot a b = ratDot b a := by
  unfold ratDot
  rw [List.zipWith_comm_of_comm]
  intro x y
  exact mul_comm x y

/-- The sum of squares of `a x + b y + c` written with the sums. -/
theorem sum_sq_expand (a b c : Rat) : ∀ {P Q : List Rat}, P.length = Q.length →
    0 ≤ a ^ 2 * ratDot P P + b ^ 2 * ratDot Q Q + c ^ 2 * (P.length : Rat) + 2 * a * b * ratDot P Q
      + 2 * a * c * P.sum + 2 * b * c * Q.sum := by
  intro P
  induction P with
  | nil =>
    intro Q h
    have : Q = [] := List.length_eq_zero_iff.mp h.symm
    subst this
    simp [ratDot]
  | cons x P ih =>
    intro Q h
    cases Q with
    | nil => cases h
    | cons y Q =>
      have h' : P.length = Q.length := by simpa using h
      have := ih h'
      simp only [ratDot, List.zipWith_cons_cons, List.sum_cons, List.length_cons, Nat.cast_add,
        Nat.cast_one] at this ⊢
      nlinarith [sq_nonneg (a * x + b * y + c)]

/-- N times the sum of squares minus the square of the sum. -/
def ratVar (P : List Rat) : Rat := (P.length : Rat) * ratDot P P - P.sum ^ 2
def ratCov (P Q : List Rat) : Rat := (P.length : Rat) * ratDot P Q - P.sum * Q.sum

theorem quad_nonneg (a b : Rat) {P Q : List Rat} (h : P.length = Q.length) (hN : 0 < P.length) :
    0 ≤ a ^ 2 * ratVar P + b ^ 2 * ratVar Q + 2 * a * b * ratCov P Q := by
  have hn : (0 : Rat) < P.length := by exact_mod_cast hN
  have := sum_sq_expand a b (-(a * P.sum + b * Q.sum) / P.length) h
  have h2 := mul_nonneg hn.le this
  have e : (P.length : Rat) * (a ^ 2 * ratDot P P + b ^ 2 * ratDot Q Q +
      (-(a * P.sum + b * Q.sum) / P.length) ^ 2 * (P.length : Rat) + 2 * a * b * ratDot P Q
      + 2 * a * (-(a * P.sum + b * Q.sum) / P.length) * P.sum +
        2 * b * (-(a * P.sum + b * Q.sum) / P.length) * Q.sum) =
      a ^ 2 * ratVar P + b ^ 2 * ratVar Q + 2 * a * b * ratCov P Q := by
    unfold ratVar ratCov
    rw [← h]
    field_simp
    ring
  rwa [e] at h2

theorem ratVar_nonneg {P : List Rat} (hN : 0 < P.length) : 0 ≤ ratVar P := by
  have := quad_nonneg 1 0 (P := P) (Q := P) rfl hN
  linarith

/-- Cauchy–Schwarz. -/
theorem ratCov_sq_le {P Q : List Rat} (h : P.length = Q.length) (hN : 0 < P.length) :
    ratCov P Q ^ 2 ≤ ratVar P * ratVar Q := by
  have hp := ratVar_nonneg hN
  have hq : 0 ≤ ratVar Q := ratVar_nonneg (h ▸ hN)
  rcases hq.lt_or_eq with hq' | hq'
  · have := quad_nonneg (ratVar Q) (-ratCov P Q) h hN
    have e : ratVar Q ^ 2 * ratVar P + (-ratCov P Q) ^ 2 * ratVar Q +
        2 * ratVar Q * -ratCov P Q * ratCov P Q =
        ratVar Q * (ratVar P * ratVar Q - ratCov P Q ^ 2) := by ring
    rw [e] at this
    have := nonneg_of_mul_nonneg_right this hq'
    linarith
  · have h0 : ratCov P Q = 0 := by
      by_contra hne
      have := quad_nonneg 1 (-(ratVar P + 1) / (2 * ratCov P Q)) h hN
      rw [← hq'] at this
      have e : (1 : Rat) ^ 2 * ratVar P + (-(ratVar P + 1) / (2 * ratCov P Q)) ^ 2 * 0 +
          2 * 1 * (-(ratVar P + 1) / (2 * ratCov P Q)) * ratCov P Q = -1 := by
        field_simp
        ring
      rw [e] at this
      linarith
    rw [h0, ← hq']
    norm_num

/-- The variance is zero exactly for a constant list. -/
theorem ratVar_eq_zero_iff {P : List Rat} (hN : 0 < P.length) :
    ratVar P = 0 ↔ ∃ c, P = List.replicate P.length c := by
  have hn : (0 : Rat) < P.length := by exact_mod_cast hN
  -- sum of (N x - S)^2 is N * var
  have key : ∀ (k s : Rat) (L : List Rat), (L.map fun x => (k * x - s) ^ 2).sum =
      k ^ 2 * ratDot L L - 2 * k * s * L.sum + (L.length : Rat) * s ^ 2 := by
    intro k s L
    induction L with
    | nil => simp [ratDot]
    | cons x L ih =>
      simp only [List.map_cons, List.sum_cons, ih, ratDot, List.zipWith_cons_cons,
        List.length_cons, Nat.cast_add, Nat.cast_one]
      ring
  constructor
  · intro h
    have hs : (P.map fun x => ((P.length : Rat) * x - P.sum) ^ 2).sum = 0 := by
      rw [key]
      have : (P.length : Rat) ^ 2 * ratDot P P - 2 * (P.length : Rat) * P.sum * P.sum +
          (P.length : Rat) * P.sum ^ 2 = (P.length : Rat) * ratVar P := by
        unfold ratVar; ring
      rw [this, h, mul_zero]
    have hall : ∀ x ∈ P, ((P.length : Rat) * x - P.sum) ^ 2 = 0 := by
      have gen : ∀ L : List Rat, (L.map fun x => ((P.length : Rat) * x - P.sum) ^ 2).sum = 0 →
          ∀ x ∈ L, ((P.length : Rat) * x - P.sum) ^ 2 = 0 := by
        intro L
        induction L with
        | nil => intro _ x hx; cases hx
        | cons y L ih =>
          intro hsum x hx
          simp only [List.map_cons, List.sum_cons] at hsum
          have h1 : 0 ≤ (L.map fun x => ((P.length : Rat) * x - P.sum) ^ 2).sum := by
            apply List.sum_nonneg
            intro z hz
            obtain ⟨w, _, rfl⟩ := List.mem_map.mp hz
            exact sq_nonneg _
          have h2 := sq_nonneg ((P.length : Rat) * y - P.sum)
          have h3 : ((P.length : Rat) * y - P.sum) ^ 2 = 0 := by linarith
          have h4 : (L.map fun x => ((P.length : Rat) * x - P.sum) ^ 2).sum = 0 := by linarith
          rcases List.mem_cons.mp hx with rfl | hx
          · exact h3
          · exact ih h4 x hx
      exact gen P hs
    refine ⟨P.sum / P.length, ?_⟩
    rw [List.eq_replicate_iff]
    refine ⟨rfl, ?_⟩
    intro x hx
    have := pow_eq_zero_iff (n := 2) (by norm_num) |>.mp (hall x hx)
    rw [eq_div_iff hn.ne']
    linarith
  · rintro ⟨c, hc⟩
    rw [hc]
    have hd : ∀ n, ratDot (List.replicate n c) (List.replicate n c) = n * (c * c) := by
      intro n
      unfold ratDot
      rw [List.zipWith_replicate]
      simp [List.sum_replicate]
    unfold ratVar
    rw [hd]
    simp only [List.length_replicate, List.sum_replicate, nsmul_eq_mul]
    ring

/-! ### The histogram -/

theorem m2dpCountAll_spec (index : Vec3 Rat → Int) : ∀ (pts : List (Vec3 Rat)) (row : List Nat),
    (∀ p ∈ pts, 0 ≤ index p ∧ index p < row.length) →
    ∃ row', m2dpCountAll index pts row = .ok row' ∧ row'.length = row.length ∧
      row'.sum = row.sum + pts.length ∧
      ∀ i : Nat, i < row.length →
        row'.getD i 0 = row.getD i 0 + pts.countP (fun p => decide (index p = (i : Int))) := by
  intro pts
  induction pts with
  | nil => intro row _; exact ⟨row, rfl, rfl, by simp, by simp⟩
  | cons p pts ih =>
    intro row h
    have hp := h p (by simp)
    have hlt : (index p).toNat < row.length := by omega
    obtain ⟨row', h1, h2, h3, h4⟩ := ih (row.modify (index p).toNat (· + 1)) (by
      intro x hx
      rw [List.length_modify]
      exact h x (by simp [hx]))
    refine ⟨row', ?_, ?_, ?_, ?_⟩
    · unfold m2dpCountAll m2dpCount
      rw [if_pos hp]
      exact h1
    · rw [h2, List.length_modify]
    · rw [h3, List.length_cons]
      have gen : ∀ (l : List Nat) (k : Nat), k < l.length → (l.modify k (· + 1)).sum = l.sum + 1 := by
        intro l
        induction l with
        | nil => intro k hk; cases hk
        | cons a l ih =>
          intro k hk
          cases k with
          | zero => simp only [List.modify_zero_cons, List.sum_cons]; omega
          | succ k =>
            simp only [List.modify_succ_cons, List.sum_cons]
            rw [ih k (by simpa using hk)]
            omega
      rw [gen row _ hlt]
      omega
    · intro i hi
      rw [h4 i (by rw [List.length_modify]; exact hi), List.countP_cons]
      rw [List.getD_eq_getElem?_getD, List.getElem?_modify, List.getD_eq_getElem?_getD]
      rw [List.getElem?_eq_getElem hi]
      simp only [Option.map_eq_map, Option.map_some, Option.getD_some]
      by_cases he : (index p).toNat = i
      · rw [if_pos he, if_pos (by simp; omega)]
        omega
      · rw [if_neg he, if_neg (by simp; omega)]
        simp

theorem ceilSqrt_spec (x : Rat) (hx : 0 ≤ x) :
    x ≤ (ceilSqrt x : Rat) * ceilSqrt x ∧ ∀ k : Nat, x ≤ (k : Rat) * k → ceilSqrt x ≤ k := by
  have hc : 0 ≤ ⌈x⌉ := Int.ceil_nonneg hx
  have hn : ((⌈x⌉.toNat : Nat) : Int) = ⌈x⌉ := Int.toNat_of_nonneg hc
  have hiff : ∀ k : Nat, x ≤ (k : Rat) * k ↔ ⌈x⌉.toNat ≤ k * k := by
    intro k
    rw [show (k : Rat) * k = ((k * k : Int) : Rat) by push_cast; ring, ← Int.ceil_le]
    constructor
    · intro h; zify; rw [hn]; exact h
    · intro h; have : ((⌈x⌉.toNat : Nat) : Int) ≤ ((k * k : Nat) : Int) := by exact_mod_cast h
      rw [hn] at this; push_cast at this; exact this
  rw [hiff]
  simp only [hiff]
  unfold ceilSqrt
  generalize ⌈x⌉.toNat = n
  split
  · rename_i h
    refine ⟨by omega, ?_⟩
    intro k hk
    rw [← h] at hk
    exact Nat.mul_self_le_mul_self_iff.mp hk
  · rename_i h
    refine ⟨(Nat.lt_succ_sqrt n).le, ?_⟩
    intro k hk
    by_contra hlt
    have h1 : k ≤ Nat.sqrt n := by omega
    have h2 := Nat.sqrt_le n
    have h3 := Nat.mul_self_le_mul_self h1
    omega

theorem m2dpRing_spec (r u v : Rat) (hr : 0 < r) (k : Nat) :
    k ≤ m2dpRing r u v ↔ (k : Rat) ^ 4 * r ^ 2 ≤ u ^ 2 + v ^ 2 := by
  unfold m2dpRing
  rw [Nat.le_sqrt, Nat.le_sqrt]
  have hS : (0 : Rat) ≤ (u * u + v * v) / (r * r) :=
    div_nonneg (add_nonneg (mul_self_nonneg u) (mul_self_nonneg v)) (mul_self_nonneg r)
  have hf : 0 ≤ ⌊(u * u + v * v) / (r * r)⌋ := Int.floor_nonneg.mpr hS
  have : k * k * (k * k) ≤ ⌊(u * u + v * v) / (r * r)⌋.toNat ↔
      ((k * k * (k * k) : Int)) ≤ ⌊(u * u + v * v) / (r * r)⌋ := by
    constructor
    · intro h; have h' : ((k * k * (k * k) : Nat) : Int) ≤ ((⌊(u * u + v * v) / (r * r)⌋.toNat : Nat) : Int) := by
        exact_mod_cast h
      rw [Int.toNat_of_nonneg hf] at h'
      push_cast at h'; exact h'
    · intro h; zify; rw [Int.toNat_of_nonneg hf]; exact h
  rw [this, Int.le_floor, le_div_iff₀ (by positivity)]
  push_cast
  constructor <;> intro h <;> nlinarith [h]

end Verif
