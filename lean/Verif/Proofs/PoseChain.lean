import Verif.Spec.PoseChain
import Verif.Proofs.Floats
import Verif.Proofs.Seconds
import Mathlib.Algebra.Order.BigOperators.Ring.Finset
import Mathlib.Algebra.Order.Ring.Pow
import Mathlib.Tactic.Linarith
import Mathlib.Tactic.Positivity
import Mathlib.Tactic.FieldSimp
import Mathlib.Tactic.FinCases
namespace Verif
open Spec Matrix

/-! ### squares of lengths -/

theorem sqLength_nonneg (v : Fin 3 → ℚ) : 0 ≤ sqLength v := by unfold sqLength; positivity

theorem sqLength_sum (v : Fin 3 → ℚ) : sqLength v = ∑ i, v i ^ 2 := by
  unfold sqLength; rw [Fin.sum_univ_three]

theorem sqLength_add_le {s : ℚ} (hs : 0 < s) (x y : Fin 3 → ℚ) :
    sqLength (x + y) ≤ (1 + s) * sqLength x + (1 + 1 / s) * sqLength y := by
  have key : ∀ a b : ℚ, (a + b) ^ 2 ≤ (1 + s) * a ^ 2 + (1 + 1 / s) * b ^ 2 := by
    intro a b
    have h : 0 ≤ (s * a - b) ^ 2 / s := by positivity
    have e : (s * a - b) ^ 2 / s = s * a ^ 2 - 2 * a * b + b ^ 2 * (1 / s) := by field_simp; ring
    rw [e] at h; nlinarith
  unfold sqLength
  simp only [Pi.add_apply]
  have := key (x 0) (y 0); have := key (x 1) (y 1); have := key (x 2) (y 2)
  linarith

theorem sqLength_add_ge {s : ℚ} (hs : 0 < s) (x y : Fin 3 → ℚ) :
    (1 - s) * sqLength x - 1 / s * sqLength y ≤ sqLength (x + y) := by
  have key : ∀ a b : ℚ, (1 - s) * a ^ 2 - 1 / s * b ^ 2 ≤ (a + b) ^ 2 := by
    intro a b
    have h : 0 ≤ (s * a + b) ^ 2 / s := by positivity
    have e : (s * a + b) ^ 2 / s = s * a ^ 2 + 2 * a * b + b ^ 2 * (1 / s) := by field_simp; ring
    rw [e] at h; nlinarith [sq_nonneg b]
  unfold sqLength
  simp only [Pi.add_apply]
  have := key (x 0) (y 0); have := key (x 1) (y 1); have := key (x 2) (y 2)
  linarith

theorem sqLength_triangle {x y : Fin 3 → ℚ} {a b : ℚ} (ha : 0 ≤ a) (hb : 0 ≤ b)
    (hx : sqLength x ≤ a ^ 2) (hy : sqLength y ≤ b ^ 2) : sqLength (x + y) ≤ (a + b) ^ 2 := by
  have hc : (x 0 * y 0 + x 1 * y 1 + x 2 * y 2) ^ 2 ≤ (a * b) ^ 2 := by
    have h1 : (x 0 * y 0 + x 1 * y 1 + x 2 * y 2) ^ 2 ≤ sqLength x * sqLength y := by
      unfold sqLength
      nlinarith [sq_nonneg (x 0 * y 1 - x 1 * y 0), sq_nonneg (x 0 * y 2 - x 2 * y 0),
        sq_nonneg (x 1 * y 2 - x 2 * y 1)]
    have h2 := mul_le_mul hx hy (sqLength_nonneg y) (by positivity)
    rw [mul_pow]; linarith
  have hi : x 0 * y 0 + x 1 * y 1 + x 2 * y 2 ≤ a * b :=
    le_trans (le_abs_self _) (abs_le_of_sq_le_sq hc (by positivity))
  have : sqLength (x + y) = sqLength x + sqLength y + 2 * (x 0 * y 0 + x 1 * y 1 + x 2 * y 2) := by
    unfold sqLength; simp only [Pi.add_apply]; ring
  rw [this]; nlinarith

/-- Sum of the squares of the entries. -/
def frob (E : Matrix (Fin 3) (Fin 3) ℚ) : ℚ := ∑ i, ∑ j, E i j ^ 2

theorem frob_nonneg (E : Matrix (Fin 3) (Fin 3) ℚ) : 0 ≤ frob E := by
  unfold frob; positivity

theorem sqLength_mulVec_le (E : Matrix (Fin 3) (Fin 3) ℚ) (v : Fin 3 → ℚ) :
    sqLength (E.mulVec v) ≤ frob E * sqLength v := by
  rw [sqLength_sum, sqLength_sum, frob, Finset.sum_mul]
  apply Finset.sum_le_sum
  intro i _
  exact Finset.sum_mul_sq_le_sq_mul_sq _ _ _

/-- Squares of lengths are multiplied by something between `lo` and `hi`. -/
def Stretch (lo hi : ℚ) (M : Matrix (Fin 3) (Fin 3) ℚ) : Prop :=
  ∀ v, lo * sqLength v ≤ sqLength (M.mulVec v) ∧ sqLength (M.mulVec v) ≤ hi * sqLength v

theorem Stretch.frob_le {lo hi : ℚ} {M : Matrix (Fin 3) (Fin 3) ℚ} (h : Stretch lo hi M) :
    frob M ≤ 3 * hi := by
  have col : ∀ j, ∑ i, M i j ^ 2 ≤ hi := by
    intro j
    have := (h (Pi.single j 1)).2
    have e : sqLength (Pi.single j (1 : ℚ)) = 1 := by
      unfold sqLength; fin_cases j <;> simp [Pi.single_apply]
    rw [Matrix.mulVec_single_one, e, mul_one, sqLength_sum] at this
    simpa [Matrix.col_apply] using this
  unfold frob
  rw [Finset.sum_comm]
  have := Finset.sum_le_sum (s := Finset.univ) (fun j _ => col j)
  rw [Finset.sum_const] at this
  simpa using this

theorem Stretch.row_le {lo hi : ℚ} {M : Matrix (Fin 3) (Fin 3) ℚ} (h : Stretch lo hi M) (i : Fin 3) :
    sqLength (M i) ≤ hi := by
  have h0 := sqLength_nonneg (M i)
  have hv := (h (M i)).2
  have hi2 : sqLength (M i) ^ 2 ≤ sqLength (M.mulVec (M i)) := by
    have e : M.mulVec (M i) i = sqLength (M i) := by
      rw [Matrix.mulVec, dotProduct, Fin.sum_univ_three]; unfold sqLength; ring
    rw [← e]
    have p : ∀ k, 0 ≤ M.mulVec (M i) k ^ 2 := fun k => sq_nonneg _
    rw [sqLength_sum]
    exact Finset.single_le_sum (f := fun k => M.mulVec (M i) k ^ 2) (fun k _ => p k) (Finset.mem_univ i)
  rcases h0.eq_or_lt with e | e
  · have := (h (Pi.single i 1))
    have e1 : sqLength (Pi.single i (1 : ℚ)) = 1 := by
      unfold sqLength; fin_cases i <;> simp [Pi.single_apply]
    rw [e1, mul_one] at this
    have := sqLength_nonneg (M.mulVec (Pi.single i 1))
    linarith
  · nlinarith

/-! ### one product -/

theorem frob_err {A B E : Matrix (Fin 3) (Fin 3) ℚ} {κ : ℚ}
    (h : ∀ i j, |E i j| ≤ κ * ∑ k, |A i k| * |B k j|) : frob E ≤ κ ^ 2 * (frob A * frob B) := by
  have ent : ∀ i j, E i j ^ 2 ≤ κ ^ 2 * ((∑ k, A i k ^ 2) * ∑ k, B k j ^ 2) := by
    intro i j
    have h1 : E i j ^ 2 ≤ (κ * ∑ k, |A i k| * |B k j|) ^ 2 := by
      rw [← sq_abs (E i j)]
      exact pow_le_pow_left₀ (abs_nonneg _) (h i j) 2
    have h2 := Finset.sum_mul_sq_le_sq_mul_sq Finset.univ (fun k => |A i k|) (fun k => |B k j|)
    simp only [sq_abs] at h2
    rw [mul_pow] at h1
    exact le_trans h1 (mul_le_mul_of_nonneg_left h2 (sq_nonneg _))
  have e : κ ^ 2 * (frob A * frob B) = ∑ i, ∑ j, κ ^ 2 * ((∑ k, A i k ^ 2) * ∑ k, B k j ^ 2) := by
    unfold frob
    rw [Finset.sum_comm (f := fun i j => B i j ^ 2), Finset.sum_mul_sum, Finset.mul_sum]
    apply Finset.sum_congr rfl
    intro i _
    rw [Finset.mul_sum]
  rw [e]
  exact Finset.sum_le_sum fun i _ => Finset.sum_le_sum fun j _ => ent i j

theorem Stretch.mul {A B C : Matrix (Fin 3) (Fin 3) ℚ} {lo hi lo' hi' : ℚ} (hA : Stretch lo hi A)
    (hB : Stretch lo' hi' B) (hlo : 0 ≤ lo) (hhi : 0 ≤ hi) (hr : hi * hi' ≤ 12 * (lo * lo'))
    (hC : ∀ i j, |C i j - (A * B) i j| ≤ 1 / 2 ^ 50 * ∑ k, |A i k| * |B k j|) :
    Stretch (lo * lo' * (1 - 1 / 2 ^ 45)) (hi * hi' * (1 + 1 / 2 ^ 47)) C := by
  intro v
  have fE := frob_err (A := A) (B := B) (E := C - A * B) (κ := 1 / 2 ^ 50) (by
    intro i j; rw [Matrix.sub_apply]; exact hC i j)
  have fA := hA.frob_le
  have fB := hB.frob_le
  have fAB : frob A * frob B ≤ 9 * (hi * hi') := by
    have := mul_le_mul fA fB (frob_nonneg B) (by linarith)
    linarith
  have hv := sqLength_nonneg v
  have eV : sqLength ((C - A * B).mulVec v) ≤ 9 * (hi * hi') / 2 ^ 100 * sqLength v := by
    refine le_trans (sqLength_mulVec_le _ _) (mul_le_mul_of_nonneg_right ?_ hv)
    refine le_trans fE ?_
    have := mul_le_mul_of_nonneg_left fAB (by positivity : (0 : ℚ) ≤ (1 / 2 ^ 50) ^ 2)
    refine le_trans this (le_of_eq ?_)
    norm_num
    ring
  have dec : C.mulVec v = A.mulVec (B.mulVec v) + (C - A * B).mulVec v := by
    rw [Matrix.mulVec_mulVec, ← Matrix.add_mulVec]
    congr 1; abel
  have up : sqLength (A.mulVec (B.mulVec v)) ≤ hi * hi' * sqLength v := by
    refine le_trans (hA _).2 ?_
    rw [mul_assoc]
    exact mul_le_mul_of_nonneg_left (hB v).2 hhi
  have low : lo * lo' * sqLength v ≤ sqLength (A.mulVec (B.mulVec v)) := by
    refine le_trans ?_ (hA _).1
    rw [mul_assoc]
    exact mul_le_mul_of_nonneg_left (hB v).1 hlo
  have u := sqLength_add_le (s := 1 / 2 ^ 48) (by positivity) (A.mulVec (B.mulVec v)) ((C - A * B).mulVec v)
  have l := sqLength_add_ge (s := 1 / 2 ^ 48) (by positivity) (A.mulVec (B.mulVec v)) ((C - A * B).mulVec v)
  rw [← dec] at u l
  have hrv := mul_le_mul_of_nonneg_right hr hv
  have p0 : 0 ≤ hi * hi' * sqLength v := le_trans (sqLength_nonneg _) up
  obtain ⟨W, hW⟩ : ∃ W, W = hi * hi' * sqLength v := ⟨_, rfl⟩
  obtain ⟨L, hL⟩ : ∃ L, L = lo * lo' * sqLength v := ⟨_, rfl⟩
  have e1 : 9 * (hi * hi') / 2 ^ 100 * sqLength v = 9 / 2 ^ 100 * W := by rw [hW]; ring
  have e2 : hi * hi' * (1 + 1 / 2 ^ 47) * sqLength v = W * (1 + 1 / 2 ^ 47) := by rw [hW]; ring
  have e3 : lo * lo' * (1 - 1 / 2 ^ 45) * sqLength v = L * (1 - 1 / 2 ^ 45) := by rw [hL]; ring
  have e4 : 12 * (lo * lo') * sqLength v = 12 * L := by rw [hL]; ring
  rw [e1] at eV
  rw [e2, e3]
  rw [← hW] at up p0
  rw [← hL] at low
  rw [← hW, e4] at hrv
  clear hW hL e1 e2 e3 e4 dec fE fA fB fAB hC hA hB
  norm_num at *
  constructor <;> linarith

/-! ### the rounded inner product -/

def u53 : ℚ := 1 / 2 ^ 53

theorem toF64_err' (x : ℚ) : |toF64 x - x| ≤ u53 * |x| := by
  have := toF64_err x
  unfold u53; linarith

theorem maddD_err (fma : Bool) {c' c C a b K : ℚ} (hK : 1 + u53 ≤ K) (hC : |c| ≤ C)
    (hc : |c' - c| ≤ (K - 1) * C) :
    |maddD fma c' a b - (c + a * b)| ≤ (K * (1 + u53) - 1) * (C + |a * b|) := by
  have hu : 0 ≤ u53 := by unfold u53; norm_num
  obtain ⟨p, hp, e⟩ : ∃ p, |p - a * b| ≤ (K - 1) * |a * b| ∧ maddD fma c' a b = toF64 (c' + p) := by
    have hab := abs_nonneg (a * b)
    cases fma
    · refine ⟨toF64 (a * b), le_trans (toF64_err' _) ?_, by simp [maddD]⟩
      exact mul_le_mul_of_nonneg_right (by linarith) hab
    · refine ⟨a * b, ?_, by simp [maddD]⟩
      rw [sub_self, abs_zero]
      exact mul_nonneg (by linarith) hab
  rw [e]
  have h1 : |(c' + p) - (c + a * b)| ≤ (K - 1) * (C + |a * b|) := by
    have : (c' + p) - (c + a * b) = (c' - c) + (p - a * b) := by ring
    rw [this]
    have := abs_add_le (c' - c) (p - a * b)
    linarith
  have h2 : |c + a * b| ≤ C + |a * b| := le_trans (abs_add_le _ _) (by linarith)
  have h3 : |c' + p| ≤ K * (C + |a * b|) := by
    have := abs_sub_abs_le_abs_sub (c' + p) (c + a * b)
    linarith
  have h4 := toF64_err' (c' + p)
  have h5 := mul_le_mul_of_nonneg_left h3 hu
  have h6 := abs_sub_le (toF64 (c' + p)) (c' + p) (c + a * b)
  linarith

theorem mulPoseF_err (fma : Bool) (A B : Mat4 ℚ) (i j : Fin 4) :
    |mulPoseF fma A B i j - (A i 0 * B 0 j + A i 1 * B 1 j + A i 2 * B 2 j + A i 3 * B 3 j)| ≤
      1 / 2 ^ 50 * (|A i 0 * B 0 j| + |A i 1 * B 1 j| + |A i 2 * B 2 j| + |A i 3 * B 3 j|) := by
  have hu : 0 ≤ u53 := by unfold u53; norm_num
  have h0 : |toF64 (A i 0 * B 0 j) - A i 0 * B 0 j| ≤ ((1 + u53) - 1) * |A i 0 * B 0 j| := by
    have := toF64_err' (A i 0 * B 0 j); linarith
  have h1 := maddD_err fma (a := A i 1) (b := B 1 j) le_rfl le_rfl h0
  have c1 : |A i 0 * B 0 j + A i 1 * B 1 j| ≤ |A i 0 * B 0 j| + |A i 1 * B 1 j| := abs_add_le _ _
  have h2 := maddD_err fma (a := A i 2) (b := B 2 j) (by nlinarith) c1 h1
  have c2 : |A i 0 * B 0 j + A i 1 * B 1 j + A i 2 * B 2 j| ≤
      |A i 0 * B 0 j| + |A i 1 * B 1 j| + |A i 2 * B 2 j| :=
    le_trans (abs_add_le _ _) (by linarith)
  have h3 := maddD_err fma (a := A i 3) (b := B 3 j) (by nlinarith) c2 h2
  refine le_trans h3 (mul_le_mul_of_nonneg_right ?_ (by positivity))
  unfold u53; norm_num

theorem toF64_zero' : toF64 0 = 0 := by simpa using toF64_nat 0 (by norm_num)
theorem toF64_one' : toF64 1 = 1 := by simpa using toF64_nat 1 (by norm_num)

theorem mulPoseF_isPose (fma : Bool) {A B : Mat4 ℚ} (hA : IsPose A) (hB : IsPose B) :
    IsPose (mulPoseF fma A B) := by
  obtain ⟨a0, a1, a2, a3⟩ := hA
  obtain ⟨b0, b1, b2, b3⟩ := hB
  refine ⟨?_, ?_, ?_, ?_⟩ <;>
    · unfold mulPoseF maddD
      rw [a0, a1, a2, a3]
      cases fma <;> simp [b0, b1, b2, b3, toF64_zero', toF64_one']

theorem linOf_err (fma : Bool) {A B : Mat4 ℚ} (hB : IsPose B) (i j : Fin 3) :
    |linOf (mulPoseF fma A B) i j - (linOf A * linOf B) i j| ≤
      1 / 2 ^ 50 * ∑ k, |linOf A i k| * |linOf B k j| := by
  obtain ⟨b0, b1, b2, b3⟩ := hB
  have h := mulPoseF_err fma A B i.castSucc j.castSucc
  have z : B 3 j.castSucc = 0 := by fin_cases j <;> simp [b0, b1, b2]
  rw [z, mul_zero, add_zero, abs_zero, add_zero] at h
  rw [Matrix.mul_apply, Fin.sum_univ_three, Fin.sum_univ_three, ← abs_mul, ← abs_mul, ← abs_mul]
  exact h

theorem posOf_err (fma : Bool) {A B : Mat4 ℚ} (hB : IsPose B) (i : Fin 3) :
    |posOf (mulPoseF fma A B) i - ((linOf A).mulVec (posOf B) i + posOf A i)| ≤
      1 / 2 ^ 50 * ((∑ k, |linOf A i k| * |posOf B k|) + |posOf A i|) := by
  obtain ⟨b0, b1, b2, b3⟩ := hB
  have h := mulPoseF_err fma A B i.castSucc 3
  rw [b3, mul_one] at h
  rw [Matrix.mulVec, dotProduct, Fin.sum_univ_three, Fin.sum_univ_three, ← abs_mul, ← abs_mul, ← abs_mul]
  exact h

/-! ### powers -/

theorem pow_bounds {g : ℚ} (h0 : 0 ≤ g) (k : Nat) (hk : k * g ≤ 1 / 2) :
    1 - k * g ≤ (1 - g) ^ k ∧ (1 + g) ^ k ≤ 1 + 2 * (k * g) := by
  rcases Nat.eq_zero_or_pos k with rfl | hpos
  · simp
  have hk1 : (1 : ℚ) ≤ k := by exact_mod_cast hpos
  have g1 : g ≤ 1 / 2 := by nlinarith
  have lo : 1 - k * g ≤ (1 - g) ^ k := by
    have := one_add_mul_le_pow (a := -g) (by linarith) k
    have e : 1 + (k : ℚ) * -g = 1 - k * g := by ring
    rw [e] at this
    simpa [sub_eq_add_neg] using this
  refine ⟨lo, ?_⟩
  have pr : (1 + g) ^ k * (1 - g) ^ k ≤ 1 := by
    rw [← mul_pow]
    apply pow_le_one₀ <;> nlinarith
  have p0 : 0 ≤ (1 + g) ^ k := by positivity
  have kg0 : 0 ≤ k * g := by positivity
  have q : (1 + g) ^ k * (1 - k * g) ≤ 1 :=
    le_trans (mul_le_mul_of_nonneg_left lo p0) pr
  by_contra hc
  push Not at hc
  have : (1 + 2 * (k * g)) * (1 - k * g) < (1 + g) ^ k * (1 - k * g) := by
    apply mul_lt_mul_of_pos_right hc; linarith
  nlinarith

/-! ### chains of products -/

/-- Rounded product of a list of poses, from the first to the last. -/
def chainF (fma : Bool) (t : Mat4 ℚ) (l : List (Mat4 ℚ)) : Mat4 ℚ := l.foldl (mulPoseF fma) t

theorem frontPoses_chain (fma : Bool) (rounds : List (Mat4 ℚ × Bool)) :
    ∀ (t : Mat4 ℚ) (i : Nat), (frontPoses fma t rounds)[i]? =
      rounds[i]?.map fun r => chainF fma t (((rounds.take i).filter (·.2)).map (·.1) ++ [r.1]) := by
  induction rounds with
  | nil => intro t i; simp [frontPoses]
  | cons r rest ih =>
    intro t i
    obtain ⟨a, key⟩ := r
    cases i with
    | zero => simp [frontPoses, chainF]
    | succ i =>
      simp only [frontPoses, List.getElem?_cons_succ, ih, List.take_succ_cons]
      cases key <;> simp [chainF]

theorem isPose_one : IsPose 1 := by
  refine ⟨?_, ?_, ?_, ?_⟩ <;> simp [Matrix.one_apply]

theorem linOf_one : linOf 1 = 1 := by
  ext i j
  unfold linOf
  fin_cases i <;> fin_cases j <;> simp [Matrix.one_apply]

theorem posOf_one : posOf 1 = 0 := by
  ext i
  unfold posOf
  fin_cases i <;> simp [Matrix.one_apply]

theorem linOf_mul {A B : Mat4 ℚ} (hB : IsPose B) : linOf (A * B) = linOf A * linOf B := by
  obtain ⟨b0, b1, b2, b3⟩ := hB
  ext i j
  have z : B 3 j.castSucc = 0 := by fin_cases j <;> simp [b0, b1, b2]
  rw [Matrix.mul_apply]
  unfold linOf
  rw [Matrix.mul_apply, Fin.sum_univ_castSucc]
  have : (Fin.last 3) = (3 : Fin 4) := rfl
  rw [this, z, mul_zero, add_zero]

theorem posOf_mul {A B : Mat4 ℚ} (hB : IsPose B) :
    posOf (A * B) = (linOf A).mulVec (posOf B) + posOf A := by
  obtain ⟨b0, b1, b2, b3⟩ := hB
  ext i
  rw [Pi.add_apply, Matrix.mulVec, dotProduct]
  unfold posOf linOf
  rw [Matrix.mul_apply, Fin.sum_univ_castSucc]
  have : (Fin.last 3) = (3 : Fin 4) := rfl
  rw [this, b3, mul_one]

theorem isPose_mul {A B : Mat4 ℚ} (hA : IsPose A) (hB : IsPose B) : IsPose (A * B) := by
  obtain ⟨a0, a1, a2, a3⟩ := hA
  obtain ⟨b0, b1, b2, b3⟩ := hB
  refine ⟨?_, ?_, ?_, ?_⟩ <;> simp [Matrix.mul_apply, Fin.sum_univ_four, *]

theorem keepsLengths_stretch {e : ℚ} {M : Matrix (Fin 3) (Fin 3) ℚ} (h : KeepsLengths e M) :
    Stretch (1 - e) (1 + e) M := by
  intro v
  have := abs_le.1 (h v)
  constructor <;> linarith [this.1, this.2]

theorem Stretch.keeps {lo hi e : ℚ} {M : Matrix (Fin 3) (Fin 3) ℚ} (h : Stretch lo hi M)
    (h1 : 1 - e ≤ lo) (h2 : hi ≤ 1 + e) : KeepsLengths e M := by
  intro v
  have hv := sqLength_nonneg v
  have a := mul_le_mul_of_nonneg_right h1 hv
  have b := mul_le_mul_of_nonneg_right h2 hv
  rw [abs_le]
  constructor <;> linarith [(h v).1, (h v).2]

theorem stretch_one : Stretch 1 1 1 := by
  intro v; rw [Matrix.one_mulVec]; constructor <;> linarith

/-- The chain, step by step, from the right end of the list. -/
theorem chain_stretch (fma : Bool) {δ g : ℚ} (hδ : 0 ≤ δ) (hg : g = δ + 1 / 2 ^ 44) (l : List (Mat4 ℚ))
    (hp : ∀ A ∈ l, IsPose A) (hl : ∀ A ∈ l, KeepsLengths δ (linOf A)) (hn : l.length * g ≤ 1 / 2) :
    IsPose (chainF fma 1 l) ∧
    Stretch ((1 - g) ^ l.length) ((1 + g) ^ l.length) (linOf (chainF fma 1 l)) := by
  have g0 : 0 ≤ g := by rw [hg]; positivity
  induction l using List.reverseRecOn with
  | nil => simp only [chainF, List.foldl_nil, List.length_nil, pow_zero]
           exact ⟨isPose_one, by rw [linOf_one]; exact stretch_one⟩
  | append_singleton l A ih =>
    have len : (l ++ [A]).length = l.length + 1 := by simp
    rw [len] at hn ⊢
    push_cast at hn
    have hn' : (l.length : ℚ) * g ≤ 1 / 2 := by nlinarith
    have gh : g ≤ 1 / 2 := by
      have : (0 : ℚ) ≤ l.length * g := by positivity
      linarith
    have dh : δ ≤ 1 / 2 := by rw [hg] at gh; have : (0 : ℚ) < 1 / 2 ^ 44 := by norm_num
                              linarith
    obtain ⟨ip, is⟩ := ih (fun B hB => hp B (by simp [hB])) (fun B hB => hl B (by simp [hB])) hn'
    have pA : IsPose A := hp A (by simp)
    have sA := keepsLengths_stretch (hl A (by simp))
    have e : chainF fma 1 (l ++ [A]) = mulPoseF fma (chainF fma 1 l) A := by simp [chainF]
    rw [e]
    refine ⟨mulPoseF_isPose fma ip pA, ?_⟩
    obtain ⟨b1, b2⟩ := pow_bounds g0 l.length hn'
    have lo0 : 1 / 2 ≤ (1 - g) ^ l.length := by linarith
    have hi0 : (1 + g) ^ l.length ≤ 2 := by linarith
    have hip : 0 ≤ (1 + g) ^ l.length := by positivity
    have r : (1 + g) ^ l.length * (1 + δ) ≤ 12 * ((1 - g) ^ l.length * (1 - δ)) := by nlinarith
    have s := is.mul sA (by linarith) hip r (linOf_err fma pA)
    intro v
    have hv := sqLength_nonneg v
    obtain ⟨s1, s2⟩ := s v
    have m1 : (1 - g) ^ (l.length + 1) ≤ (1 - g) ^ l.length * (1 - δ) * (1 - 1 / 2 ^ 45) := by
      rw [pow_succ, mul_assoc]
      apply mul_le_mul_of_nonneg_left _ (by linarith)
      rw [hg]; norm_num; nlinarith
    have m2 : (1 + g) ^ l.length * (1 + δ) * (1 + 1 / 2 ^ 47) ≤ (1 + g) ^ (l.length + 1) := by
      rw [pow_succ (1 + g) l.length, mul_assoc]
      apply mul_le_mul_of_nonneg_left _ hip
      rw [hg]; norm_num; nlinarith
    exact ⟨le_trans (mul_le_mul_of_nonneg_right m1 hv) s1,
      le_trans s2 (mul_le_mul_of_nonneg_right m2 hv)⟩

/-- Exact chains. -/
theorem prod_stretch {δ : ℚ} (hδ : 0 ≤ δ) (h1 : δ ≤ 1) (l : List (Mat4 ℚ))
    (hp : ∀ A ∈ l, IsPose A) (hl : ∀ A ∈ l, KeepsLengths δ (linOf A)) :
    IsPose l.prod ∧ ∀ v, sqLength ((linOf l.prod).mulVec v) ≤ (1 + δ) ^ l.length * sqLength v := by
  induction l using List.reverseRecOn with
  | nil => simp only [List.prod_nil, List.length_nil, pow_zero]
           exact ⟨isPose_one, by rw [linOf_one]; exact fun v => (stretch_one v).2⟩
  | append_singleton l A ih =>
    obtain ⟨ip, is⟩ := ih (fun B hB => hp B (by simp [hB])) (fun B hB => hl B (by simp [hB]))
    have pA : IsPose A := hp A (by simp)
    have sA := keepsLengths_stretch (hl A (by simp))
    rw [List.prod_append, List.prod_singleton]
    refine ⟨isPose_mul ip pA, ?_⟩
    intro v
    rw [linOf_mul pA, ← Matrix.mulVec_mulVec, List.length_append, List.length_singleton, pow_succ]
    refine le_trans (is _) ?_
    rw [mul_assoc]
    exact mul_le_mul_of_nonneg_left (sA v).2 (by positivity)

/-- `M` makes no vector longer than `d` times its length. -/
def Short (d : ℚ) (M : Matrix (Fin 3) (Fin 3) ℚ) : Prop := ∀ v, sqLength (M.mulVec v) ≤ d ^ 2 * sqLength v

theorem Short.add {a b : ℚ} {M N : Matrix (Fin 3) (Fin 3) ℚ} (ha : 0 ≤ a) (hb : 0 ≤ b) (h : Short a M)
    (k : Short b N) : Short (a + b) (M + N) := by
  intro v
  rw [Matrix.add_mulVec]
  have hv := sqLength_nonneg v
  have h1 := h v
  have h2 := k v
  -- the triangle inequality with the two lengths as fractions of one scale
  rcases (add_nonneg ha hb).eq_or_lt with e | e
  · have a0 : a = 0 := by linarith
    have b0 : b = 0 := by linarith
    subst a0; subst b0
    have := sqLength_triangle (a := 0) (b := 0) le_rfl le_rfl (by simpa using h1) (by simpa using h2)
    simpa using this
  rcases ha.eq_or_lt with e1 | e1
  · subst e1
    have z : sqLength (M.mulVec v) = 0 := le_antisymm (by simpa using h1) (sqLength_nonneg _)
    have hz : M.mulVec v = 0 := by
      ext i
      unfold sqLength at z
      have := sq_nonneg (M.mulVec v 0); have := sq_nonneg (M.mulVec v 1); have := sq_nonneg (M.mulVec v 2)
      have q : M.mulVec v i ^ 2 = 0 := by fin_cases i <;> simp <;> nlinarith
      simpa using q
    rw [hz, zero_add, zero_add]; exact h2
  rcases hb.eq_or_lt with e2 | e2
  · subst e2
    have z : sqLength (N.mulVec v) = 0 := le_antisymm (by simpa using h2) (sqLength_nonneg _)
    have hz : N.mulVec v = 0 := by
      ext i
      unfold sqLength at z
      have := sq_nonneg (N.mulVec v 0); have := sq_nonneg (N.mulVec v 1); have := sq_nonneg (N.mulVec v 2)
      have q : N.mulVec v i ^ 2 = 0 := by fin_cases i <;> simp <;> nlinarith
      simpa using q
    rw [hz, add_zero, add_zero]; exact h1
  have s := sqLength_add_le (s := b / a) (by positivity) (M.mulVec v) (N.mulVec v)
  have t1 : (1 + b / a) * sqLength (M.mulVec v) ≤ (1 + b / a) * (a ^ 2 * sqLength v) :=
    mul_le_mul_of_nonneg_left h1 (by positivity)
  have t2 : (1 + 1 / (b / a)) * sqLength (N.mulVec v) ≤ (1 + 1 / (b / a)) * (b ^ 2 * sqLength v) :=
    mul_le_mul_of_nonneg_left h2 (by positivity)
  have e3 : (1 + b / a) * (a ^ 2 * sqLength v) + (1 + 1 / (b / a)) * (b ^ 2 * sqLength v) =
      (a + b) ^ 2 * sqLength v := by field_simp; ring
  linarith

theorem Short.mul {a b : ℚ} {M N : Matrix (Fin 3) (Fin 3) ℚ} (h : Short a M) (k : Short b N) :
    Short (a * b) (M * N) := by
  intro v
  rw [← Matrix.mulVec_mulVec]
  refine le_trans (h _) ?_
  rw [mul_pow, mul_assoc]
  exact mul_le_mul_of_nonneg_left (k v) (sq_nonneg _)

theorem Short.mono {a b : ℚ} {M : Matrix (Fin 3) (Fin 3) ℚ} (h : Short a M) (ha : 0 ≤ a) (hab : a ≤ b) :
    Short b M := fun v => le_trans (h v) (mul_le_mul_of_nonneg_right (by nlinarith) (sqLength_nonneg v))

/-- Rotation and position of a rounded chain beside the exact ones. -/
theorem chain_near (fma : Bool) {δ g ℓ : ℚ} (hδ : 0 ≤ δ) (hg : g = δ + 1 / 2 ^ 44) (h0 : 0 ≤ ℓ)
    (l : List (Mat4 ℚ)) (hp : ∀ A ∈ l, IsPose A) (hl : ∀ A ∈ l, KeepsLengths δ (linOf A))
    (ht : ∀ A ∈ l, sqLength (posOf A) ≤ ℓ ^ 2) (hn : l.length * g ≤ 1 / 2) :
    Short (6 / 2 ^ 50 * l.length * (1 + g) ^ l.length) (linOf (chainF fma 1 l) - linOf l.prod) ∧
    sqLength (posOf l.prod) ≤ (2 * l.length * ℓ) ^ 2 ∧
    sqLength (posOf (chainF fma 1 l) - posOf l.prod) ≤ (16 / 2 ^ 50 * l.length ^ 2 * ℓ) ^ 2 := by
  have g0 : 0 ≤ g := by rw [hg]; positivity
  induction l using List.reverseRecOn with
  | nil =>
    refine ⟨?_, ?_, ?_⟩
    · intro v; simp [chainF, sqLength]
    · simp [posOf_one, sqLength]
    · simp [chainF, sqLength]
  | append_singleton l A ih =>
    have len : (l ++ [A]).length = l.length + 1 := by simp
    rw [len] at hn ⊢
    push_cast at hn ⊢
    have hn' : (l.length : ℚ) * g ≤ 1 / 2 := by nlinarith
    have gh : g ≤ 1 / 2 := by
      have : (0 : ℚ) ≤ l.length * g := by positivity
      linarith
    have dg : δ ≤ g := by rw [hg]; have : (0 : ℚ) < 1 / 2 ^ 44 := by norm_num
                          linarith
    have hp' : ∀ B ∈ l, IsPose B := fun B hB => hp B (by simp [hB])
    have hl' : ∀ B ∈ l, KeepsLengths δ (linOf B) := fun B hB => hl B (by simp [hB])
    obtain ⟨d, q, r⟩ := ih hp' hl' (fun B hB => ht B (by simp [hB])) hn'
    obtain ⟨cp, cs⟩ := chain_stretch fma hδ hg l hp' hl' hn'
    obtain ⟨ep, es⟩ := prod_stretch hδ (by linarith) l hp' hl'
    have pA : IsPose A := hp A (by simp)
    have tA : sqLength (posOf A) ≤ ℓ ^ 2 := ht A (by simp)
    have sA := keepsLengths_stretch (hl A (by simp))
    obtain ⟨b1, b2⟩ := pow_bounds g0 l.length hn'
    have hi2 : (1 + g) ^ l.length ≤ 2 := by linarith
    have e : chainF fma 1 (l ++ [A]) = mulPoseF fma (chainF fma 1 l) A := by simp [chainF]
    rw [e, List.prod_append, List.prod_singleton]
    obtain ⟨T, hT⟩ : ∃ T, T = chainF fma 1 l := ⟨_, rfl⟩
    obtain ⟨P, hP⟩ : ∃ P, P = l.prod := ⟨_, rfl⟩
    obtain ⟨k, hk⟩ : ∃ k : ℚ, k = l.length := ⟨_, rfl⟩
    obtain ⟨G, hG⟩ : ∃ G : ℚ, G = (1 + g) ^ l.length := ⟨_, rfl⟩
    have k0 : 0 ≤ k := by rw [hk]; positivity
    have G1 : 1 ≤ G := by rw [hG]; exact one_le_pow₀ (by linarith)
    rw [pow_succ (1 + g) l.length]
    rw [← hT, ← hP] at d r ⊢
    rw [← hP] at q es
    rw [← hT] at cs
    rw [← hk] at d q r hn hn' ⊢
    rw [← hG] at d cs hi2 ⊢
    have fT : frob (linOf T) ≤ 6 := le_trans cs.frob_le (by linarith)
    have kk : k ≤ 2 ^ 43 := by
      have h1 : k * (1 / 2 ^ 44) ≤ k * g := mul_le_mul_of_nonneg_left (by rw [hg]; linarith) k0
      norm_num at h1 ⊢; linarith
    refine ⟨?_, ?_, ?_⟩
    · -- the rotation
      have fA : frob (linOf A) ≤ 9 / 2 := le_trans sA.frob_le (by linarith)
      have fE := frob_err (A := linOf T) (B := linOf A) (E := linOf (mulPoseF fma T A) - linOf T * linOf A)
        (κ := 1 / 2 ^ 50) (by intro i j; rw [Matrix.sub_apply]; exact linOf_err fma pA i j)
      have sE : Short (6 / 2 ^ 50) (linOf (mulPoseF fma T A) - linOf T * linOf A) := by
        intro v
        refine le_trans (sqLength_mulVec_le _ _) (mul_le_mul_of_nonneg_right ?_ (sqLength_nonneg v))
        have : frob (linOf T) * frob (linOf A) ≤ 6 * (9 / 2) :=
          mul_le_mul fT fA (frob_nonneg _) (by norm_num)
        refine le_trans fE ?_
        norm_num; linarith
      have sD : Short (1 + δ) (linOf A) := by
        intro v
        refine le_trans (sA v).2 (mul_le_mul_of_nonneg_right (by nlinarith) (sqLength_nonneg v))
      have dm := d.mul sD
      have sum := Short.add (by positivity) (by norm_num) dm sE
      have eq : (linOf T - linOf P) * linOf A + (linOf (mulPoseF fma T A) - linOf T * linOf A) =
          linOf (mulPoseF fma T A) - linOf (P * A) := by
        rw [linOf_mul pA, Matrix.sub_mul]; abel
      rw [eq] at sum
      refine sum.mono (by positivity) ?_
      have h1 : 6 / 2 ^ 50 * k * G * (1 + δ) ≤ 6 / 2 ^ 50 * k * G * (1 + g) :=
        mul_le_mul_of_nonneg_left (by linarith) (by positivity)
      have h2 : (1 : ℚ) ≤ G * (1 + g) := by nlinarith
      have e : 6 / 2 ^ 50 * (k + 1) * (G * (1 + g)) = 6 / 2 ^ 50 * k * G * (1 + g) + 6 / 2 ^ 50 * (G * (1 + g)) := by
        ring
      rw [e]
      have h3 : 6 / 2 ^ 50 * 1 ≤ 6 / 2 ^ 50 * (G * (1 + g)) := mul_le_mul_of_nonneg_left h2 (by norm_num)
      linarith
    · -- the exact position
      rw [posOf_mul pA]
      have h1 : sqLength ((linOf P).mulVec (posOf A)) ≤ (2 * ℓ) ^ 2 := by
        refine le_trans (es _) ?_
        have h2 : (1 + δ) ^ l.length ≤ 2 := by
          refine le_trans (pow_le_pow_left₀ (by linarith) (by linarith : 1 + δ ≤ 1 + g) _) ?_
          rw [← hG]; exact hi2
        have := mul_le_mul h2 tA (sqLength_nonneg _) (by norm_num)
        nlinarith
      have := sqLength_triangle (by positivity) (by positivity) h1 q
      refine le_trans this (le_of_eq ?_)
      ring
    · -- the computed position
      rw [posOf_mul pA]
      have hD : sqLength ((linOf T - linOf P).mulVec (posOf A)) ≤ (12 / 2 ^ 50 * k * ℓ) ^ 2 := by
        refine le_trans (d _) ?_
        have h1 : 6 / 2 ^ 50 * k * G ≤ 12 / 2 ^ 50 * k := by
          have := mul_le_mul_of_nonneg_left hi2 (by positivity : 0 ≤ 6 / 2 ^ 50 * k)
          linarith
        have h2 := pow_le_pow_left₀ (by positivity) h1 2
        have := mul_le_mul h2 tA (sqLength_nonneg _) (by positivity)
        refine le_trans this (le_of_eq ?_)
        ring
      have hT2 : sqLength (posOf T) ≤ (16 / 2 ^ 50 * k ^ 2 * ℓ + 2 * k * ℓ) ^ 2 := by
        have := sqLength_triangle (by positivity) (by positivity) r q
        rwa [sub_add_cancel] at this
      have hE : sqLength (posOf (mulPoseF fma T A) - ((linOf T).mulVec (posOf A) + posOf T)) ≤
          (1 / 2 ^ 50 * (3 * ℓ + (16 / 2 ^ 50 * k ^ 2 * ℓ + 2 * k * ℓ))) ^ 2 := by
        obtain ⟨α, hα⟩ : ∃ α : Fin 3 → ℚ, α = fun i => ∑ j, |linOf T i j| * |posOf A j| := ⟨_, rfl⟩
        obtain ⟨β, hβ⟩ : ∃ β : Fin 3 → ℚ, β = fun i => |posOf T i| := ⟨_, rfl⟩
        have sα : sqLength α ≤ (3 * ℓ) ^ 2 := by
          have h1 := sqLength_mulVec_le (fun i j => |linOf T i j|) (fun j => |posOf A j|)
          have e1 : (Matrix.mulVec (fun i j => |linOf T i j|) fun j => |posOf A j|) = α := by
            rw [hα]; rfl
          have e2 : frob (fun i j => |linOf T i j|) = frob (linOf T) := by simp [frob, sq_abs]
          have e3 : sqLength (fun j => |posOf A j|) = sqLength (posOf A) := by simp [sqLength, sq_abs]
          rw [e1, e2, e3] at h1
          have := mul_le_mul fT tA (sqLength_nonneg _) (by norm_num)
          nlinarith
        have sβ : sqLength β ≤ (16 / 2 ^ 50 * k ^ 2 * ℓ + 2 * k * ℓ) ^ 2 := by
          have e3 : sqLength β = sqLength (posOf T) := by rw [hβ]; simp [sqLength, sq_abs]
          rw [e3]; exact hT2
        have tri := sqLength_triangle (by positivity) (by positivity) sα sβ
        have ent : ∀ i, (posOf (mulPoseF fma T A) - ((linOf T).mulVec (posOf A) + posOf T)) i ^ 2 ≤
            (1 / 2 ^ 50) ^ 2 * (α + β) i ^ 2 := by
          intro i
          have := posOf_err fma (A := T) pA i
          rw [Pi.sub_apply, Pi.add_apply, Pi.add_apply, ← mul_pow, hα, hβ, ← sq_abs (_ - _)]
          exact pow_le_pow_left₀ (abs_nonneg _) this 2
        rw [mul_pow]
        have m := mul_le_mul_of_nonneg_left tri (by positivity : (0 : ℚ) ≤ (1 / 2 ^ 50) ^ 2)
        refine le_trans ?_ m
        unfold sqLength
        have := ent 0; have := ent 1; have := ent 2
        linarith
      have t1 := sqLength_triangle (by positivity) (by positivity) hD r
      have t2 := sqLength_triangle (by positivity) (by positivity) t1 hE
      have eq : (linOf T - linOf P).mulVec (posOf A) + (posOf T - posOf P) +
          (posOf (mulPoseF fma T A) - ((linOf T).mulVec (posOf A) + posOf T)) =
          posOf (mulPoseF fma T A) - ((linOf P).mulVec (posOf A) + posOf P) := by
        rw [Matrix.sub_mulVec]; abel
      rw [eq] at t2
      refine le_trans t2 (pow_le_pow_left₀ (by positivity) ?_ 2)
      have z : 16 / 2 ^ 50 * k ^ 2 ≤ 18 * k + 13 := by
        have : k ^ 2 ≤ 2 ^ 43 * k := by nlinarith
        norm_num at this ⊢; linarith
      have zz := mul_le_mul_of_nonneg_right z h0
      have fin : 16 / 2 ^ 50 * (k + 1) ^ 2 * ℓ - (12 / 2 ^ 50 * k * ℓ + 16 / 2 ^ 50 * k ^ 2 * ℓ +
          1 / 2 ^ 50 * (3 * ℓ + (16 / 2 ^ 50 * k ^ 2 * ℓ + 2 * k * ℓ))) =
          1 / 2 ^ 50 * ((18 * k + 13) * ℓ - 16 / 2 ^ 50 * k ^ 2 * ℓ) := by ring
      have : 0 ≤ 1 / 2 ^ 50 * ((18 * k + 13) * ℓ - 16 / 2 ^ 50 * k ^ 2 * ℓ) :=
        mul_nonneg (by norm_num) (by linarith)
      linarith

end Verif
