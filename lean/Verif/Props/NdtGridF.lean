import Verif.Proofs.NdtGridF
import Mathlib.Tactic.FinCases
import Mathlib.Algebra.BigOperators.Fin
/-! Property theorems C121: the cells of the normal distributions transform with the number types of the
code. -/
namespace Verif
open Spec

theorem covF_near {M : ℚ} (hM : 1 ≤ M) (ms : List (NVec ℚ)) (h : ms ≠ [])
    (hs : ∀ p ∈ ms, ∀ i, Single (p i)) (hb : ∀ p ∈ ms, ∀ i, |p i| ≤ M) (hn : ms.length ≤ 2 ^ 29) (i j : Fin 3) :
    |ndtCovF (leafOfF ms) i j - cellMatrix ms i j| ≤ (ms.length + 1) * M ^ 2 / 2 ^ 47 := by
  have hM0 : 0 ≤ M := by linarith
  have hpos : 1 ≤ ms.length := List.length_pos_iff.2 h
  have hnq : (ms.length : ℚ) ≤ 2 ^ 29 := by exact_mod_cast hn
  have hn1 : (1 : ℚ) ≤ ms.length := by exact_mod_cast hpos
  obtain ⟨v1, v2, v3, v4⟩ := leafOfF_values ms
  obtain ⟨x1, x2, x3, _⟩ := leafOf_values ms
  have hne : ∀ i : Fin 3, ms.map (fun p => p i) ≠ [] := by intro i; simpa using h
  have hbi : ∀ i : Fin 3, ∀ x ∈ ms.map (fun p => p i), |x| ≤ M := by
    intro i x hx
    obtain ⟨p, hp, rfl⟩ := List.mem_map.1 hx
    exact hb p hp i
  have hsum : ∀ i : Fin 3, |(ms.map (fun p => p i)).sum| ≤ ms.length * M := by
    intro i
    have := mean_le _ (hne i) (hbi i)
    rw [List.length_map, abs_div, abs_of_pos (by linarith : (0 : ℚ) < ms.length), div_le_iff₀ (by linarith)] at this
    linarith
  have e2 : (2 : ℚ) / 2 ^ 53 = 1 / 2 ^ 52 := by norm_num
  have hmean : ∀ i : Fin 3, |sumF64 (ms.map (fun p => p i)) - (ms.map (fun p => p i)).sum| ≤
        ms.length ^ 2 * (M / 2 ^ 52) ∧
      |toF64 (sumF64 (ms.map (fun p => p i)) / ms.length) - (ms.map (fun p => p i)).sum / ms.length| ≤
        (ms.length + 1) * (M / 2 ^ 52) := by
    intro i
    have := meanF_near _ (hne i) (hbi i) (by rw [List.length_map]; exact hn)
    rw [List.length_map, e2] at this
    refine ⟨le_trans this.1 (le_of_eq (by ring)), le_trans this.2 (le_of_eq (by ring))⟩
  have hml : ∀ i : Fin 3, |(ms.map (fun p => p i)).sum / ms.length| ≤ M := by
    intro i
    have := mean_le _ (hne i) (hbi i)
    rwa [List.length_map] at this
  -- the sum of the products
  have hprod : ms.map (fun p => toF64 (p i * p j)) = ms.map (fun p => p i * p j) := by
    apply List.map_congr_left
    intro p hp
    exact mul_exact (hs p hp i) (hs p hp j)
  have hone : |(1 : NMat ℚ) i j| ≤ M ^ 2 := by
    rw [Matrix.one_apply]
    split
    · rw [abs_one]; nlinarith
    · rw [abs_zero]; positivity
  have hp2 : ∀ x ∈ ms.map (fun p => p i * p j), |x| ≤ M ^ 2 := by
    intro x hx
    obtain ⟨p, hp, rfl⟩ := List.mem_map.1 hx
    rw [abs_mul, sq]
    exact mul_le_mul (hb p hp i) (hb p hp j) (abs_nonneg _) hM0
  have hS' := sumF_err 53 (by positivity : (0 : ℚ) ≤ M ^ 2) (ms.map (fun p => p i * p j)) 1 ((1 : NMat ℚ) i j)
    ((1 : NMat ℚ) i j) (by rw [sub_self, abs_zero]; positivity) (by simpa using hone) hp2
    (by rw [List.length_map]; push_cast; linarith)
  rw [List.length_map, e2] at hS'
  push_cast at hS'
  have hSabs : |(1 : NMat ℚ) i j + (ms.map (fun p => p i * p j)).sum| ≤ (ms.length + 1) * M ^ 2 := by
    have h1 := mean_le (ms.map (fun p => p i * p j)) (by simpa using h) hp2
    rw [List.length_map, abs_div, abs_of_pos (by linarith : (0 : ℚ) < ms.length), div_le_iff₀ (by linarith)] at h1
    refine le_trans (abs_add_le _ _) ?_
    linarith
  have key := cov_chain (n := ms.length) (M := M) hn1 hnq hM0 hSabs
    (S' := (ms.map (fun p => p i * p j)).foldl (fun s x => flRound 53 (s + x)) ((1 : NMat ℚ) i j))
    (le_trans hS' (le_of_eq (by ring))) (hsum i) (hmean i).1 (hml i) (hmean i).2 (hml j) (hmean j).2 rfl
  have eL : ndtCovF (leafOfF ms) i j = toF64 (toF64 (toF64 (toF64 ((ms.map (fun p => p i * p j)).foldl
      (fun s x => flRound 53 (s + x)) ((1 : NMat ℚ) i j) - 2 * toF64 (sumF64 (ms.map (fun p => p i)) *
        toF64 (sumF64 (ms.map (fun p => p j)) / ms.length))) / ms.length) +
      toF64 (toF64 (sumF64 (ms.map (fun p => p i)) / ms.length) *
        toF64 (sumF64 (ms.map (fun p => p j)) / ms.length))) * toF64 (((ms.length : ℚ) - 1) / ms.length)) := by
    unfold ndtCovF ndtMeanF
    dsimp only
    rw [v1, v2, v2, v3, hprod]
    push_cast
    rfl
  have eR : cellMatrix ms i j = (((1 : NMat ℚ) i j + (ms.map (fun p => p i * p j)).sum -
      2 * ((ms.map (fun p => p i)).sum * ((ms.map (fun p => p j)).sum / ms.length))) / ms.length +
      (ms.map (fun p => p i)).sum / ms.length * ((ms.map (fun p => p j)).sum / ms.length)) *
      (((ms.length : ℚ) - 1) / ms.length) := by
    rw [← ndtCov_eq ms h]
    unfold ndtCov outer
    dsimp only
    rw [x1, x2, x2, x3]
    push_cast
    rfl
  rw [eL, eR]
  exact key

/-- The exact matrix of a cell is positive definite. -/
theorem cellMatrix_quad (ms : List (NVec ℚ)) (v : NVec ℚ) (hn : 1 ≤ ms.length) :
    ((ms.length : ℚ) - 1) / (ms.length : ℚ) ^ 2 * (∑ i, v i ^ 2) ≤ quadForm (cellMatrix ms) v := by
  have hn1 : (1 : ℚ) ≤ ms.length := by exact_mod_cast hn
  have hn0 : (0 : ℚ) < ms.length := by linarith
  have hlist : ∀ (f : Fin 3 → NVec ℚ → ℚ) (l : List (NVec ℚ)),
      (∑ i, ∑ j, v i * v j * (l.map (fun p => f i p * f j p)).sum) =
        (l.map (fun p => (∑ i, v i * f i p) ^ 2)).sum := by
    intro f l
    induction l with
    | nil => simp
    | cons p l ih =>
      simp only [List.map_cons, List.sum_cons]
      rw [← ih]
      simp only [Fin.sum_univ_three]
      ring_nf
  have hnn : 0 ≤ ∑ i, ∑ j, v i * v j * scatter ms i j := by
    have := hlist (fun i p => p i - Spec.meanPoint ms i) ms
    unfold scatter
    rw [this]
    apply List.sum_nonneg
    intro x hx
    obtain ⟨p, _, rfl⟩ := List.mem_map.1 hx
    positivity
  have e : quadForm (cellMatrix ms) v = ((ms.length : ℚ) - 1) / ms.length *
      ((∑ i, ∑ j, v i * v j * scatter ms i j) / ms.length + (∑ i, v i ^ 2) / ms.length) := by
    unfold quadForm cellMatrix populationCov
    simp only [Fin.sum_univ_three, Matrix.one_apply]
    simp
    ring
  rw [e]
  have h1 : (0 : ℚ) ≤ ((ms.length : ℚ) - 1) / ms.length := div_nonneg (by linarith) hn0.le
  have h2 : (∑ i, v i ^ 2) / (ms.length : ℚ) ≤ (∑ i, ∑ j, v i * v j * scatter ms i j) / ms.length +
      (∑ i, v i ^ 2) / ms.length := by
    have : 0 ≤ (∑ i, ∑ j, v i * v j * scatter ms i j) / (ms.length : ℚ) := div_nonneg hnn hn0.le
    linarith
  refine le_trans (le_of_eq ?_) (mul_le_mul_of_nonneg_left h2 h1)
  field_simp

theorem cellMatrix_symm (ms : List (NVec ℚ)) (i j : Fin 3) : cellMatrix ms i j = cellMatrix ms j i := by
  unfold cellMatrix populationCov scatter
  have : (ms.map (fun p => (p i - Spec.meanPoint ms i) * (p j - Spec.meanPoint ms j))) =
      (ms.map (fun p => (p j - Spec.meanPoint ms j) * (p i - Spec.meanPoint ms i))) := by
    apply List.map_congr_left; intro p _; ring
  rw [this, Matrix.one_apply, Matrix.one_apply]
  simp only [eq_comm]

/-- A small change of the entries changes the quadratic form little. -/
theorem quadForm_near (A B : NMat ℚ) (d : ℚ) (h : ∀ i j, |A i j - B i j| ≤ d) (v : NVec ℚ) :
    quadForm B v - 3 * d * (∑ i, v i ^ 2) ≤ quadForm A v := by
  have hd : 0 ≤ d := le_trans (abs_nonneg _) (h 0 0)
  have e : quadForm B v - quadForm A v = ∑ i, ∑ j, v i * v j * (B i j - A i j) := by
    unfold quadForm
    simp only [Fin.sum_univ_three]; ring
  have t : ∀ i j, v i * v j * (B i j - A i j) ≤ d * ((v i ^ 2 + v j ^ 2) / 2) := by
    intro i j
    have h1 : v i * v j * (B i j - A i j) ≤ |v i * v j| * d := by
      refine le_trans (le_abs_self _) ?_
      rw [abs_mul, abs_sub_comm]
      exact mul_le_mul_of_nonneg_left (h i j) (abs_nonneg _)
    have h2 : |v i * v j| ≤ (v i ^ 2 + v j ^ 2) / 2 := by
      rw [abs_le]
      constructor <;> nlinarith [sq_nonneg (v i + v j), sq_nonneg (v i - v j)]
    have := mul_le_mul_of_nonneg_right h2 hd
    linarith
  have s : quadForm B v - quadForm A v ≤ 3 * d * (∑ i, v i ^ 2) := by
    rw [e]
    refine le_trans (Finset.sum_le_sum fun i _ => Finset.sum_le_sum fun j _ => t i j) (le_of_eq ?_)
    simp only [Fin.sum_univ_three]; ring
  linarith

/-- What rounding does to the matrix: no cell becomes indefinite. -/
theorem lowerF_quad {M : ℚ} (hM : 1 ≤ M) (ms : List (NVec ℚ)) (h2 : 2 ≤ ms.length)
    (hs : ∀ p ∈ ms, ∀ i, Single (p i)) (hb : ∀ p ∈ ms, ∀ i, |p i| ≤ M) (hn : ms.length * M ≤ 2 ^ 21) (v : NVec ℚ) :
    ((ms.length : ℚ) - 1) / (2 * (ms.length : ℚ) ^ 2) * (∑ i, v i ^ 2) ≤
      quadForm (lowerHalf (ndtCovF (leafOfF ms))) v := by
  have hn2 : (2 : ℚ) ≤ ms.length := by exact_mod_cast h2
  have hn0 : (0 : ℚ) < ms.length := by linarith
  have hlen : ms.length ≤ 2 ^ 29 := by
    have : (ms.length : ℚ) ≤ 2 ^ 29 := by nlinarith
    exact_mod_cast this
  have hne : ms ≠ [] := by intro hh; rw [hh] at h2; simp at h2
  have hnear : ∀ i j, |lowerHalf (ndtCovF (leafOfF ms)) i j - cellMatrix ms i j| ≤
      (ms.length + 1) * M ^ 2 / 2 ^ 47 := by
    intro i j
    unfold lowerHalf
    split
    · exact covF_near hM ms hne hs hb hlen i j
    · rw [cellMatrix_symm]; exact covF_near hM ms hne hs hb hlen j i
  have h3 := quadForm_near _ _ _ hnear v
  have h4 := cellMatrix_quad ms v (by omega)
  have hv : 0 ≤ ∑ i, v i ^ 2 := by positivity
  have h5 : 3 * ((ms.length + 1) * M ^ 2 / 2 ^ 47) ≤ ((ms.length : ℚ) - 1) / (2 * (ms.length : ℚ) ^ 2) := by
    rw [le_div_iff₀ (by positivity)]
    have hsq : ((ms.length : ℚ) * M) ^ 2 ≤ (2 ^ 21) ^ 2 := pow_le_pow_left₀ (by positivity) hn 2
    have e : 3 * ((ms.length + 1) * M ^ 2 / 2 ^ 47) * (2 * (ms.length : ℚ) ^ 2) =
        6 * (ms.length + 1) * (((ms.length : ℚ) * M) ^ 2) / 2 ^ 47 := by ring
    rw [e, div_le_iff₀ (by norm_num)]
    have : 6 * ((ms.length : ℚ) + 1) * (((ms.length : ℚ) * M) ^ 2) ≤ 6 * (ms.length + 1) * (2 ^ 21) ^ 2 :=
      mul_le_mul_of_nonneg_left hsq (by linarith)
    norm_num at this ⊢
    linarith
  have h6 := mul_le_mul_of_nonneg_right h5 hv
  have e7 : ((ms.length : ℚ) - 1) / (ms.length : ℚ) ^ 2 * (∑ i, v i ^ 2) =
      2 * (((ms.length : ℚ) - 1) / (2 * (ms.length : ℚ) ^ 2) * (∑ i, v i ^ 2)) := by
    field_simp
  rw [e7] at h4
  linarith

theorem ndtLong_ok {z r : Int} (h : ndtLong z = .ok r) : r = z := by
  unfold ndtLong at h
  split at h
  · injection h with h; exact h.symm
  · cases h

theorem ndtLong_of {z : Int} (h1 : -9223372036854775808 ≤ z) (h2 : z ≤ 9223372036854775807) :
    ndtLong z = .ok z := by
  unfold ndtLong
  rw [if_pos ⟨h1, h2⟩]

/-- What `ndtFilterF` leaves behind when the cloud is not refused. -/
theorem filterF_result {leaf : ℚ} {minPoints : Int} {p : NVec ℚ} {ps : List (NVec ℚ)} {b : NdtBox}
    {leaves : List (Int × NdtLeafF)} (h : ndtFilterF leaf minPoints p ps = .ok (some (b, leaves))) :
    b = ndtBoxF leaf p ps ∧ ∃ m, ndtFirstPassF leaf (ndtBoxF leaf p ps) (p :: ps) [] = .ok m ∧
      leaves = m.map (fun e => (e.1, finishLeafF minPoints e.2)) := by
  unfold ndtFilterF at h
  simp only [Outcome.bind_eq_ok] at h
  obtain ⟨_, _, _, _, _, _, _, _, d, _, h⟩ := h
  split at h
  · cases h
  · simp only [Outcome.bind_eq_ok] at h
    obtain ⟨_, _, _, _, _, _, _, _, _, _, _, _, _, _, m, hm, h⟩ := h
    have h : Outcome.ok _ = Outcome.ok _ := h
    injection h with h
    injection h with h
    injection h with h1 h2
    exact ⟨h1.symm, m, hm, h2.symm⟩

/-- **C121**, what is proved: with `float` coordinates up to `2 ^ 22` cells from the origin, the cloud is
divided along each axis into cells in their order, each coordinate being put into its cell or the next
one; with cells of one metre, which is what the program sets, it is exactly its cell.  Each occupied
cell has one leaf, with the number of its points, a mean inside the smallest box around them and within
`(n + 1) M 2^-52` of the true mean, and a matrix within `(n + 1) M² 2^-47` of the exact one of `C65`.
The centroid in the search tree is within `(n + 1) M 2^-23` of the mean.  Missing: the points of a cell
do not always give a centroid among them (`C121_centroid_fails`), the search may look into another cell
(`C121_search_fails`), and far points are not handled (`C121_wide_fails`, `C121_far_fails`). -/
theorem C121_cells_partial (leaf : ℚ) (minPoints : Int) (p : NVec ℚ) (ps : List (NVec ℚ)) (b : NdtBox)
    (leaves : List (Int × NdtLeafF)) (hl : 0 < leaf) (hlen : (p :: ps).length ≤ 2 ^ 23)
    (hs : ∀ q ∈ p :: ps, ∀ i, Single (q i)) (hr : ∀ q ∈ p :: ps, ∀ i, |q i| ≤ 2 ^ 22 * leaf)
    (h : ndtFilterF leaf minPoints p ps = .ok (some (b, leaves))) :
    ∃ (cell : ℚ → Int) (number : (Fin 3 → Int) → Int),
      AxisCells leaf (2 ^ 22 * leaf) cell ∧ (leaf = 1 → ∀ x, Single x → cell x = ⌊x⌋) ∧
      (∀ q ∈ p :: ps, ∀ q' ∈ p :: ps, number (fun i => cell (q i)) = number (fun i => cell (q' i)) →
        (fun i => cell (q i)) = fun i => cell (q' i)) ∧
      KeysUp leaves ∧ (∀ e ∈ leaves, ∃ q ∈ p :: ps, e.1 = number (fun i => cell (q i))) ∧
      ∀ q ∈ p :: ps, ∃ l, (number (fun i => cell (q i)), l) ∈ leaves ∧
        let ms := sameCell cell q (p :: ps)
        l.n = ms.length ∧ GoodMean l.mean ms ∧
        (∀ M : ℚ, (∀ p ∈ ms, ∀ i, |p i| ≤ M) →
          (∀ i, |l.centroid i - Spec.meanPoint ms i| ≤ (ms.length + 1) * M / 2 ^ 23) ∧
          (1 ≤ M → minPoints ≤ ms.length →
            ∀ i j, |l.cov i j - cellMatrix ms i j| ≤ (ms.length + 1) * M ^ 2 / 2 ^ 47)) := by
  obtain ⟨rfl, m, hm, rfl⟩ := filterF_result h
  obtain ⟨f1, f2⟩ := firstPassF_cells hl p ps hr m hm
  have hin := boxF_holds hl p ps
  refine ⟨cellMul leaf, mixedRadix (ndtBoxF leaf p ps), ⟨cellMul_mono hl, fun x hx => cellMul_near hl hx⟩,
    ?_, ?_, ?_, ?_, ?_⟩
  · rintro rfl x hx
    have e1 : toF32 (1 / 1) = 1 := by
      have := flRound_int 24 (by norm_num) 1 (by norm_num)
      simpa [toF32] using this
    unfold cellMul
    rw [e1, mul_one, hx]
  · intro q hq q' hq' hqq
    exact mixedRadix_inj _ _ _ (fun i => hin q hq i) (fun i => hin q' hq' i) hqq
  · exact List.pairwise_map.2 f1
  · intro e hel
    obtain ⟨a, ha, rfl⟩ := List.mem_map.1 hel
    obtain ⟨q, hq, hk, _⟩ := (f2 a.1 a.2).1 ha
    exact ⟨q, hq, hk⟩
  · intro q hq
    have hmem := (f2 _ _).2 ⟨q, hq, rfl, rfl⟩
    refine ⟨finishLeafF minPoints (leafOfF (sameCell (cellMul leaf) q (p :: ps))),
      List.mem_map.2 ⟨_, hmem, rfl⟩, ?_⟩
    intro ms
    have hsub : ∀ x ∈ ms, x ∈ p :: ps := fun x hx => List.mem_of_mem_filter hx
    have hne : ms ≠ [] := by
      apply List.ne_nil_of_mem (a := q)
      exact List.mem_filter.2 ⟨hq, by simp⟩
    have hml : ms.length ≤ 2 ^ 23 := le_trans (List.length_filter_le _ _) hlen
    have hml' : ms.length ≤ 2 ^ 29 := by omega
    obtain ⟨v1, v2, v3, v4⟩ := leafOfF_values ms
    have hS : ∀ i : Fin 3, ∀ x ∈ ms.map (fun p => p i), Single x := by
      intro i x hx
      obtain ⟨y, hy, rfl⟩ := List.mem_map.1 hx
      exact hs y (hsub y hy) i
    refine ⟨v1, ?_, ?_⟩
    · intro i
      have e : (finishLeafF minPoints (leafOfF ms)).mean i =
          toF64 (sumF64 (ms.map (fun p => p i)) / (ms.map (fun p => p i)).length) := by
        show toF64 ((leafOfF ms).mean i / (leafOfF ms).n) = _
        rw [v1, v2, List.length_map]; push_cast; rfl
      constructor
      · show Amid ((finishLeafF minPoints (leafOfF ms)).mean i) _
        rw [e]
        exact amid_meanF _ (by simpa using hne) (hS i) (by rw [List.length_map]; exact hml')
      · intro M hM
        show |(finishLeafF minPoints (leafOfF ms)).mean i - _| ≤ _
        rw [e]
        have := (meanF_near (M := M) (ms.map (fun p => p i)) (by simpa using hne) (by
          intro x hx
          obtain ⟨y, hy, rfl⟩ := List.mem_map.1 hx
          exact hM y hy) (by rw [List.length_map]; exact hml')).2
        rw [List.length_map] at this
        rw [List.length_map]
        exact this
    · intro M hM
      constructor
      · intro i
        have e : (finishLeafF minPoints (leafOfF ms)).centroid i = avgF32 (ms.map (fun p => p i)) := by
          show toF32 ((leafOfF ms).centroid i / toF32 (leafOfF ms).n) = _
          unfold avgF32
          rw [v1, v4, List.length_map]; push_cast; rfl
        show |(finishLeafF minPoints (leafOfF ms)).centroid i - _| ≤ _
        rw [e]
        have := avgF32_near (M := M) (ms.map (fun p => p i)) (by simpa using hne) (by
          intro x hx
          obtain ⟨y, hy, rfl⟩ := List.mem_map.1 hx
          exact hM y hy i) (by rw [List.length_map]; exact hml)
        rw [List.length_map] at this
        exact this
      · intro h1 hmin i j
        have e : (finishLeafF minPoints (leafOfF ms)).cov = ndtCovF (leafOfF ms) := by
          show (if _ then _ else _) = _
          rw [if_pos (by rw [v1]; exact hmin)]
        show |(finishLeafF minPoints (leafOfF ms)).cov i j - _| ≤ _
        rw [e]
        exact covF_near h1 ms hne (fun x hx => hs x (hsub x hx)) hM hml' i j

/-- **C121.** Rounding makes no cell unusable: if the coordinates are at most `M` and the cell has at most
`2 ^ 21 / M` points (2000 points one kilometre away), then the matrix the eigenvalue solver sees has only
eigenvalues of at least `(n - 1) / (2 n²)`, so that none is found negative. -/
theorem C121_definite (leaf M : ℚ) (minPoints : Int) (p : NVec ℚ) (ps : List (NVec ℚ)) (b : NdtBox)
    (leaves : List (Int × NdtLeafF)) (hl : 0 < leaf) (hmin : 2 ≤ minPoints) (hM : 1 ≤ M)
    (hs : ∀ q ∈ p :: ps, ∀ i, Single (q i)) (hr : ∀ q ∈ p :: ps, ∀ i, |q i| ≤ 2 ^ 22 * leaf)
    (hb : ∀ q ∈ p :: ps, ∀ i, |q i| ≤ M)
    (h : ndtFilterF leaf minPoints p ps = .ok (some (b, leaves))) :
    ∀ e ∈ leaves, minPoints ≤ e.2.n → e.2.n * M ≤ 2 ^ 21 → ∀ v : Fin 3 → ℚ,
      ((e.2.n : ℚ) - 1) / (2 * (e.2.n : ℚ) ^ 2) * (∑ i, v i ^ 2) ≤ quadForm (lowerHalf e.2.cov) v := by
  obtain ⟨rfl, m, hm, rfl⟩ := filterF_result h
  obtain ⟨f1, f2⟩ := firstPassF_cells hl p ps hr m hm
  intro e he hn hnM v
  obtain ⟨a, ha, rfl⟩ := List.mem_map.1 he
  obtain ⟨q, hq, hk, hv⟩ := (f2 a.1 a.2).1 ha
  set ms := sameCell (cellMul leaf) q (p :: ps) with hms
  have hsub : ∀ x ∈ ms, x ∈ p :: ps := fun x hx => List.mem_of_mem_filter hx
  obtain ⟨v1, _, _, _⟩ := leafOfF_values ms
  have en : (finishLeafF minPoints a.2).n = ms.length := by
    show a.2.n = _
    rw [hv, v1]
  have hn' : minPoints ≤ (finishLeafF minPoints a.2).n := hn
  have hnM' : ((finishLeafF minPoints a.2).n : ℚ) * M ≤ 2 ^ 21 := hnM
  show (((finishLeafF minPoints a.2).n : ℚ) - 1) / (2 * ((finishLeafF minPoints a.2).n : ℚ) ^ 2) * _ ≤
    quadForm (lowerHalf (finishLeafF minPoints a.2).cov) v
  rw [en] at hn' hnM' ⊢
  have ec : (finishLeafF minPoints a.2).cov = ndtCovF (leafOfF ms) := by
    show (if _ then _ else _) = _
    rw [hv, if_pos (by rw [v1]; exact hn')]
  rw [ec]
  have := lowerF_quad hM ms (by omega) (fun x hx => hs x (hsub x hx)) (fun x hx => hb x (hsub x hx))
    (by push_cast at hnM'; exact hnM') v
  push_cast
  exact this

theorem single_zpow_mul {x : ℚ} (hx : Single x) (k : ℤ) : toF32 (x * 2 ^ k) = x * 2 ^ k := by
  obtain ⟨m, e, hm, he⟩ := flRound_form 24 (by norm_num) x
  have h1 : x = m * 2 ^ e := by rw [← he]; exact hx.symm
  have := flRound_exact 24 (by norm_num) m (e + k) hm
  unfold toF32
  rw [h1, mul_assoc, ← zpow_add₀ (by norm_num), this]

/-- **C121.** With cells whose side is a power of two (one metre is what the program sets) no rounding takes
place: building and searching both use the exact cell. -/
theorem C121_search_partial (k : ℤ) (x : ℚ) (hx : Single x) :
    cellMul (2 ^ k) x = ⌊x / 2 ^ k⌋ ∧ cellDiv (2 ^ k) x = ⌊x / 2 ^ k⌋ := by
  have e1 : (1 : ℚ) / 2 ^ k = 2 ^ (-k) := by rw [zpow_neg, one_div]
  have e2 : x / 2 ^ k = x * 2 ^ (-k) := by rw [zpow_neg, div_eq_mul_inv]
  constructor
  · unfold cellMul
    have h2 : toF32 ((2 : ℚ) ^ (-k)) = 2 ^ (-k) := flRound_two_pow 24 (by norm_num) _
    rw [e1, h2, single_zpow_mul hx, e2]
  · unfold cellDiv
    rw [e2, single_zpow_mul hx]

/-- C121 fails for other sides: with cells of 3 metres, the point at 14.999999 is put into cell 5 and
searched for in cell 4. -/
theorem C121_search_fails : ∃ x : ℚ, Single x ∧ Single 3 ∧ cellMul 3 x = 5 ∧ cellDiv 3 x = 4 := by
  refine ⟨15728639 / 1048576, ?_, ?_, ?_, ?_⟩
  · show toF32 _ = _; decide +kernel
  · show toF32 _ = _; decide +kernel
  · decide +kernel
  · decide +kernel

/-- A small cloud: six points of one cell and one of another. -/
def smallCloud : List (NVec ℚ) :=
  [![1 / 2, 1 / 4, 0], ![3 / 4, 1 / 2, 0], ![1 / 4, 3 / 4, 0], ![1 / 2, 3 / 4, 0], ![1 / 8, 1 / 2, 1 / 8],
   ![5 / 2, 1 / 2, 0]]

/-- What is asked of a run: it is defined and has these leaves. -/
def ranTo (o : Outcome (Option (NdtBox × List (Int × NdtLeafF)))) (t : List (Int × Int)) : Bool :=
  match o with
  | .ok (some (_, ls)) => decide (ls.map (fun e => (e.1, e.2.n)) = t)
  | _ => false

theorem ranTo_ok {o : Outcome (Option (NdtBox × List (Int × NdtLeafF)))} {t : List (Int × Int)} (h : ranTo o t = true) :
    ∃ b ls, o = .ok (some (b, ls)) ∧ ls.map (fun e => (e.1, e.2.n)) = t := by
  unfold ranTo at h
  split at h
  · exact ⟨_, _, rfl, of_decide_eq_true h⟩
  · cases h

/-- The hypotheses of `C121_cells_partial` and `C121_definite` hold of this cloud, with one metre cells and
cells of at least six points. -/
example : ∃ b ls, ndtFilterF 1 6 ![1 / 4, 1 / 4, 1 / 4] smallCloud = .ok (some (b, ls)) ∧
    ls.map (fun e => (e.1, e.2.n)) = [(0, 6), (2, 1)] := by
  apply ranTo_ok
  decide +kernel

example : (∀ q ∈ ![1 / 4, 1 / 4, 1 / 4] :: smallCloud, ∀ i, Single (q i)) ∧
    (∀ q ∈ ![1 / 4, 1 / 4, 1 / 4] :: smallCloud, ∀ i, |q i| ≤ 2 ^ 22 * 1 ∧ |q i| ≤ 100) := by
  have h1 : ∀ q ∈ ![1 / 4, 1 / 4, 1 / 4] :: smallCloud, ∀ i, toF32 (q i) = q i := by decide +kernel
  have h2 : ∀ q ∈ ![1 / 4, 1 / 4, 1 / 4] :: smallCloud, ∀ i, |q i| ≤ (2 : ℚ) ^ 22 * 1 ∧ |q i| ≤ 100 := by
    decide +kernel
  exact ⟨h1, h2⟩

theorem coord_bounds (i : Fin 3) (p : NVec ℚ) (ps : List (NVec ℚ)) (R : ℚ) (h : ∀ q ∈ p :: ps, |q i| ≤ R) :
    |coordMin i p ps| ≤ R ∧ |coordMax i p ps| ≤ R := by
  have hmin : ∀ (ps : List (NVec ℚ)) (a : ℚ), |a| ≤ R → (∀ q ∈ ps, |q i| ≤ R) →
      |ps.foldl (fun m q => min m (q i)) a| ≤ R ∧ |ps.foldl (fun m q => max m (q i)) a| ≤ R := by
    intro ps
    induction ps with
    | nil => intro a ha _; exact ⟨ha, ha⟩
    | cons q ps ih =>
      intro a ha hq
      have hq0 := hq q (by simp)
      refine ⟨(ih (min a (q i)) ?_ (fun x hx => hq x (by simp [hx]))).1,
        (ih (max a (q i)) ?_ (fun x hx => hq x (by simp [hx]))).2⟩
      · rcases min_choice a (q i) with e | e <;> rw [e] <;> assumption
      · rcases max_choice a (q i) with e | e <;> rw [e] <;> assumption
  exact hmin ps (p i) (h p (by simp)) (fun q hq => h q (by simp [hq]))

/-- The extent along an axis is about the number of cells. -/
theorem extentF_ok {leaf : ℚ} (hl : 0 < leaf) (p : NVec ℚ) (ps : List (NVec ℚ)) (i : Fin 3)
    (hr : ∀ q ∈ p :: ps, |q i| ≤ 2 ^ 22 * leaf) :
    ∃ d, ndtExtentF leaf i p ps = .ok d ∧ 1 ≤ d ∧ d ≤ (ndtBoxF leaf p ps).div i + 8 := by
  obtain ⟨a1, a2⟩ := coord_bounds i p ps _ hr
  have hle : coordMin i p ps ≤ coordMax i p ps := by
    have hm := ndtFoldl_min_le (fun q => q i) ps (p i)
    have hM := ndtFoldl_max_ge (fun q => q i) ps (p i)
    exact le_trans hm.1 hM.1
  have n1 := cellMul_near hl a1
  have n2 := cellMul_near hl a2
  obtain ⟨D, hD⟩ : ∃ D, D = coordMax i p ps - coordMin i p ps := ⟨_, rfl⟩
  have hD0 : 0 ≤ D := by rw [hD]; linarith
  have hD1 : D / leaf ≤ 2 ^ 23 := by
    rw [div_le_iff₀ hl, hD]
    have := (abs_le.1 a1).1; have := (abs_le.1 a2).2
    linarith
  have hD2 : 0 ≤ D / leaf := div_nonneg hD0 hl.le
  have e0 := flRound_err 24 D
  change |toF32 D - D| ≤ _ at e0
  rw [abs_of_nonneg hD0] at e0
  have t0 : 0 ≤ toF32 D := flRound_nonneg 24 hD0
  have t1 : toF32 D / leaf ≤ D / leaf + (D / leaf) / 2 ^ 24 := by
    have := (abs_le.1 e0).2
    have h1 : toF32 D ≤ D + D / 2 ^ 24 := by linarith
    have h2 := div_le_div_of_nonneg_right h1 hl.le
    have h3 : (D + D / 2 ^ 24) / leaf = D / leaf + D / leaf / 2 ^ 24 := by ring
    rw [h3] at h2; exact h2
  have t2 : 0 ≤ toF32 D / leaf := div_nonneg t0 hl.le
  have e1 := cellMul_err (x := toF32 D) hl
  rw [abs_of_nonneg t2] at e1
  have u1 : toF32 (toF32 D * toF32 (1 / leaf)) ≤ D / leaf + 4 := by
    have := (abs_le.1 e1).2
    linarith
  have u0 : 0 ≤ toF32 (toF32 D * toF32 (1 / leaf)) :=
    flRound_nonneg 24 (mul_nonneg t0 (flRound_nonneg 24 (by positivity)))
  obtain ⟨z, hz⟩ : ∃ z, z = ⌊toF32 (toF32 D * toF32 (1 / leaf))⌋ := ⟨_, rfl⟩
  have z0 : 0 ≤ z := by rw [hz, Int.floor_nonneg]; exact u0
  have zle : (z : ℚ) ≤ D / leaf + 4 := by
    rw [hz]; exact le_trans (Int.floor_le _) u1
  have z1 : z ≤ 8388612 := by
    have : (z : ℚ) ≤ ((8388612 : ℤ) : ℚ) := by push_cast; linarith
    exact_mod_cast this
  have hdiv : D / leaf ≤ (((ndtBoxF leaf p ps).div i + 2 : ℤ) : ℚ) := by
    have g1 : coordMax i p ps / leaf < ⌊coordMax i p ps / leaf⌋ + 1 := Int.lt_floor_add_one _
    have g2 : (⌊coordMin i p ps / leaf⌋ : ℚ) ≤ coordMin i p ps / leaf := Int.floor_le _
    have g3 : ⌊coordMax i p ps / leaf⌋ - 1 ≤ cellMul leaf (coordMax i p ps) := by
      have := (abs_le.1 n2).1; omega
    have g4 : cellMul leaf (coordMin i p ps) ≤ ⌊coordMin i p ps / leaf⌋ + 1 := by
      have := (abs_le.1 n1).2; omega
    have g5 : ⌊coordMax i p ps / leaf⌋ - ⌊coordMin i p ps / leaf⌋ + 1 ≤ (ndtBoxF leaf p ps).div i + 2 := by
      show _ ≤ cellMul leaf (coordMax i p ps) - cellMul leaf (coordMin i p ps) + 1 + 2
      omega
    have g6 : ((⌊coordMax i p ps / leaf⌋ - ⌊coordMin i p ps / leaf⌋ + 1 : ℤ) : ℚ) ≤
      (((ndtBoxF leaf p ps).div i + 2 : ℤ) : ℚ) := by exact_mod_cast g5
    refine le_trans ?_ g6
    rw [hD, sub_div]
    push_cast
    linarith
  refine ⟨z + 1, ?_, by omega, ?_⟩
  · unfold ndtExtentF
    rw [← hD, ← hz, ndtLong_of (z := z) (by omega) (by omega), Outcome.bind_ok, ndtLong_of (by omega) (by omega)]
  · have : (z : ℚ) ≤ (((ndtBoxF leaf p ps).div i + 6 : ℤ) : ℚ) := by
      push_cast at hdiv ⊢; linarith
    have : z ≤ (ndtBoxF leaf p ps).div i + 6 := by exact_mod_cast this
    omega

/-- **C121.** The grid is made, or refused, without overflow if the points are within `2 ^ 22` cells of the
origin and the cells of the box can be numbered. -/
theorem C121_defined_partial (leaf : ℚ) (minPoints : Int) (p : NVec ℚ) (ps : List (NVec ℚ)) (hl : 0 < leaf)
    (hr : ∀ q ∈ p :: ps, ∀ i, |q i| ≤ 2 ^ 22 * leaf) (hf : Fits (ndtBoxF leaf p ps)) :
    ∃ r, ndtFilterF leaf minPoints p ps = .ok r := by
  obtain ⟨d0, k0, l0, u0⟩ := extentF_ok hl p ps 0 (fun q hq => hr q hq 0)
  obtain ⟨d1, k1, l1, u1⟩ := extentF_ok hl p ps 1 (fun q hq => hr q hq 1)
  obtain ⟨d2, k2, l2, u2⟩ := extentF_ok hl p ps 2 (fun q hq => hr q hq 2)
  have hlo : ∀ i, (ndtBoxF leaf p ps).lo i ≤ (ndtBoxF leaf p ps).hi i := fun i =>
    (boxF_holds hl p ps p (by simp) i).1.trans (boxF_holds hl p ps p (by simp) i).2
  obtain ⟨m, hm⟩ := firstPassF_ok leaf (ndtBoxF leaf p ps) (p :: ps)
    (fun q hq => leafIndexF_fits _ hf q (fun i => (boxF_lo_small hl p ps hr i).1)
      (fun i => cellMul_small hl (hr q hq i)) (boxF_holds hl p ps q hq)) []
  have b0 := hlo 0; have b1 := hlo 1; have b2 := hlo 2
  have e0 : 1 ≤ (ndtBoxF leaf p ps).div 0 := by unfold NdtBox.div; omega
  have e1 : 1 ≤ (ndtBoxF leaf p ps).div 1 := by unfold NdtBox.div; omega
  have e2 : 1 ≤ (ndtBoxF leaf p ps).div 2 := by unfold NdtBox.div; omega
  obtain ⟨_, _, r3, r4, r5, r6, _⟩ := radix_bounds (d0 := (ndtBoxF leaf p ps).div 0)
    (d1 := (ndtBoxF leaf p ps).div 1) (d2 := (ndtBoxF leaf p ps).div 2) (i0 := 0) (i1 := 0) (i2 := 0)
    (by omega) (by omega) (by omega)
  have hf2 := hf.2
  have a0 := hf.1 0; have a1 := hf.1 1; have a2 := hf.1 2
  generalize hb : ndtBoxF leaf p ps = b at *
  have c0 : d0 ≤ 9 * b.div 0 := by omega
  have c1 : d1 ≤ 9 * b.div 1 := by omega
  have c2 : d2 ≤ 9 * b.div 2 := by omega
  have p1 : d0 * d1 ≤ 81 * (b.div 0 * b.div 1) := by
    calc d0 * d1 ≤ (9 * b.div 0) * (9 * b.div 1) := mul_le_mul c0 c1 (by omega) (by omega)
      _ = _ := by ring
  have p0 : 1 ≤ d0 * d1 := by nlinarith
  have p2 : d0 * d1 * d2 ≤ 729 * (b.div 0 * b.div 1 * b.div 2) := by
    calc d0 * d1 * d2 ≤ (81 * (b.div 0 * b.div 1)) * (9 * b.div 2) :=
          mul_le_mul p1 c2 (by omega) (by nlinarith)
      _ = _ := by ring
  have p3 : 1 ≤ d0 * d1 * d2 := by nlinarith
  have hd : 1 ≤ b.div 0 * b.div 1 := by nlinarith
  unfold ndtFilterF
  rw [k0, Outcome.bind_ok, k1, Outcome.bind_ok, k2, Outcome.bind_ok,
    ndtLong_of (z := d0 * d1) (by omega) (by omega), Outcome.bind_ok,
    ndtLong_of (z := d0 * d1 * d2) (by omega) (by omega), Outcome.bind_ok]
  split
  · exact ⟨_, rfl⟩
  · dsimp only
    rw [hb, ndtInt_of (z := b.lo 0) (by omega) (by omega), Outcome.bind_ok,
      ndtInt_of (z := b.hi 0) (by omega) (by omega), Outcome.bind_ok,
      ndtInt_of (z := b.lo 1) (by omega) (by omega), Outcome.bind_ok,
      ndtInt_of (z := b.hi 1) (by omega) (by omega), Outcome.bind_ok,
      ndtInt_of (z := b.lo 2) (by omega) (by omega), Outcome.bind_ok,
      ndtInt_of (z := b.hi 2) (by omega) (by omega), Outcome.bind_ok,
      ndtInt_of (z := b.div 0 * b.div 1) (by omega) (by omega), Outcome.bind_ok,
      hm, Outcome.bind_ok]
    exact ⟨_, rfl⟩

/-- C121 fails for the centroids in the search tree: six equal points have a centroid elsewhere, while their
mean is right. -/
theorem C121_centroid_fails : ∃ q : NVec ℚ, (∀ i, Single (q i)) ∧ ∃ b l,
    ndtFilterF 1 6 q (List.replicate 5 q) = .ok (some (b, [(0, l)])) ∧ l.n = 6 ∧ l.mean 0 = q 0 ∧
      l.centroid 0 < q 0 := by
  have h : (match ndtFilterF 1 6 ![6553601 / 65536, 0, 0] (List.replicate 5 ![6553601 / 65536, 0, 0]) with
    | .ok (some (_, [(k, l)])) => decide (k = 0 ∧ l.n = 6 ∧ l.mean 0 = 6553601 / 65536 ∧
        l.centroid 0 < 6553601 / 65536)
    | _ => false) = true := by decide +kernel
  refine ⟨![6553601 / 65536, 0, 0], ?_, ?_⟩
  · have : ∀ i : Fin 3, toF32 ((![6553601 / 65536, 0, 0] : NVec ℚ) i) = (![6553601 / 65536, 0, 0] : NVec ℚ) i := by
      decide +kernel
    exact this
  · split at h
    · rename_i b k l heq
      obtain ⟨h1, h2, h3, h4⟩ := of_decide_eq_true h
      subst h1
      exact ⟨b, l, heq, h2, h3, h4⟩
    · cases h

/-- C121 fails for very wide clouds: the second and third of these points, more than `2 ^ 24` cells from the
first, are in different cells, but share a leaf. -/
theorem C121_wide_fails : ∃ b ls,
    ndtFilterF 1 6 ![-1, 0, 0] [![16777215, 0, 0], ![16777216, 0, 0]] = .ok (some (b, ls)) ∧
    ls.map (fun e => (e.1, e.2.n)) = [(0, 1), (16777216, 2)] ∧
    cubeOf (1 : ℚ) ![16777215, 0, 0] ≠ cubeOf (1 : ℚ) ![16777216, 0, 0] := by
  obtain ⟨b, ls, h1, h2⟩ := ranTo_ok (o := ndtFilterF 1 6 ![-1, 0, 0] [![16777215, 0, 0], ![16777216, 0, 0]])
    (t := [(0, 1), (16777216, 2)]) (by decide +kernel)
  refine ⟨b, ls, h1, h2, ?_⟩
  intro h
  have := congrFun h 0
  revert this
  unfold cubeOf
  decide +kernel

theorem coordMin_spec (i : Fin 3) (p : NVec ℚ) (ps : List (NVec ℚ)) :
    (∀ q ∈ p :: ps, coordMin i p ps ≤ q i) ∧ ∃ q ∈ p :: ps, q i = coordMin i p ps := by
  unfold coordMin
  induction ps using List.reverseRecOn with
  | nil => simp
  | append_singleton l a ih =>
    obtain ⟨h1, q, hq, hqi⟩ := ih
    rw [List.foldl_append, List.foldl_cons, List.foldl_nil]
    constructor
    · intro x hx
      rw [← List.cons_append, List.mem_append, List.mem_singleton] at hx
      rcases hx with hx | rfl
      · exact (min_le_left _ _).trans (h1 x hx)
      · exact min_le_right _ _
    · rcases min_choice (l.foldl (fun m q => min m (q i)) (p i)) (a i) with hc | hc
      · exact ⟨q, by rw [← List.cons_append]; exact List.mem_append_left _ hq, by rw [hc]; exact hqi⟩
      · exact ⟨a, by simp, hc.symm⟩

theorem coordMax_spec (i : Fin 3) (p : NVec ℚ) (ps : List (NVec ℚ)) :
    (∀ q ∈ p :: ps, q i ≤ coordMax i p ps) ∧ ∃ q ∈ p :: ps, q i = coordMax i p ps := by
  unfold coordMax
  induction ps using List.reverseRecOn with
  | nil => simp
  | append_singleton l a ih =>
    obtain ⟨h1, q, hq, hqi⟩ := ih
    rw [List.foldl_append, List.foldl_cons, List.foldl_nil]
    constructor
    · intro x hx
      rw [← List.cons_append, List.mem_append, List.mem_singleton] at hx
      rcases hx with hx | rfl
      · exact (h1 x hx).trans (le_max_left _ _)
      · exact le_max_right _ _
    · rcases max_choice (l.foldl (fun m q => max m (q i)) (p i)) (a i) with hc | hc
      · exact ⟨q, by rw [← List.cons_append]; exact List.mem_append_left _ hq, by rw [hc]; exact hqi⟩
      · exact ⟨a, by simp, hc.symm⟩

/-- **C121.** A cloud is refused exactly when the product of its three extents in cells, as the program
computes them in `float`, is beyond the largest 32-bit number. -/
theorem C121_refused (leaf : ℚ) (minPoints : Int) (p : NVec ℚ) (ps : List (NVec ℚ)) (lo hi : Fin 3 → ℚ)
    (hlo : ∀ i, (∀ q ∈ p :: ps, lo i ≤ q i) ∧ ∃ q ∈ p :: ps, q i = lo i)
    (hhi : ∀ i, (∀ q ∈ p :: ps, q i ≤ hi i) ∧ ∃ q ∈ p :: ps, q i = hi i)
    (r : Option (NdtBox × List (Int × NdtLeafF))) (h : ndtFilterF leaf minPoints p ps = .ok r) :
    r = none ↔ 2 ^ 31 - 1 < ∏ i, (⌊toF32 (toF32 (hi i - lo i) * toF32 (1 / leaf))⌋ + 1) := by
  have e : ∀ i, coordMin i p ps = lo i ∧ coordMax i p ps = hi i := by
    intro i
    obtain ⟨a, ⟨q, hq, hqi⟩⟩ := hlo i
    obtain ⟨b, ⟨q', hq', hqi'⟩⟩ := hhi i
    obtain ⟨c1, m1⟩ := coordMin_spec i p ps
    obtain ⟨c2, m2⟩ := coordMax_spec i p ps
    constructor
    · obtain ⟨z, hz, hz'⟩ := m1
      exact le_antisymm (hqi ▸ c1 q hq) (hz' ▸ a z hz)
    · obtain ⟨z, hz, hz'⟩ := m2
      exact le_antisymm (hz' ▸ b z hz) (hqi' ▸ c2 q' hq')
  unfold ndtFilterF at h
  simp only [Outcome.bind_eq_ok] at h
  obtain ⟨d0, h0, d1, h1, d2, h2, d3, h3, d, h4, h⟩ := h
  have ext : ∀ i d, ndtExtentF leaf i p ps = .ok d →
      d = ⌊toF32 (toF32 (hi i - lo i) * toF32 (1 / leaf))⌋ + 1 := by
    intro i d hd
    unfold ndtExtentF at hd
    simp only [Outcome.bind_eq_ok] at hd
    obtain ⟨z, hz, hd⟩ := hd
    rw [ndtLong_ok hd, ndtLong_ok hz, (e i).1, (e i).2]
  rw [Fin.prod_univ_three, ← ext 0 d0 h0, ← ext 1 d1 h1, ← ext 2 d2 h2]
  have e3 := ndtLong_ok h3
  have e4 := ndtLong_ok h4
  subst e3
  subst e4
  split at h
  · rename_i hd
    have h : Outcome.ok _ = Outcome.ok _ := h
    injection h with h
    exact ⟨fun _ => by omega, fun _ => h.symm⟩
  · rename_i hd
    simp only [Outcome.bind_eq_ok] at h
    obtain ⟨_, _, _, _, _, _, _, _, _, _, _, _, _, _, m, hm, h⟩ := h
    have h : Outcome.ok _ = Outcome.ok _ := h
    injection h with h
    constructor
    · intro h'; rw [h'] at h; cases h
    · intro h'; exact absurd h' (by omega)

/-- Clouds on both sides of the limit: 2048 × 1024 × 1024 cells are refused, 2048 × 1024 × 1023 are not. -/
example : ndtFilterF 1 6 ![0, 0, 0] [![2047, 1023, 1023]] = .ok none ∧
    ∃ b ls, ndtFilterF 1 6 ![0, 0, 0] [![2047, 1023, 1022]] = .ok (some (b, ls)) := by
  constructor
  · have h : (match ndtFilterF 1 6 ![0, 0, 0] [![2047, 1023, 1023]] with
      | .ok none => true
      | _ => false) = true := by decide +kernel
    split at h
    · assumption
    · cases h
  · have h : (match ndtFilterF 1 6 ![0, 0, 0] [![2047, 1023, 1022]] with
      | .ok (some _) => true
      | _ => false) = true := by decide +kernel
    split at h
    · rename_i r heq
      exact ⟨r.1, r.2, heq⟩
    · cases h

/-- C121 fails for stray points: one point two million metres away in all directions overflows the 64-bit
product that was to detect clouds too large for the grid. -/
theorem C121_far_fails : ndtFilterF 1 6 ![0, 0, 0] [![2097152, 2097152, 2097152]] = .ub := by
  have h : (match ndtFilterF 1 6 ![0, 0, 0] [![2097152, 2097152, 2097152]] with
    | .ub => true
    | _ => false) = true := by decide +kernel
  split at h
  · assumption
  · cases h

end Verif
