import Verif.Proofs.NdtGrid
import Verif.Proofs.Ground2Cells
import Mathlib.LinearAlgebra.Matrix.NonsingularInverse
import Mathlib.Tactic.FinCases
import Mathlib.Tactic.NormNum
/-! Property theorems C65: the cells of the normal distributions transform. -/
namespace Verif
open Spec

section
variable {K : Type} [Field K] [LinearOrder K] [IsStrictOrderedRing K] [FloorRing K]

/-- What `filter` leaves behind when the grid is not too large. -/
theorem filter_result (c : NdtGridConfig K) (num : NdtNumerics K) (g g' : NdtGrid K) (p : NVec K) (ps : List (NVec K))
    (hs : ndtExtent c 0 p ps * ndtExtent c 1 p ps * ndtExtent c 2 p ps ≤ 2147483647)
    (h : g.filter c num p ps = .ok g') :
    ∃ m, ndtFirstPass c (ndtBox c p ps) (p :: ps) [] = .ok m ∧
      g'.leaves = m.map (fun e => (e.1, finishLeaf c num e.2)) ∧
      g'.indices = (m.filter (fun e => decide (c.minPoints ≤ e.2.n))).map (·.1) ∧
      (m.filter (fun e => decide (c.minPoints ≤ e.2.n)) ≠ [] → g'.tree = some
        ((m.filter (fun e => decide (c.minPoints ≤ e.2.n))).map (fun e => fun i => e.2.mean i / (e.2.n : K)))) ∧
      (m.filter (fun e => decide (c.minPoints ≤ e.2.n)) = [] → g'.tree = g.tree) := by
  unfold NdtGrid.filter at h
  rw [if_neg (not_lt.2 hs)] at h
  simp only [Outcome.bind_eq_ok] at h
  obtain ⟨_, _, _, _, _, _, _, _, _, _, _, _, _, _, m, hm, h⟩ := h
  have h : Outcome.ok _ = Outcome.ok g' := h
  injection h with h
  subst h
  refine ⟨m, hm, rfl, rfl, ?_, ?_⟩
  · intro hne
    show (if _ then _ else _) = _
    rw [if_neg]
    simpa using hne
  · intro he
    show (if _ then _ else _) = _
    rw [if_pos]
    rw [he]; rfl

/-- The leaves before the second pass, by cube. -/
theorem first_pass_cells (c : NdtGridConfig K) (hl : 0 < c.leaf) (p : NVec K) (ps : List (NVec K))
    (m : List (Int × NdtLeaf K)) (hm : ndtFirstPass c (ndtBox c p ps) (p :: ps) [] = .ok m) :
    KeysUp m ∧ ∀ k l, (k, l) ∈ m ↔ ∃ q ∈ p :: ps, k = mixedRadix (ndtBox c p ps) (cubeOf c.leaf q) ∧
      l = leafOf (inCube c.leaf (cubeOf c.leaf q) (p :: ps)) := by
  obtain ⟨h1, h2, h3⟩ := firstPass_lookup c (ndtBox c p ps) (p :: ps) [] [] m (by simp [KeysUp])
    (by simp) hm
  refine ⟨h1, ?_⟩
  simp only [List.nil_append] at h3
  have hin : ∀ q ∈ p :: ps, ∀ i, (ndtBox c p ps).lo i ≤ cubeOf c.leaf q i ∧ cubeOf c.leaf q i ≤ (ndtBox c p ps).hi i := by
    intro q hq i
    rw [← floor_cube]
    exact ndtBox_holds c hl p ps q hq i
  have hidx : ∀ q ∈ p :: ps, leafIndex c (ndtBox c p ps) q = .ok (mixedRadix (ndtBox c p ps) (cubeOf c.leaf q)) := by
    intro q hq
    obtain ⟨k, hk⟩ := h2 q hq
    rw [hk, leafIndex_ok _ _ _ _ hk]
  have hfil : ∀ q ∈ p :: ps, (p :: ps).filter (fun q' => decide (leafIndex c (ndtBox c p ps) q' =
      .ok (mixedRadix (ndtBox c p ps) (cubeOf c.leaf q)))) = inCube c.leaf (cubeOf c.leaf q) (p :: ps) := by
    intro q hq
    unfold inCube
    apply List.filter_congr
    intro q' hq'
    rw [hidx q' hq']
    apply decide_eq_decide.2
    constructor
    · intro h
      injection h with h
      exact mixedRadix_inj _ _ _ (hin q' hq') (hin q hq) h
    · intro h; rw [h]
  intro k l
  rw [← lookup_mem m h1, h3]
  constructor
  · intro h
    by_cases hex : ∃ q ∈ p :: ps, leafIndex c (ndtBox c p ps) q = .ok k
    · rw [if_pos hex] at h
      obtain ⟨q, hq, hk⟩ := hex
      rw [hidx q hq] at hk
      injection hk with hk
      injection h with h
      refine ⟨q, hq, hk.symm, ?_⟩
      rw [← h, ← hfil q hq, hk]
    · rw [if_neg hex] at h; cases h
  · rintro ⟨q, hq, hk, hl'⟩
    rw [if_pos ⟨q, hq, by rw [hk]; exact hidx q hq⟩, hk, hfil q hq, hl']

/-- Raised eigenvalues. -/
theorem raise_ok (mult : K) (hm0 : 0 ≤ mult) (hm1 : mult ≤ 1) (e e' : NVec K) (hpos : 0 < e 2)
    (hord : e 0 ≤ e 1 ∧ e 1 ≤ e 2) (h : e' = (raise mult e).getD e) :
    e' 2 = e 2 ∧ ∀ i, e i ≤ e' i ∧ mult * e' 2 ≤ e' i ∧ (e' i = e i ∨ e' i = mult * e 2) := by
  have hle : mult * e 2 ≤ e 2 := by nlinarith
  unfold raise at h
  dsimp only at h
  by_cases h0 : e 0 < mult * e 2
  · rw [if_pos h0] at h
    have v0 : e' 0 = mult * e 2 := by rw [h]; rfl
    have v1 : e' 1 = if e 1 < mult * e 2 then mult * e 2 else e 1 := by rw [h]; rfl
    have v2 : e' 2 = e 2 := by rw [h]; rfl
    refine ⟨v2, ?_⟩
    intro i
    rw [v2]
    match i with
    | 0 => rw [v0]; exact ⟨le_of_lt h0, le_refl _, Or.inr rfl⟩
    | 1 =>
      rw [v1]
      by_cases h1 : e 1 < mult * e 2
      · rw [if_pos h1]; exact ⟨le_of_lt h1, le_refl _, Or.inr rfl⟩
      · rw [if_neg h1]; exact ⟨le_refl _, not_lt.1 h1, Or.inl rfl⟩
    | 2 => rw [v2]; exact ⟨le_refl _, hle, Or.inl rfl⟩
  · rw [if_neg h0] at h
    have : e' = e := h
    rw [this]
    refine ⟨rfl, ?_⟩
    intro i
    have h0' := not_lt.1 h0
    match i with
    | 0 => exact ⟨le_refl _, h0', Or.inl rfl⟩
    | 1 => exact ⟨le_refl _, h0'.trans hord.1, Or.inl rfl⟩
    | 2 => exact ⟨le_refl _, hle, Or.inl rfl⟩

/-- Eigenvalues as values of the quadratic form. -/
theorem eigen_value (A : NMat K) (e : NVec K) (V : NMat K) (h : IsEigen A e V) (k : Fin 3) :
    V 0 k ^ 2 + V 1 k ^ 2 + V 2 k ^ 2 = 1 ∧ e k = ∑ i, ∑ j, V i k * A i j * V j k := by
  have h1 : V 0 k ^ 2 + V 1 k ^ 2 + V 2 k ^ 2 = 1 := by
    have := congrFun (congrFun h.orth k) k
    rw [Matrix.mul_apply, Fin.sum_univ_three, Matrix.one_apply_eq] at this
    simp only [Matrix.transpose_apply] at this
    linear_combination this
  refine ⟨h1, ?_⟩
  have h2 : ∀ i, ∑ j, A i j * V j k = V i k * e k := by
    intro i
    have := congrFun (congrFun h.eig i) k
    rw [Matrix.mul_apply, Matrix.mul_diagonal] at this
    exact this
  have h3 : ∀ i, ∑ j, V i k * A i j * V j k = V i k * (V i k * e k) := by
    intro i
    rw [← h2 i, Finset.mul_sum]
    apply Finset.sum_congr rfl
    intro j _
    ring
  simp only [h3, Fin.sum_univ_three]
  linear_combination (-e k) * h1

/-- The second pass, for a cell with enough points. -/
theorem finish_full (c : NdtGridConfig K) (num : NdtNumerics K) (ms : List (NVec K)) (hmin : 2 ≤ c.minPoints)
    (hn : c.minPoints ≤ ms.length) (hm0 : 0 < c.mult) (hm1 : c.mult ≤ 1)
    (he : IsEigen (cellMatrix ms) (num.eigenvalues (cellMatrix ms)) (num.eigenvectors (cellMatrix ms)))
    (hi : ∀ A : NMat K, IsUnit A.det → A * num.inverse A = 1) :
    let l := finishLeaf c num (leafOf ms)
    let V := num.eigenvectors (cellMatrix ms)
    let e := num.eigenvalues (cellMatrix ms)
    l.n = ms.length ∧ l.mean = meanPoint ms ∧ l.cov * l.icov = 1 ∧
    ∃ e' : NVec K, l.cov * V = V * Matrix.diagonal e' ∧
      (∀ i, 0 < e i ∧ e i ≤ e' i ∧ c.mult * e' 2 ≤ e' i ∧ (e' i = e i ∨ e' i = c.mult * e 2)) := by
  intro l V e
  obtain ⟨h1, h2, h3, _⟩ := leafOf_values ms
  have hlen : 2 ≤ ms.length := by omega
  have hne : ms ≠ [] := by intro h; rw [h] at hlen; simp at hlen
  have hpos : ∀ i, 0 < e i := by
    intro i
    obtain ⟨q1, q2⟩ := eigen_value _ _ _ he i
    show 0 < num.eigenvalues (cellMatrix ms) i
    rw [q2]
    exact cellMatrix_pos ms hlen (fun j => num.eigenvectors (cellMatrix ms) j i) q1
  obtain ⟨r2, r⟩ := raise_ok c.mult (le_of_lt hm0) hm1 e ((raise c.mult e).getD e) (hpos 2) he.ord rfl
  have hVt : V * V.transpose = 1 := mul_eq_one_comm.1 he.orth
  have hVdet : IsUnit V.det := by
    have := congrArg Matrix.det hVt
    rw [Matrix.det_mul, Matrix.det_one] at this
    exact IsUnit.of_mul_eq_one _ this
  have hVi : num.inverse V * V = 1 := mul_eq_one_comm.1 (hi V hVdet)
  -- the covariance of the finished leaf
  have hcov : l.cov * V = V * Matrix.diagonal ((raise c.mult e).getD e) ∧ l.n = ms.length ∧
      l.mean = meanPoint ms ∧ l.icov = num.inverse l.cov := by
    have hmean : (fun i => (leafOf ms).mean i / ((leafOf ms).n : K)) = meanPoint ms := by
      funext i
      rw [h1, h2]
      unfold meanPoint
      push_cast
      rfl
    show (finishLeaf c num (leafOf ms)).cov * V = _ ∧ (finishLeaf c num (leafOf ms)).n = _ ∧
      (finishLeaf c num (leafOf ms)).mean = _ ∧ (finishLeaf c num (leafOf ms)).icov = num.inverse (finishLeaf c num (leafOf ms)).cov
    unfold finishLeaf
    dsimp only
    rw [if_pos (by rw [h1]; exact hn), ndtCov_eq ms hne]
    have p0 := hpos 0; have p1 := hpos 1; have p2 := hpos 2
    rw [if_neg (by
      rintro (h | h | h)
      · exact absurd h (not_lt.2 (le_of_lt p0))
      · exact absurd h (not_lt.2 (le_of_lt p1))
      · exact absurd h (not_le.2 p2))]
    refine ⟨?_, h1, hmean, rfl⟩
    show (match raise c.mult e with | some e' => V * Matrix.diagonal e' * num.inverse V | none => cellMatrix ms) * V = _
    cases hr : raise c.mult e with
    | none => exact he.eig
    | some e' =>
      show V * Matrix.diagonal e' * num.inverse V * V = V * Matrix.diagonal e'
      rw [Matrix.mul_assoc, hVi, Matrix.mul_one]
  obtain ⟨k1, k2, k3, k4⟩ := hcov
  refine ⟨k2, k3, ?_, _, k1, fun i => ⟨hpos i, (r i).1, (r i).2.1, (r i).2.2⟩⟩
  have hdet : IsUnit l.cov.det := by
    have e1 := congrArg Matrix.det k1
    rw [Matrix.det_mul, Matrix.det_mul, mul_comm] at e1
    have e2 := hVdet.mul_left_cancel e1
    rw [e2, Matrix.det_diagonal, isUnit_iff_ne_zero, Finset.prod_ne_zero_iff]
    intro i _
    exact ne_of_gt (lt_of_lt_of_le (hpos i) (r i).1)
  rw [k4]
  exact hi _ hdet

/-- C65, what is proved: the leaves are the occupied cubes of the grid, one for each, with the number
and the mean of the points of the cloud in the cube; a cube with enough points is never rejected, its
covariance is invertible with the stored inverse, and has the eigenvectors of

  `(n - 1) / n * (covariance + identity / n)`

and its eigenvalues, raised to at least `mult` times the largest one. Missing: the matrix is not the
sample covariance (`C65_covariance_fails`). -/
theorem C65_cells_partial (c : NdtGridConfig K) (num : NdtNumerics K) (g g' : NdtGrid K) (p : NVec K)
    (ps : List (NVec K)) (hl : 0 < c.leaf) (hmin : 2 ≤ c.minPoints) (hm0 : 0 < c.mult) (hm1 : c.mult ≤ 1)
    (hs : ndtExtent c 0 p ps * ndtExtent c 1 p ps * ndtExtent c 2 p ps ≤ 2147483647)
    (he : ∀ q ∈ p :: ps, c.minPoints ≤ (inCube c.leaf (cubeOf c.leaf q) (p :: ps)).length →
      let A := cellMatrix (inCube c.leaf (cubeOf c.leaf q) (p :: ps))
      IsEigen A (num.eigenvalues A) (num.eigenvectors A))
    (hi : ∀ A : NMat K, IsUnit A.det → A * num.inverse A = 1)
    (h : g.filter c num p ps = .ok g') :
    ∃ number : (Fin 3 → Int) → Int,
      (∀ q ∈ p :: ps, ∀ q' ∈ p :: ps, number (cubeOf c.leaf q) = number (cubeOf c.leaf q') →
        cubeOf c.leaf q = cubeOf c.leaf q') ∧
      KeysUp g'.leaves ∧
      (∀ e ∈ g'.leaves, ∃ q ∈ p :: ps, e.1 = number (cubeOf c.leaf q)) ∧
      ∀ q ∈ p :: ps, ∃ l, (number (cubeOf c.leaf q), l) ∈ g'.leaves ∧
        let ms := inCube c.leaf (cubeOf c.leaf q) (p :: ps)
        let A := cellMatrix ms
        let V := num.eigenvectors A
        l.n = ms.length ∧ l.mean = meanPoint ms ∧
        (c.minPoints ≤ ms.length → l.cov * l.icov = 1 ∧
          ∃ e' : NVec K, l.cov * V = V * Matrix.diagonal e' ∧
            ∀ i, 0 < e' i ∧ c.mult * e' 2 ≤ e' i ∧
              (e' i = num.eigenvalues A i ∨ e' i = c.mult * num.eigenvalues A 2)) := by
  obtain ⟨m, hm, k1, k2, k3, k4⟩ := filter_result c num g g' p ps hs h
  obtain ⟨f1, f2⟩ := first_pass_cells c hl p ps m hm
  have hin : ∀ q ∈ p :: ps, ∀ i, (ndtBox c p ps).lo i ≤ cubeOf c.leaf q i ∧ cubeOf c.leaf q i ≤ (ndtBox c p ps).hi i := by
    intro q hq i
    rw [← floor_cube]
    exact ndtBox_holds c hl p ps q hq i
  refine ⟨mixedRadix (ndtBox c p ps), ?_, ?_, ?_, ?_⟩
  · intro q hq q' hq' hqq
    exact mixedRadix_inj _ _ _ (hin q hq) (hin q' hq') hqq
  · rw [k1]
    exact List.pairwise_map.2 f1
  · intro e hel
    rw [k1] at hel
    obtain ⟨a, ha, rfl⟩ := List.mem_map.1 hel
    obtain ⟨q, hq, hk, _⟩ := (f2 a.1 a.2).1 ha
    exact ⟨q, hq, hk⟩
  · intro q hq
    have hmem := (f2 _ _).2 ⟨q, hq, rfl, rfl⟩
    refine ⟨finishLeaf c num (leafOf (inCube c.leaf (cubeOf c.leaf q) (p :: ps))), ?_, ?_⟩
    · rw [k1]
      exact List.mem_map.2 ⟨_, hmem, rfl⟩
    · by_cases hfull : c.minPoints ≤ (inCube c.leaf (cubeOf c.leaf q) (p :: ps)).length
      · obtain ⟨r1, r2, r3, e', r4, r5⟩ := finish_full c num _ hmin hfull hm0 hm1 (he q hq hfull) hi
        refine ⟨r1, r2, fun _ => ⟨r3, e', r4, ?_⟩⟩
        intro i
        exact ⟨lt_of_lt_of_le (r5 i).1 (r5 i).2.1, (r5 i).2.2.1, (r5 i).2.2.2⟩
      · obtain ⟨h1, h2, _⟩ := leafOf_values (inCube c.leaf (cubeOf c.leaf q) (p :: ps))
        unfold finishLeaf
        dsimp only
        rw [if_neg (by rw [h1]; exact hfull)]
        refine ⟨h1, ?_, fun hh => absurd hh hfull⟩
        funext i
        show (leafOf _).mean i / ((leafOf _).n : K) = _
        rw [h1, h2]
        unfold meanPoint
        push_cast
        rfl

/-- The grid is made without integer overflow when the numbers of its cells fit. -/
theorem C65_fits_partial (c : NdtGridConfig K) (num : NdtNumerics K) (g : NdtGrid K) (p : NVec K)
    (ps : List (NVec K)) (hl : 0 < c.leaf) (hf : Fits (ndtBox c p ps)) : ∃ g', g.filter c num p ps = .ok g' := by
  unfold NdtGrid.filter
  split
  · exact ⟨_, rfl⟩
  · have hlo : ∀ i, (ndtBox c p ps).lo i ≤ (ndtBox c p ps).hi i := fun i =>
      (ndtBox_holds c hl p ps p (by simp) i).1.trans (ndtBox_holds c hl p ps p (by simp) i).2
    obtain ⟨m, hm⟩ := firstPass_ok c (ndtBox c p ps) (p :: ps)
      (fun q hq => leafIndex_fits c _ hf q (ndtBox_holds c hl p ps q hq)) []
    have a0 := hf.1 0; have a1 := hf.1 1; have a2 := hf.1 2
    have b0 := hlo 0; have b1 := hlo 1; have b2 := hlo 2
    obtain ⟨_, _, r3, _⟩ := radix_bounds (d0 := (ndtBox c p ps).div 0) (d1 := (ndtBox c p ps).div 1)
      (d2 := (ndtBox c p ps).div 2) (i0 := 0) (i1 := 0) (i2 := 0) (by unfold NdtBox.div; omega)
      (by unfold NdtBox.div; omega) (by unfold NdtBox.div; omega)
    have d0 : 0 ≤ (ndtBox c p ps).div 0 := by unfold NdtBox.div; omega
    have d1 : 0 ≤ (ndtBox c p ps).div 1 := by unfold NdtBox.div; omega
    have hd := mul_nonneg d0 d1
    have hf2 := hf.2
    dsimp only
    rw [ndtInt_of (z := (ndtBox c p ps).lo 0) (by omega) (by omega), Outcome.bind_ok,
      ndtInt_of (z := (ndtBox c p ps).hi 0) (by omega) (by omega), Outcome.bind_ok,
      ndtInt_of (z := (ndtBox c p ps).lo 1) (by omega) (by omega), Outcome.bind_ok,
      ndtInt_of (z := (ndtBox c p ps).hi 1) (by omega) (by omega), Outcome.bind_ok,
      ndtInt_of (z := (ndtBox c p ps).lo 2) (by omega) (by omega), Outcome.bind_ok,
      ndtInt_of (z := (ndtBox c p ps).hi 2) (by omega) (by omega), Outcome.bind_ok,
      ndtInt_of (z := (ndtBox c p ps).div 0 * (ndtBox c p ps).div 1) (by omega) (by omega), Outcome.bind_ok,
      hm, Outcome.bind_ok]
    exact ⟨_, rfl⟩

/-- Searching, after a grid with at least one cell of enough points was made: exactly the cells with
enough points whose mean is near the query are found, each once, whatever the object was used for
before. -/
theorem C65_search_partial (c : NdtGridConfig K) (num : NdtNumerics K) (g g' : NdtGrid K) (p : NVec K)
    (ps : List (NVec K)) (hl : 0 < c.leaf) (hmin : 2 ≤ c.minPoints) (hm0 : 0 < c.mult) (hm1 : c.mult ≤ 1)
    (hs : ndtExtent c 0 p ps * ndtExtent c 1 p ps * ndtExtent c 2 p ps ≤ 2147483647)
    (he : ∀ q ∈ p :: ps, c.minPoints ≤ (inCube c.leaf (cubeOf c.leaf q) (p :: ps)).length →
      let A := cellMatrix (inCube c.leaf (cubeOf c.leaf q) (p :: ps))
      IsEigen A (num.eigenvalues A) (num.eigenvectors A))
    (hi : ∀ A : NMat K, IsUnit A.det → A * num.inverse A = 1)
    (h : g.filter c num p ps = .ok g')
    (hex : ∃ q ∈ p :: ps, c.minPoints ≤ (inCube c.leaf (cubeOf c.leaf q) (p :: ps)).length)
    (near : NVec K → Bool) :
    g'.search near = .ok ((g'.leaves.filter (fun e => decide (c.minPoints ≤ e.2.n) && near e.2.mean)).map (·.2)) := by
  obtain ⟨m, hm, k1, k2, k3, k4⟩ := filter_result c num g g' p ps hs h
  obtain ⟨f1, f2⟩ := first_pass_cells c hl p ps m hm
  -- facts about one leaf
  have hfin : ∀ e ∈ m, (finishLeaf c num e.2).n = e.2.n ∧
      (finishLeaf c num e.2).mean = (fun i => e.2.mean i / (e.2.n : K)) := by
    intro e hem
    obtain ⟨q, hq, _, hl'⟩ := (f2 e.1 e.2).1 hem
    rw [hl']
    obtain ⟨h1, h2, _⟩ := leafOf_values (inCube c.leaf (cubeOf c.leaf q) (p :: ps))
    have hmean : (fun i => (leafOf (inCube c.leaf (cubeOf c.leaf q) (p :: ps))).mean i /
        ((leafOf (inCube c.leaf (cubeOf c.leaf q) (p :: ps))).n : K)) = meanPoint (inCube c.leaf (cubeOf c.leaf q) (p :: ps)) := by
      funext i
      rw [h1, h2]
      unfold meanPoint
      push_cast
      rfl
    by_cases hfull : c.minPoints ≤ (inCube c.leaf (cubeOf c.leaf q) (p :: ps)).length
    · obtain ⟨r1, r2, _⟩ := finish_full c num _ hmin hfull hm0 hm1 (he q hq hfull) hi
      exact ⟨by rw [r1, h1], by rw [r2, hmean]⟩
    · unfold finishLeaf
      dsimp only
      rw [if_neg (by rw [h1]; exact hfull)]
      exact ⟨rfl, rfl⟩
  have hne : m.filter (fun e => decide (c.minPoints ≤ e.2.n)) ≠ [] := by
    obtain ⟨q, hq, hfull⟩ := hex
    have hmem := (f2 _ _).2 ⟨q, hq, rfl, rfl⟩
    intro h0
    rw [List.filter_eq_nil_iff] at h0
    apply h0 _ hmem
    have h1 := (leafOf_values (inCube c.leaf (cubeOf c.leaf q) (p :: ps))).1
    simp only [decide_eq_true_eq]
    rw [h1]; exact hfull
  -- the right-hand side in terms of the first pass
  have hrhs : (g'.leaves.filter (fun e => decide (c.minPoints ≤ e.2.n) && near e.2.mean)).map (·.2) =
      ((m.filter (fun e => decide (c.minPoints ≤ e.2.n))).filter (fun e => near (fun i => e.2.mean i / (e.2.n : K)))).map
        (fun e => finishLeaf c num e.2) := by
    rw [k1, List.filter_map, List.map_map, List.filter_filter]
    have : m.filter ((fun e : Int × NdtLeaf K => decide (c.minPoints ≤ e.2.n) && near e.2.mean) ∘
        (fun e => (e.1, finishLeaf c num e.2))) =
        m.filter (fun e => near (fun i => e.2.mean i / (e.2.n : K)) && decide (c.minPoints ≤ e.2.n)) := by
      apply List.filter_congr
      intro e hem
      obtain ⟨q1, q2⟩ := hfin e hem
      simp only [Function.comp]
      rw [q1, q2, Bool.and_comm]
    rw [this]
    rfl
  rw [hrhs]
  generalize hF : m.filter (fun e => decide (c.minPoints ≤ e.2.n)) = F at *
  have hFm : ∀ e ∈ F, e ∈ m := by
    intro e he'
    rw [← hF] at he'
    exact List.mem_of_mem_filter he'
  unfold NdtGrid.search
  rw [k3 hne]
  dsimp only
  rw [k2, List.zipIdx_map, List.filter_map, List.mapM_map]
  have key := outcome_mapM_ok (f := (fun e : NVec K × Nat => (match (F.map (·.1))[e.2]? with
      | none => Outcome.ub
      | some k => match g'.leaves.lookup k with
        | none => Outcome.ub
        | some l => Outcome.ok l)) ∘ Prod.map (fun e : Int × NdtLeaf K => fun i => e.2.mean i / (e.2.n : K)) id)
    (g := fun e : (Int × NdtLeaf K) × Nat => finishLeaf c num e.1.2)
    (F.zipIdx.filter ((fun e => near e.1) ∘ Prod.map (fun e : Int × NdtLeaf K => fun i => e.2.mean i / (e.2.n : K)) id)) ?_
  · refine key.trans ?_
    congr 1
    have e1 : (F.zipIdx.filter ((fun e : NVec K × Nat => near e.1) ∘ Prod.map (fun e : Int × NdtLeaf K => fun i => e.2.mean i / (e.2.n : K)) id)).map
        (fun e : (Int × NdtLeaf K) × Nat => finishLeaf c num e.1.2) =
        ((F.zipIdx.filter ((fun e => near (fun i => e.2.mean i / (e.2.n : K))) ∘ Prod.fst)).map Prod.fst).map
          (fun e : Int × NdtLeaf K => finishLeaf c num e.2) := by
      rw [List.map_map]; rfl
    rw [e1, ← List.filter_map, List.zipIdx_map_fst]
  · intro e hem
    have hz := List.mem_of_mem_filter hem
    obtain ⟨a, i⟩ := e
    have hget : F[i]? = some a := List.mem_zipIdx_iff_getElem?.1 hz
    simp only [Function.comp, Prod.map, id, List.getElem?_map, hget, Option.map_some]
    have hup : KeysUp g'.leaves := by rw [k1]; exact List.pairwise_map.2 f1
    have hlook : g'.leaves.lookup a.1 = some (finishLeaf c num a.2) := by
      rw [lookup_mem _ hup, k1]
      exact List.mem_map.2 ⟨a, hFm a (List.mem_of_getElem? hget), rfl⟩
    rw [hlook]

/-- C65 is false for a target without a cell of enough points: the tree of the target before it is
still searched, and the answer is looked up in an empty list. -/
theorem C65_sparse_fails (c : NdtGridConfig K) (num : NdtNumerics K) (g g' : NdtGrid K) (p : NVec K)
    (ps : List (NVec K)) (cs : List (NVec K)) (ht : g.tree = some cs) (near : NVec K → Bool)
    (hnear : ∃ q ∈ cs, near q = true) (hl : 0 < c.leaf)
    (hs : ndtExtent c 0 p ps * ndtExtent c 1 p ps * ndtExtent c 2 p ps ≤ 2147483647)
    (hsparse : ∀ q ∈ p :: ps, ((inCube c.leaf (cubeOf c.leaf q) (p :: ps)).length : Int) < c.minPoints)
    (h : g.filter c num p ps = .ok g') : g'.search near = .ub := by
  obtain ⟨m, hm, k1, k2, k3, k4⟩ := filter_result c num g g' p ps hs h
  obtain ⟨f1, f2⟩ := first_pass_cells c hl p ps m hm
  have hnil : m.filter (fun e => decide (c.minPoints ≤ e.2.n)) = [] := by
    rw [List.filter_eq_nil_iff]
    intro e hem
    obtain ⟨q, hq, _, hl'⟩ := (f2 e.1 e.2).1 hem
    have := hsparse q hq
    rw [hl', (leafOf_values _).1]
    simp only [decide_eq_true_eq, not_le]
    exact this
  rw [hnil] at k2
  unfold NdtGrid.search
  rw [k4 hnil, ht]
  dsimp only
  rw [k2]
  obtain ⟨q, hq, hqn⟩ := hnear
  cases hz : cs.zipIdx.filter (fun e => near e.1) with
  | nil =>
    exfalso
    rw [List.filter_eq_nil_iff] at hz
    obtain ⟨i, hi⟩ := List.getElem?_of_mem hq
    exact hz (q, i) (List.mem_zipIdx_iff_getElem?.2 hi) hqn
  | cons a rest =>
    rw [List.mapM_cons]
    rfl

/-- The same with a target whose grid would have too many cells. -/
theorem C65_too_fine_fails (c : NdtGridConfig K) (num : NdtNumerics K) (g g' : NdtGrid K) (p : NVec K)
    (ps : List (NVec K)) (cs : List (NVec K)) (ht : g.tree = some cs) (near : NVec K → Bool)
    (hnear : ∃ q ∈ cs, near q = true)
    (hs : 2147483647 < ndtExtent c 0 p ps * ndtExtent c 1 p ps * ndtExtent c 2 p ps)
    (h : g.filter c num p ps = .ok g') : g'.leaves = g.leaves ∧ g'.search near = .ub := by
  unfold NdtGrid.filter at h
  rw [if_pos hs] at h
  injection h with h
  subst h
  refine ⟨rfl, ?_⟩
  unfold NdtGrid.search
  rw [show ({ g with indices := [] } : NdtGrid K).tree = some cs from ht]
  dsimp only
  obtain ⟨q, hq, hqn⟩ := hnear
  cases hz : cs.zipIdx.filter (fun e => near e.1) with
  | nil =>
    exfalso
    rw [List.filter_eq_nil_iff] at hz
    obtain ⟨i, hi⟩ := List.getElem?_of_mem hq
    exact hz (q, i) (List.mem_zipIdx_iff_getElem?.2 hi) hqn
  | cons a rest =>
    rw [List.mapM_cons]
    rfl

/-- The variance of a cell across a plane that all its points lie in: the code has `(n - 1) / n²`, the
points have none. -/
theorem C65_flat_fails (ms : List (NVec K)) (hn : 2 ≤ ms.length) (z : K) (hz : ∀ p ∈ ms, p 2 = z) :
    ndtCov (leafOf ms) 2 2 = ((ms.length : K) - 1) / (ms.length : K) ^ 2 ∧ sampleCov ms 2 2 = 0 := by
  have hne : ms ≠ [] := by intro h; rw [h] at hn; simp at hn
  have hn0 : (ms.length : K) ≠ 0 := by exact_mod_cast (by omega : ms.length ≠ 0)
  have hmap : ∀ f : NVec K → K, (∀ p ∈ ms, f p = f (fun _ => z)) → (ms.map f).sum = ms.length * f (fun _ => z) := by
    intro f hf
    rw [List.map_congr_left (g := fun _ => f (fun _ => z)) hf]
    simp
  have hmean : meanPoint ms 2 = z := by
    unfold meanPoint
    rw [hmap (fun p => p 2) (fun p hp => hz p hp)]
    field_simp
  have hsc : scatter ms 2 2 = 0 := by
    unfold scatter
    rw [hmap (fun p => (p 2 - meanPoint ms 2) * (p 2 - meanPoint ms 2)) (fun p hp => by simp only [hz p hp])]
    simp only [hmean, sub_self, mul_zero]
  constructor
  · rw [ndtCov_eq ms hne]
    unfold cellMatrix populationCov
    rw [hsc, Matrix.one_apply_eq]
    field_simp
    ring
  · unfold sampleCov
    rw [hsc, zero_div]

end

/-! ### concrete clouds -/

/-- Settings of the matcher: cells of one metre, six points, one hundredth. -/
def ndtDefault : NdtGridConfig ℚ := ⟨1, 6, 1 / 100⟩

/-- Six points of a horizontal surface in one cell. -/
def flatCell : List (NVec ℚ) :=
  [![1/10, 1/10, 1/2], ![9/10, 1/10, 1/2], ![1/10, 9/10, 1/2], ![9/10, 9/10, 1/2], ![1/2, 1/2, 1/2], ![1/2, 1/2, 1/2]]

/-- Its eigenvalues (z first) and eigenvectors, and exact inverses. -/
noncomputable def flatNum : NdtNumerics ℚ :=
  ⟨fun _ => ![5/36, 41/180, 41/180], fun _ => !![0, 1, 0; 0, 0, 1; 1, 0, 0], fun A => A⁻¹⟩

theorem flat_matrix : cellMatrix flatCell = !![41/180, 0, 0; 0, 41/180, 0; 0, 0, 5/36] := by
  funext i j
  fin_cases i <;> fin_cases j <;>
    (simp [cellMatrix, populationCov, scatter, meanPoint, flatCell]; try norm_num)

theorem flat_eigen : IsEigen (cellMatrix flatCell) (flatNum.eigenvalues (cellMatrix flatCell))
    (flatNum.eigenvectors (cellMatrix flatCell)) := by
  rw [flat_matrix]
  refine ⟨?_, ?_, ?_⟩
  · funext i j
    fin_cases i <;> fin_cases j <;> simp [flatNum, Matrix.mul_apply, Fin.sum_univ_three]
  · funext i j
    fin_cases i <;> fin_cases j <;> simp [flatNum, Matrix.mul_apply, Fin.sum_univ_three]
  · constructor <;> simp [flatNum] <;> norm_num

/-- All six points are in one cube. -/
theorem flat_cube : ∀ q ∈ flatCell, inCube ndtDefault.leaf (cubeOf ndtDefault.leaf q) flatCell = flatCell := by
  decide +kernel

theorem flat_filter : ∃ g', (NdtGrid.new : NdtGrid ℚ).filter ndtDefault flatNum flatCell.head! flatCell.tail = .ok g' :=
  C65_fits_partial ndtDefault flatNum NdtGrid.new _ _ (by decide +kernel) (by unfold Fits; decide +kernel)

-- the hypotheses of `C65_cells_partial` and `C65_search_partial`
example : 0 < ndtDefault.leaf ∧ 2 ≤ ndtDefault.minPoints ∧ 0 < ndtDefault.mult ∧ ndtDefault.mult ≤ 1 ∧
    ndtExtent ndtDefault 0 flatCell.head! flatCell.tail * ndtExtent ndtDefault 1 flatCell.head! flatCell.tail *
      ndtExtent ndtDefault 2 flatCell.head! flatCell.tail ≤ 2147483647 ∧
    ∃ q ∈ flatCell, ndtDefault.minPoints ≤ (inCube ndtDefault.leaf (cubeOf ndtDefault.leaf q) flatCell).length := by
  decide +kernel

example : ∀ A : NMat ℚ, IsUnit A.det → A * flatNum.inverse A = 1 := fun A h => Matrix.mul_nonsing_inv A h

/-- C65 is false for the covariance: for six points of a horizontal surface the cell has a standard
deviation of 37 cm in height, and 48 instead of 36 cm along the surface. -/
theorem C65_covariance_fails : ∃ g' l, (NdtGrid.new : NdtGrid ℚ).filter ndtDefault flatNum flatCell.head! flatCell.tail = .ok g' ∧
    l ∈ g'.leaves.map (·.2) ∧ l.n = 6 ∧ l.cov 2 2 = 5 / 36 ∧ l.cov 0 0 = 41 / 180 ∧
    sampleCov flatCell 2 2 = 0 ∧ sampleCov flatCell 0 0 = 16 / 125 := by
  obtain ⟨g', hg⟩ := flat_filter
  obtain ⟨m, hm, k1, _⟩ := filter_result ndtDefault flatNum _ g' _ _ (by decide +kernel) hg
  obtain ⟨f1, f2⟩ := first_pass_cells ndtDefault (by decide +kernel) _ _ m hm
  have hcl : flatCell.head! :: flatCell.tail = flatCell := rfl
  rw [hcl] at f2
  have hq : flatCell.head! ∈ flatCell := by decide +kernel
  have hmem := (f2 _ _).2 ⟨_, hq, rfl, rfl⟩
  rw [flat_cube _ hq] at hmem
  refine ⟨g', finishLeaf ndtDefault flatNum (leafOf flatCell), hg, ?_, ?_, ?_, ?_, ?_, ?_⟩
  · rw [k1, List.map_map]
    exact List.mem_map.2 ⟨_, hmem, rfl⟩
  all_goals first
    | (unfold finishLeaf
       dsimp only
       rw [ndtCov_eq flatCell (by decide), flat_matrix, if_pos (by decide +kernel), if_neg (by decide +kernel)]
       decide +kernel)
    | decide +kernel

/-- C65 is false for a large cloud: the number of the last cell of a cube of 1291 cells overflows
although the size was checked. -/
theorem C65_overflow_fails :
    ndtExtent ndtDefault 0 ![1/2, 1/2, 1/2] [![6452/5, 6452/5, 6452/5]] *
      ndtExtent ndtDefault 1 ![1/2, 1/2, 1/2] [![6452/5, 6452/5, 6452/5]] *
      ndtExtent ndtDefault 2 ![1/2, 1/2, 1/2] [![6452/5, 6452/5, 6452/5]] = 1290 ^ 3 ∧
    (NdtGrid.new : NdtGrid ℚ).filter ndtDefault flatNum ![1/2, 1/2, 1/2] [![6452/5, 6452/5, 6452/5]] = .ub := by
  refine ⟨by decide +kernel, ?_⟩
  have h1 : leafIndex ndtDefault (ndtBox ndtDefault ![1/2, 1/2, 1/2] [![6452/5, 6452/5, 6452/5]]) ![1/2, 1/2, 1/2] =
      .ok 0 := by decide +kernel
  have h2 : leafIndex ndtDefault (ndtBox ndtDefault ![1/2, 1/2, 1/2] [![6452/5, 6452/5, 6452/5]])
      ![6452/5, 6452/5, 6452/5] = .ub := by decide +kernel
  unfold NdtGrid.filter
  rw [if_neg (by decide +kernel)]
  dsimp only
  rw [ndtInt_of (z := (ndtBox ndtDefault ![1/2, 1/2, 1/2] [![6452/5, 6452/5, 6452/5]]).lo 0) (by decide +kernel) (by decide +kernel), Outcome.bind_ok,
    ndtInt_of (z := (ndtBox ndtDefault ![1/2, 1/2, 1/2] [![6452/5, 6452/5, 6452/5]]).hi 0) (by decide +kernel) (by decide +kernel), Outcome.bind_ok,
    ndtInt_of (z := (ndtBox ndtDefault ![1/2, 1/2, 1/2] [![6452/5, 6452/5, 6452/5]]).lo 1) (by decide +kernel) (by decide +kernel), Outcome.bind_ok,
    ndtInt_of (z := (ndtBox ndtDefault ![1/2, 1/2, 1/2] [![6452/5, 6452/5, 6452/5]]).hi 1) (by decide +kernel) (by decide +kernel), Outcome.bind_ok,
    ndtInt_of (z := (ndtBox ndtDefault ![1/2, 1/2, 1/2] [![6452/5, 6452/5, 6452/5]]).lo 2) (by decide +kernel) (by decide +kernel), Outcome.bind_ok,
    ndtInt_of (z := (ndtBox ndtDefault ![1/2, 1/2, 1/2] [![6452/5, 6452/5, 6452/5]]).hi 2) (by decide +kernel) (by decide +kernel), Outcome.bind_ok,
    ndtInt_of (by decide +kernel) (by decide +kernel), Outcome.bind_ok]
  unfold ndtFirstPass
  rw [h1, Outcome.bind_ok]
  unfold ndtFirstPass
  rw [h2]
  rfl

-- a grid, then a target of one point: the search is undefined
example : ∃ g' g'' : NdtGrid ℚ, (NdtGrid.new : NdtGrid ℚ).filter ndtDefault flatNum flatCell.head! flatCell.tail = .ok g' ∧
    g'.filter ndtDefault flatNum ![0, 0, 0] [] = .ok g'' ∧ g''.search (fun _ => true) = .ub := by
  obtain ⟨g', hg⟩ := flat_filter
  obtain ⟨m, hm, k1, k2, k3, k4⟩ := filter_result ndtDefault flatNum _ g' _ _ (by decide +kernel) hg
  obtain ⟨g'', hg2⟩ := C65_fits_partial ndtDefault flatNum g' ![0, 0, 0] [] (by decide +kernel)
    (by unfold Fits; decide +kernel)
  refine ⟨g', g'', hg, hg2, ?_⟩
  have hne : m.filter (fun e => decide (ndtDefault.minPoints ≤ e.2.n)) ≠ [] := by
    obtain ⟨f1, f2⟩ := first_pass_cells ndtDefault (by decide +kernel) _ _ m hm
    have hcl : flatCell.head! :: flatCell.tail = flatCell := rfl
    rw [hcl] at f2
    have hq : flatCell.head! ∈ flatCell := by decide +kernel
    have hmem := (f2 _ _).2 ⟨_, hq, rfl, rfl⟩
    rw [flat_cube _ hq] at hmem
    intro h0
    rw [List.filter_eq_nil_iff] at h0
    exact h0 _ hmem (by decide +kernel)
  refine C65_sparse_fails ndtDefault flatNum g' g'' _ _ _ (k3 hne) _ ?_ (by decide +kernel) (by decide +kernel)
    (by decide +kernel) hg2
  cases hF : m.filter (fun e => decide (ndtDefault.minPoints ≤ e.2.n)) with
  | nil => exact absurd hF hne
  | cons a r => exact ⟨_, List.mem_cons_self, rfl⟩

end Verif
