import Verif.Model.NdtGridF
import Verif.Spec.NdtGridF
import Verif.Proofs.NdtGrid
import Verif.Proofs.AverageF
/-! Proofs about the rounded cells of the normal distributions transform. -/
namespace Verif
open Spec

/-! ### the leaves by number -/

/-- The leaf made of a list of points. -/
def leafOfF (ps : List (NVec ℚ)) : NdtLeafF := ps.foldl (·.add ·) NdtLeafF.new

theorem leafOfF_snoc (ps : List (NVec ℚ)) (p : NVec ℚ) : leafOfF (ps ++ [p]) = (leafOfF ps).add p := by
  unfold leafOfF
  rw [List.foldl_append]; rfl

theorem firstPassF_lookup (leaf : ℚ) (b : NdtBox) (ps : List (NVec ℚ)) :
    ∀ (done : List (NVec ℚ)) (m r : List (Int × NdtLeafF)), KeysUp m →
    (∀ k, m.lookup k = if ∃ q ∈ done, leafIndexF leaf b q = .ok k
      then some (leafOfF (done.filter (fun q => decide (leafIndexF leaf b q = .ok k)))) else none) →
    ndtFirstPassF leaf b ps m = .ok r →
    KeysUp r ∧ (∀ q ∈ ps, ∃ k, leafIndexF leaf b q = .ok k) ∧
    (∀ k, r.lookup k = if ∃ q ∈ done ++ ps, leafIndexF leaf b q = .ok k
      then some (leafOfF ((done ++ ps).filter (fun q => decide (leafIndexF leaf b q = .ok k)))) else none) := by
  induction ps with
  | nil =>
    intro done m r hup hm h
    unfold ndtFirstPassF at h
    injection h with h
    subst h
    rw [List.append_nil]
    exact ⟨hup, by simp, hm⟩
  | cons p ps ih =>
    intro done m r hup hm h
    unfold ndtFirstPassF at h
    rw [Outcome.bind_eq_ok] at h
    obtain ⟨idx, hidx, h⟩ := h
    have key := ih (done ++ [p]) _ r (leafAt_up _ idx _ m hup) ?_ h
    · obtain ⟨k1, k2, k3⟩ := key
      rw [List.append_assoc, List.singleton_append] at k3
      refine ⟨k1, ?_, k3⟩
      intro q hq
      rcases List.mem_cons.1 hq with hq | hq
      · exact ⟨idx, by rw [hq]; exact hidx⟩
      · exact k2 q hq
    · intro k
      rw [leafAt_lookup _ _ _ _ hup]
      by_cases hk : k = idx
      · rw [if_pos hk, if_pos ⟨p, by simp, by rw [hidx, hk]⟩]
        congr 1
        rw [List.filter_append]
        have hp : [p].filter (fun q => decide (leafIndexF leaf b q = .ok k)) = [p] := by
          simp [hidx, hk]
        rw [hp, leafOfF_snoc, hm idx, ← hk]
        by_cases hex : ∃ q ∈ done, leafIndexF leaf b q = .ok k
        · rw [if_pos hex]; rfl
        · rw [if_neg hex]
          have : done.filter (fun q => decide (leafIndexF leaf b q = .ok k)) = [] := by
            rw [List.filter_eq_nil_iff]
            intro q hq hc
            exact hex ⟨q, hq, by simpa using hc⟩
          rw [this]; rfl
      · rw [if_neg hk, hm k]
        have hp : ¬ leafIndexF leaf b p = .ok k := by
          rw [hidx]; intro h; injection h with h; exact hk h.symm
        have e1 : (∃ q ∈ done ++ [p], leafIndexF leaf b q = .ok k) ↔ ∃ q ∈ done, leafIndexF leaf b q = .ok k := by
          constructor
          · rintro ⟨q, hq, h2⟩
            rcases List.mem_append.1 hq with hq | hq
            · exact ⟨q, hq, h2⟩
            · rw [List.mem_singleton.1 hq] at h2
              exact absurd h2 hp
          · rintro ⟨q, hq, h2⟩
            exact ⟨q, by simp [hq], h2⟩
        have e2 : (done ++ [p]).filter (fun q => decide (leafIndexF leaf b q = .ok k)) =
            done.filter (fun q => decide (leafIndexF leaf b q = .ok k)) := by
          rw [List.filter_append]; simp [hp]
        simp only [e1, e2]

/-! ### cells -/

theorem cellMul_mono {leaf : ℚ} (hl : 0 < leaf) : Monotone (cellMul leaf) := by
  intro x y h
  unfold cellMul
  apply Int.floor_le_floor
  apply toF32_mono
  apply mul_le_mul_of_nonneg_right h
  exact flRound_nonneg 24 (by positivity)

theorem invLeaf_bounds {leaf : ℚ} (hl : 0 < leaf) : |toF32 (1 / leaf) * leaf - 1| ≤ 1 / 2 ^ 24 := by
  have h := flRound_err 24 (1 / leaf)
  rw [abs_of_pos (by positivity : 0 < 1 / leaf)] at h
  have e : toF32 (1 / leaf) * leaf - 1 = (flRound 24 (1 / leaf) - 1 / leaf) * leaf := by
    unfold toF32; field_simp
  rw [e, abs_mul, abs_of_pos hl]
  calc |flRound 24 (1 / leaf) - 1 / leaf| * leaf ≤ (1 / leaf / 2 ^ 24) * leaf := by gcongr
    _ = 1 / 2 ^ 24 := by field_simp

/-- The rounded quotient is near the exact one. -/
theorem cellMul_err {leaf x : ℚ} (hl : 0 < leaf) :
    |toF32 (x * toF32 (1 / leaf)) - x / leaf| ≤ |x / leaf| / 2 ^ 22 := by
  have h1 := invLeaf_bounds hl
  have h2 : |x * toF32 (1 / leaf) - x / leaf| ≤ |x / leaf| / 2 ^ 24 := by
    have e : x * toF32 (1 / leaf) - x / leaf = x / leaf * (toF32 (1 / leaf) * leaf - 1) := by field_simp
    rw [e, abs_mul]
    calc |x / leaf| * |toF32 (1 / leaf) * leaf - 1| ≤ |x / leaf| * (1 / 2 ^ 24) := by gcongr
      _ = _ := by ring
  have h3 := flRound_err 24 (x * toF32 (1 / leaf))
  change |toF32 (x * toF32 (1 / leaf)) - _| ≤ _ at h3
  have h4 := abs_sub_abs_le_abs_sub (x * toF32 (1 / leaf)) (x / leaf)
  have h5 := abs_sub_le (toF32 (x * toF32 (1 / leaf))) (x * toF32 (1 / leaf)) (x / leaf)
  have h6 := abs_nonneg (x / leaf)
  linarith

theorem cellMul_near {leaf x : ℚ} (hl : 0 < leaf) (hx : |x| ≤ 2 ^ 22 * leaf) :
    |cellMul leaf x - ⌊x / leaf⌋| ≤ 1 := by
  have h := cellMul_err (x := x) hl
  have hq : |x / leaf| ≤ 2 ^ 22 := by
    rw [abs_div, abs_of_pos hl, div_le_iff₀ hl]; exact hx
  have h' : |toF32 (x * toF32 (1 / leaf)) - x / leaf| ≤ 1 := by linarith
  obtain ⟨a, b⟩ := abs_le.1 h'
  unfold cellMul
  rw [abs_le]
  constructor
  · have : ⌊x / leaf⌋ - 1 ≤ ⌊toF32 (x * toF32 (1 / leaf))⌋ := by
      rw [Int.le_floor]; push_cast
      have := Int.floor_le (x / leaf); linarith
    omega
  · have : ⌊toF32 (x * toF32 (1 / leaf))⌋ ≤ ⌊x / leaf⌋ + 1 := by
      rw [← Int.floor_add_one]; exact Int.floor_le_floor (by linarith)
    omega

theorem cellMul_small {leaf x : ℚ} (hl : 0 < leaf) (hx : |x| ≤ 2 ^ 22 * leaf) :
    |cellMul leaf x| ≤ 2 ^ 23 := by
  have h := cellMul_near hl hx
  have hq : |x / leaf| ≤ 2 ^ 22 := by
    rw [abs_div, abs_of_pos hl, div_le_iff₀ hl]; exact hx
  obtain ⟨a, b⟩ := abs_le.1 hq
  have h1 : -4194304 ≤ ⌊x / leaf⌋ := by rw [Int.le_floor]; push_cast; linarith
  have h2 : ⌊x / leaf⌋ ≤ 4194304 := by
    have := Int.floor_le (x / leaf)
    have : ((⌊x / leaf⌋ : ℤ) : ℚ) ≤ ((4194304 : ℤ) : ℚ) := by push_cast; linarith
    exact_mod_cast this
  rw [abs_le] at h ⊢
  norm_num
  omega

theorem cellStep_eq {leaf : ℚ} (b : NdtBox) (i : Fin 3) (p : NVec ℚ)
    (h1 : |b.lo i| ≤ 2 ^ 23) (h2 : |cellMul leaf (p i)| ≤ 2 ^ 23) :
    cellStep leaf b i p = cellMul leaf (p i) - b.lo i := by
  unfold cellStep
  have e1 : toF32 (b.lo i : ℚ) = b.lo i := flRound_int 24 (by norm_num) _ (by linarith)
  rw [e1]
  have e2 : toF32 (((cellMul leaf (p i) - b.lo i : ℤ)) : ℚ) = ((cellMul leaf (p i) - b.lo i : ℤ) : ℚ) :=
    flRound_int 24 (by norm_num) _ (by
      have := abs_sub (cellMul leaf (p i)) (b.lo i)
      linarith)
  push_cast at e2
  rw [e2]
  have : (cellMul leaf (p i) : ℚ) - b.lo i = ((cellMul leaf (p i) - b.lo i : ℤ) : ℚ) := by push_cast; rfl
  rw [this, Int.floor_intCast]

theorem boxF_lo_small {leaf : ℚ} (hl : 0 < leaf) (p : NVec ℚ) (ps : List (NVec ℚ))
    (h : ∀ q ∈ p :: ps, ∀ i, |q i| ≤ 2 ^ 22 * leaf) (i : Fin 3) :
    |(ndtBoxF leaf p ps).lo i| ≤ 2 ^ 23 ∧ |(ndtBoxF leaf p ps).hi i| ≤ 2 ^ 23 := by
  have hmin : ∀ (ps : List (NVec ℚ)) (a : ℚ), |a| ≤ 2 ^ 22 * leaf → (∀ q ∈ ps, |q i| ≤ 2 ^ 22 * leaf) →
      |ps.foldl (fun m q => min m (q i)) a| ≤ 2 ^ 22 * leaf ∧
      |ps.foldl (fun m q => max m (q i)) a| ≤ 2 ^ 22 * leaf := by
    intro ps
    induction ps with
    | nil => intro a ha _; exact ⟨ha, ha⟩
    | cons q ps ih =>
      intro a ha hq
      have hq0 := hq q (by simp)
      refine ⟨(ih (min a (q i)) ?_ (fun x hx => hq x (by simp [hx]))).1,
        (ih (max a (q i)) ?_ (fun x hx => hq x (by simp [hx]))).2⟩
      · rcases min_choice a (q i) with e | e <;> rw [e] <;> assumption
      · rcases max_choice a (q i) with e | e <;> rw [e] <;> assumption
  obtain ⟨a, b⟩ := hmin ps (p i) (h p (by simp) i) (fun q hq => h q (by simp [hq]) i)
  exact ⟨cellMul_small hl a, cellMul_small hl b⟩

theorem boxF_holds {leaf : ℚ} (hl : 0 < leaf) (p : NVec ℚ) (ps : List (NVec ℚ)) (q : NVec ℚ)
    (hq : q ∈ p :: ps) (i : Fin 3) :
    (ndtBoxF leaf p ps).lo i ≤ cellMul leaf (q i) ∧ cellMul leaf (q i) ≤ (ndtBoxF leaf p ps).hi i := by
  have hm := ndtFoldl_min_le (fun q => q i) ps (p i)
  have hM := ndtFoldl_max_ge (fun q => q i) ps (p i)
  have hb : coordMin i p ps ≤ q i ∧ q i ≤ coordMax i p ps := by
    unfold coordMin coordMax
    rcases List.mem_cons.1 hq with hq | hq
    · rw [hq]; exact ⟨hm.1, hM.1⟩
    · exact ⟨hm.2 q hq, hM.2 q hq⟩
  exact ⟨cellMul_mono hl hb.1, cellMul_mono hl hb.2⟩

theorem leafIndexF_ok {leaf : ℚ} (b : NdtBox) (p : NVec ℚ) (k : Int)
    (hb : ∀ i, |b.lo i| ≤ 2 ^ 23) (hp : ∀ i, |cellMul leaf (p i)| ≤ 2 ^ 23)
    (h : leafIndexF leaf b p = .ok k) : k = mixedRadix b (fun i => cellMul leaf (p i)) := by
  unfold leafIndexF at h
  simp only [Outcome.bind_eq_ok] at h
  obtain ⟨i0, h0, i1, h1, i2, h2, a1, h3, a2, h4, s, h5, h6⟩ := h
  rw [ndtInt_ok h6, ndtInt_ok h5, ndtInt_ok h4, ndtInt_ok h3, ndtInt_ok h2, ndtInt_ok h1, ndtInt_ok h0,
    cellStep_eq b 0 p (hb 0) (hp 0), cellStep_eq b 1 p (hb 1) (hp 1), cellStep_eq b 2 p (hb 2) (hp 2)]
  rfl

theorem leafIndexF_fits {leaf : ℚ} (b : NdtBox) (hf : Fits b) (p : NVec ℚ)
    (hb : ∀ i, |b.lo i| ≤ 2 ^ 23) (hs : ∀ i, |cellMul leaf (p i)| ≤ 2 ^ 23)
    (hp : ∀ i, b.lo i ≤ cellMul leaf (p i) ∧ cellMul leaf (p i) ≤ b.hi i) :
    ∃ k, leafIndexF leaf b p = .ok k := by
  have h0 := hp 0; have h1 := hp 1; have h2 := hp 2
  obtain ⟨r1, r2, r3, r4, r5, r6, r7⟩ := radix_bounds (d0 := b.div 0) (d1 := b.div 1) (d2 := b.div 2)
    (i0 := cellMul leaf (p 0) - b.lo 0) (i1 := cellMul leaf (p 1) - b.lo 1)
    (i2 := cellMul leaf (p 2) - b.lo 2) (by unfold NdtBox.div; omega) (by unfold NdtBox.div; omega)
    (by unfold NdtBox.div; omega)
  have hd := hf.2
  have q0 : cellMul leaf (p 0) - b.lo 0 ≤ b.div 0 - 1 := by unfold NdtBox.div; omega
  have q1 : cellMul leaf (p 1) - b.lo 1 ≤ b.div 1 - 1 := by unfold NdtBox.div; omega
  have q2 : cellMul leaf (p 2) - b.lo 2 ≤ b.div 2 - 1 := by unfold NdtBox.div; omega
  unfold leafIndexF
  rw [cellStep_eq b 0 p (hb 0) (hs 0), cellStep_eq b 1 p (hb 1) (hs 1), cellStep_eq b 2 p (hb 2) (hs 2),
    ndtInt_of (z := cellMul leaf (p 0) - b.lo 0) (by omega) (by omega), Outcome.bind_ok,
    ndtInt_of (z := cellMul leaf (p 1) - b.lo 1) (by omega) (by omega), Outcome.bind_ok,
    ndtInt_of (z := cellMul leaf (p 2) - b.lo 2) (by omega) (by omega), Outcome.bind_ok,
    ndtInt_of (z := (cellMul leaf (p 1) - b.lo 1) * b.div 0) (by omega) (by omega), Outcome.bind_ok,
    ndtInt_of (z := (cellMul leaf (p 2) - b.lo 2) * (b.div 0 * b.div 1)) (by omega) (by omega), Outcome.bind_ok,
    ndtInt_of (by omega) (by omega), Outcome.bind_ok, ndtInt_of (by omega) (by omega)]
  exact ⟨_, rfl⟩

theorem firstPassF_ok (leaf : ℚ) (b : NdtBox) (ps : List (NVec ℚ))
    (h : ∀ q ∈ ps, ∃ k, leafIndexF leaf b q = .ok k) (m : List (Int × NdtLeafF)) :
    ∃ r, ndtFirstPassF leaf b ps m = .ok r := by
  induction ps generalizing m with
  | nil => exact ⟨m, rfl⟩
  | cons p ps ih =>
    obtain ⟨k, hk⟩ := h p (by simp)
    unfold ndtFirstPassF
    rw [hk, Outcome.bind_ok]
    exact ih (fun q hq => h q (by simp [hq])) _

/-- The leaves before the second pass, by cell. -/
theorem firstPassF_cells {leaf : ℚ} (hl : 0 < leaf) (p : NVec ℚ) (ps : List (NVec ℚ))
    (hr : ∀ q ∈ p :: ps, ∀ i, |q i| ≤ 2 ^ 22 * leaf)
    (m : List (Int × NdtLeafF)) (hm : ndtFirstPassF leaf (ndtBoxF leaf p ps) (p :: ps) [] = .ok m) :
    KeysUp m ∧ ∀ k l, (k, l) ∈ m ↔ ∃ q ∈ p :: ps,
      k = mixedRadix (ndtBoxF leaf p ps) (fun i => cellMul leaf (q i)) ∧
      l = leafOfF (sameCell (cellMul leaf) q (p :: ps)) := by
  obtain ⟨h1, h2, h3⟩ := firstPassF_lookup leaf (ndtBoxF leaf p ps) (p :: ps) [] [] m (by simp [KeysUp])
    (by simp) hm
  refine ⟨h1, ?_⟩
  simp only [List.nil_append] at h3
  have hin := boxF_holds hl p ps
  have hidx : ∀ q ∈ p :: ps, leafIndexF leaf (ndtBoxF leaf p ps) q =
      .ok (mixedRadix (ndtBoxF leaf p ps) (fun i => cellMul leaf (q i))) := by
    intro q hq
    obtain ⟨k, hk⟩ := h2 q hq
    rw [hk, leafIndexF_ok _ _ _ (fun i => (boxF_lo_small hl p ps hr i).1)
      (fun i => cellMul_small hl (hr q hq i)) hk]
  have hfil : ∀ q ∈ p :: ps, (p :: ps).filter (fun q' => decide (leafIndexF leaf (ndtBoxF leaf p ps) q' =
      .ok (mixedRadix (ndtBoxF leaf p ps) (fun i => cellMul leaf (q i))))) =
      sameCell (cellMul leaf) q (p :: ps) := by
    intro q hq
    unfold sameCell
    apply List.filter_congr
    intro q' hq'
    rw [hidx q' hq']
    apply decide_eq_decide.2
    constructor
    · intro h
      injection h with h
      exact mixedRadix_inj _ _ _ (fun i => hin q' hq' i) (fun i => hin q hq i) h
    · intro h; rw [h]
  intro k l
  rw [← lookup_mem m h1, h3]
  constructor
  · intro h
    by_cases hex : ∃ q ∈ p :: ps, leafIndexF leaf (ndtBoxF leaf p ps) q = .ok k
    · rw [if_pos hex] at h
      obtain ⟨q, hq, hk⟩ := hex
      rw [hidx q hq] at hk
      injection hk with hk
      injection h with h
      refine ⟨q, hq, hk.symm, ?_⟩
      rw [← h, ← hfil q hq, hk]
    · rw [if_neg hex] at h; cases h
  · rintro ⟨q, hq, hk, hl'⟩
    rw [if_pos ⟨q, hq, by rw [hk]; exact hidx q hq⟩, hk, hfil q hq, hl']

/-! ### sums -/

theorem leafOfF_values (ps : List (NVec ℚ)) : (leafOfF ps).n = ps.length ∧
    (∀ i, (leafOfF ps).mean i = sumF64 (ps.map (fun p => p i))) ∧
    (∀ i j, (leafOfF ps).cov i j =
      (ps.map (fun p => toF64 (p i * p j))).foldl (fun s x => toF64 (s + x)) ((1 : NMat ℚ) i j)) ∧
    (∀ i, (leafOfF ps).centroid i = sumF32 (ps.map (fun p => p i))) := by
  induction ps using List.reverseRecOn with
  | nil => refine ⟨rfl, fun i => ?_, fun i j => ?_, fun i => ?_⟩ <;> rfl
  | append_singleton ps p ih =>
    obtain ⟨h1, h2, h3, h4⟩ := ih
    rw [leafOfF_snoc]
    refine ⟨?_, ?_, ?_, ?_⟩
    · show (leafOfF ps).n + 1 = _
      rw [h1]; simp
    · intro i
      show toF64 ((leafOfF ps).mean i + p i) = _
      rw [h2]; simp [sumF64]
    · intro i j
      show toF64 ((leafOfF ps).cov i j + toF64 (p i * p j)) = _
      rw [h3]; simp
    · intro i
      show toF32 ((leafOfF ps).centroid i + p i) = _
      rw [h4]; simp [sumF32]

/-- The product of two `float`s is a `double`. -/
theorem mul_exact {x y : ℚ} (hx : Single x) (hy : Single y) : toF64 (x * y) = x * y := by
  obtain ⟨m, e, hm, he⟩ := flRound_form 24 (by norm_num) x
  obtain ⟨m', e', hm', he'⟩ := flRound_form 24 (by norm_num) y
  have h1 : x = m * 2 ^ e := by rw [← he]; exact hx.symm
  have h2 : y = m' * 2 ^ e' := by rw [← he']; exact hy.symm
  have := flRound_exact 53 (by norm_num) (m * m') (e + e') (by
    rw [abs_mul]
    calc |m| * |m'| ≤ 2 ^ 24 * 2 ^ 24 := mul_le_mul hm hm' (abs_nonneg _) (by norm_num)
      _ ≤ 2 ^ 53 := by norm_num)
  have e3 : x * y = ((m * m' : ℤ) : ℚ) * 2 ^ (e + e') := by
    rw [h1, h2, zpow_add₀ (by norm_num)]; push_cast; ring
  unfold toF64
  rw [e3, this]

/-- Rounding a value known up to `d`. -/
theorem round_near {x x' A d : ℚ} (h : |x' - x| ≤ d) (hA : |x| ≤ A) : |toF64 x' - x| ≤ d + (A + d) / 2 ^ 53 := by
  have h1 := flRound_err 53 x'
  change |toF64 x' - x'| ≤ _ at h1
  have h2 := abs_sub_abs_le_abs_sub x' x
  have h3 := abs_sub_le (toF64 x') x' x
  have h4 : |x'| / 2 ^ 53 ≤ (A + d) / 2 ^ 53 := by gcongr; linarith
  linarith

/-- The mean in `double`. -/
theorem meanF_near {M : ℚ} (xs : List ℚ) (h : xs ≠ []) (hx : ∀ x ∈ xs, |x| ≤ M) (hn : xs.length ≤ 2 ^ 29) :
    |sumF64 xs - xs.sum| ≤ xs.length ^ 2 * (M * (2 / 2 ^ 53)) ∧
    |toF64 (sumF64 xs / xs.length) - xs.sum / xs.length| ≤ (xs.length + 1) * M / 2 ^ 52 := by
  have hM : 0 ≤ M := by
    obtain ⟨x, hm⟩ := List.exists_mem_of_ne_nil _ h
    exact le_trans (abs_nonneg x) (hx x hm)
  have hnq : (xs.length : ℚ) ≤ 2 ^ 29 := by exact_mod_cast hn
  have e0 := sumF_err 53 hM xs 0 0 0 (by simp) (by simp) hx (by push_cast; linarith)
  rw [Nat.zero_add, zero_add] at e0
  have e1 := quot_err 53 hM xs h hx (by linarith)
  have hm := mean_le xs h hx
  refine ⟨e0, ?_⟩
  have := round_near e1 hm
  refine le_trans this ?_
  have h2 := mul_le_mul_of_nonneg_right hnq hM
  have h0 : (0 : ℚ) ≤ xs.length := by positivity
  rw [div_eq_mul_inv, div_eq_mul_inv, div_eq_mul_inv]
  norm_num at h2 ⊢
  nlinarith

theorem amid_meanF (xs : List ℚ) (h : xs ≠ []) (hs : ∀ x ∈ xs, Single x) (hn : xs.length ≤ 2 ^ 29) :
    Amid (toF64 (sumF64 xs / xs.length)) xs := by
  obtain ⟨lo, hl, hi, hh, hb⟩ := exists_bounds xs h
  obtain ⟨a, b⟩ := quotF64_bounds (hs lo hl) (hs hi hh) xs h (fun x hx => (hb x hx).1)
    (fun x hx => (hb x hx).2) hn
  have a' := toF64_le_toF64 a
  have b' := toF64_le_toF64 b
  rw [single_toF64 (hs lo hl)] at a'
  rw [single_toF64 (hs hi hh)] at b'
  exact ⟨⟨lo, hl, a'⟩, hi, hh, b'⟩

/-- The chain of roundings from the sums to the covariance, step by step; `w` is a unit in the last place
of 1. -/
theorem cov_chain {n M S S' s s' m m' t m2 m2' : ℚ} (hn1 : 1 ≤ n) (hn : n ≤ 2 ^ 29) (hM : 0 ≤ M)
    (hS : |S| ≤ (n + 1) * M ^ 2) (hS' : |S' - S| ≤ (n + 1) ^ 2 * (M ^ 2 / 2 ^ 52))
    (hs : |s| ≤ n * M) (hs' : |s' - s| ≤ n ^ 2 * (M / 2 ^ 52))
    (hm : |m| ≤ M) (hm' : |m' - m| ≤ (n + 1) * (M / 2 ^ 52))
    (hm2 : |m2| ≤ M) (hm2' : |m2' - m2| ≤ (n + 1) * (M / 2 ^ 52))
    (ht : t = (n - 1) / n) :
    |toF64 (toF64 (toF64 (toF64 (S' - 2 * toF64 (s' * m2')) / n) + toF64 (m' * m2')) * toF64 t) -
      ((S - 2 * (s * m2)) / n + m * m2) * t| ≤ (n + 1) * M ^ 2 / 2 ^ 47 := by
  have hn0 : 0 < n := by linarith
  obtain ⟨w, hw⟩ : ∃ w : ℚ, w = 1 / 2 ^ 52 := ⟨_, rfl⟩
  have hw0 : 0 < w := by rw [hw]; norm_num
  have hNw : (n + 1) * w ≤ 1 / 2 ^ 22 := by
    rw [hw]; norm_num at hn ⊢; linarith
  have ew : ∀ x : ℚ, x / 2 ^ 52 = x * w := by intro x; rw [hw]; ring
  have eu : ∀ x : ℚ, x / 2 ^ 53 = x * w / 2 := by intro x; rw [hw]; ring
  rw [ew] at hS' hs' hm' hm2'
  obtain ⟨c, hc⟩ : ∃ c : ℚ, c = M ^ 2 * w := ⟨_, rfl⟩
  have hc0 : 0 ≤ c := by rw [hc]; positivity
  have hM2 : 0 ≤ M ^ 2 := by positivity
  have hcN : (n + 1) * c ≤ M ^ 2 / 2 ^ 22 := by
    have := mul_le_mul_of_nonneg_left hNw hM2
    rw [hc]; linarith
  have hNc : 0 ≤ (n + 1) * c := by positivity
  -- the means stay below 2 M
  have bm2 : |m2'| ≤ 2 * M := by
    have h1 := abs_sub_abs_le_abs_sub m2' m2
    have : (n + 1) * (M * w) ≤ M := by
      have h2 := mul_le_mul_of_nonneg_right hNw hM
      have h3 : (n + 1) * (M * w) = (n + 1) * w * M := by ring
      rw [h3]
      linarith
    linarith
  -- products of differences
  have prod : ∀ a b a' b' A B dA dB : ℚ, |a| ≤ A → |b'| ≤ B → |a' - a| ≤ dA → |b' - b| ≤ dB →
      |a' * b' - a * b| ≤ dA * B + A * dB := by
    intro a b a' b' A B dA dB h1 h2 h3 h4
    have e : a' * b' - a * b = (a' - a) * b' + a * (b' - b) := by ring
    rw [e]
    refine le_trans (abs_add_le _ _) ?_
    rw [abs_mul, abs_mul]
    have n1 := abs_nonneg (a' - a); have n2 := abs_nonneg b'; have n3 := abs_nonneg a
    have n4 := abs_nonneg (b' - b)
    have i1 : |a' - a| * |b'| ≤ dA * B := mul_le_mul h3 h2 n2 (le_trans n1 h3)
    have i2 : |a| * |b' - b| ≤ A * dB := mul_le_mul h1 h4 n4 (le_trans n3 h1)
    linarith
  -- s m2
  have p1 := prod s m2 s' m2' _ _ _ _ hs bm2 hs' hm2'
  have q1 : |s * m2| ≤ n * M ^ 2 := by
    rw [abs_mul]
    calc |s| * |m2| ≤ (n * M) * M := mul_le_mul hs hm2 (abs_nonneg _) (by positivity)
      _ = _ := by ring
  have p1' : |s' * m2' - s * m2| ≤ (3 * n ^ 2 + n) * c := by
    refine le_trans p1 (le_of_eq ?_)
    rw [hc]; ring
  have P := round_near p1' q1
  rw [eu] at P
  have P' : |toF64 (s' * m2') - s * m2| ≤ 3 * n * ((n + 1) * c) := by
    refine le_trans P ?_
    have i0 : (3 * n ^ 2 + n) * c ≤ n * M ^ 2 := by
      have h1 := mul_le_mul_of_nonneg_left hcN hn0.le
      nlinarith
    have i1 : (n * M ^ 2 + (3 * n ^ 2 + n) * c) * w / 2 ≤ n * c := by
      have : n * M ^ 2 + (3 * n ^ 2 + n) * c ≤ 2 * (n * M ^ 2) := by linarith
      have := mul_le_mul_of_nonneg_right this hw0.le
      rw [hc] at this ⊢; linarith
    have := mul_nonneg hn0.le hc0
    linarith
  -- S - 2 s m2
  have d1 : |(S' - 2 * toF64 (s' * m2')) - (S - 2 * (s * m2))| ≤ 7 * (n + 1) * ((n + 1) * c) := by
    have e : (S' - 2 * toF64 (s' * m2')) - (S - 2 * (s * m2)) = (S' - S) - 2 * (toF64 (s' * m2') - s * m2) := by
      ring
    rw [e]
    refine le_trans (abs_sub _ _) ?_
    rw [abs_mul, abs_two]
    have : (n + 1) ^ 2 * (M ^ 2 * w) = (n + 1) * ((n + 1) * c) := by rw [hc]; ring
    rw [this] at hS'
    linarith
  have d2 : |S - 2 * (s * m2)| ≤ 3 * (n + 1) * M ^ 2 := by
    refine le_trans (abs_sub _ _) ?_
    rw [abs_mul, abs_two]
    linarith
  have D := round_near d1 d2
  rw [eu] at D
  have D' : |toF64 (S' - 2 * toF64 (s' * m2')) - (S - 2 * (s * m2))| ≤ 8 * (n + 1) * ((n + 1) * c) := by
    refine le_trans D ?_
    have h1 := mul_le_mul_of_nonneg_left hcN (by linarith : (0 : ℚ) ≤ n + 1)
    have h2 : 0 ≤ (n + 1) * M ^ 2 := by positivity
    have i1 : (3 * (n + 1) * M ^ 2 + 7 * (n + 1) * ((n + 1) * c)) * w / 2 ≤ 2 * ((n + 1) * c) := by
      have : 3 * (n + 1) * M ^ 2 + 7 * (n + 1) * ((n + 1) * c) ≤ 4 * ((n + 1) * M ^ 2) := by linarith
      have := mul_le_mul_of_nonneg_right this hw0.le
      rw [hc] at this ⊢; linarith
    have h3 : 2 * ((n + 1) * c) ≤ (n + 1) * ((n + 1) * c) :=
      mul_le_mul_of_nonneg_right (by linarith) hNc
    linarith
  -- divided by n
  have f1 : |toF64 (S' - 2 * toF64 (s' * m2')) / n - (S - 2 * (s * m2)) / n| ≤ 16 * ((n + 1) * c) := by
    rw [← sub_div, abs_div, abs_of_pos hn0, div_le_iff₀ hn0]
    refine le_trans D' ?_
    have := mul_le_mul_of_nonneg_right (by linarith : n + 1 ≤ 2 * n) hNc
    linarith
  have f2 : |(S - 2 * (s * m2)) / n| ≤ 6 * M ^ 2 := by
    rw [abs_div, abs_of_pos hn0, div_le_iff₀ hn0]
    have := mul_le_mul_of_nonneg_right (by linarith : n + 1 ≤ 2 * n) hM2
    linarith
  have F := round_near f1 f2
  rw [eu] at F
  have hc2 : 2 * c ≤ (n + 1) * c := mul_le_mul_of_nonneg_right (by linarith) hc0
  have F' : |toF64 (toF64 (S' - 2 * toF64 (s' * m2')) / n) - (S - 2 * (s * m2)) / n| ≤ 18 * ((n + 1) * c) := by
    refine le_trans F ?_
    have i1 : (6 * M ^ 2 + 16 * ((n + 1) * c)) * w / 2 ≤ 4 * c := by
      have : 6 * M ^ 2 + 16 * ((n + 1) * c) ≤ 8 * M ^ 2 := by linarith
      have := mul_le_mul_of_nonneg_right this hw0.le
      rw [hc] at this ⊢; linarith
    linarith
  -- m m2
  have g1 := prod m m2 m' m2' _ _ _ _ hm bm2 hm' hm2'
  have g1' : |m' * m2' - m * m2| ≤ 3 * ((n + 1) * c) := by
    refine le_trans g1 (le_of_eq ?_)
    rw [hc]; ring
  have g2 : |m * m2| ≤ M ^ 2 := by
    rw [abs_mul]
    calc |m| * |m2| ≤ M * M := mul_le_mul hm hm2 (abs_nonneg _) hM
      _ = _ := by ring
  have G := round_near g1' g2
  rw [eu] at G
  have G' : |toF64 (m' * m2') - m * m2| ≤ 4 * ((n + 1) * c) := by
    refine le_trans G ?_
    have i1 : (M ^ 2 + 3 * ((n + 1) * c)) * w / 2 ≤ c := by
      have : M ^ 2 + 3 * ((n + 1) * c) ≤ 2 * M ^ 2 := by linarith
      have := mul_le_mul_of_nonneg_right this hw0.le
      rw [hc] at this ⊢; linarith
    linarith
  -- sum
  have k1 : |(toF64 (toF64 (S' - 2 * toF64 (s' * m2')) / n) + toF64 (m' * m2')) -
      ((S - 2 * (s * m2)) / n + m * m2)| ≤ 22 * ((n + 1) * c) := by
    rw [add_sub_add_comm]
    refine le_trans (abs_add_le _ _) ?_
    linarith
  have k2 : |(S - 2 * (s * m2)) / n + m * m2| ≤ 7 * M ^ 2 := by
    refine le_trans (abs_add_le _ _) ?_
    linarith
  have K := round_near k1 k2
  rw [eu] at K
  have K' : |toF64 (toF64 (toF64 (S' - 2 * toF64 (s' * m2')) / n) + toF64 (m' * m2')) -
      ((S - 2 * (s * m2)) / n + m * m2)| ≤ 24 * ((n + 1) * c) := by
    refine le_trans K ?_
    have i1 : (7 * M ^ 2 + 22 * ((n + 1) * c)) * w / 2 ≤ 4 * c := by
      have : 7 * M ^ 2 + 22 * ((n + 1) * c) ≤ 8 * M ^ 2 := by linarith
      have := mul_le_mul_of_nonneg_right this hw0.le
      rw [hc] at this ⊢; linarith
    linarith
  -- the factor (n - 1) / n
  have t0 : 0 ≤ t := by rw [ht]; exact div_nonneg (by linarith) hn0.le
  have t1 : t ≤ 1 := by rw [ht, div_le_one hn0]; linarith
  have t2 : |toF64 t| ≤ 1 := by
    rw [abs_of_nonneg (show 0 ≤ toF64 t from flRound_nonneg 53 t0)]
    have h1 := toF64_le_toF64 t1
    have h2 : toF64 1 = 1 := by
      have := flRound_int 53 (by norm_num) 1 (by norm_num)
      simpa [toF64] using this
    rw [h2] at h1; exact h1
  have t3 : |toF64 t - t| ≤ w / 2 := by
    have h1 := flRound_err 53 t
    rw [abs_of_nonneg t0, eu] at h1
    refine le_trans h1 ?_
    have := mul_le_mul_of_nonneg_right t1 hw0.le
    linarith
  have z1 := prod _ t _ _ _ _ _ _ k2 t2 K' t3
  have z2 : |((S - 2 * (s * m2)) / n + m * m2) * t| ≤ 7 * M ^ 2 := by
    rw [abs_mul, abs_of_nonneg t0]
    calc _ ≤ 7 * M ^ 2 * 1 := mul_le_mul k2 t1 t0 (by positivity)
      _ = _ := by ring
  have Z := round_near z1 z2
  rw [eu] at Z
  refine le_trans Z ?_
  have y1 : 24 * ((n + 1) * c) * 1 + 7 * M ^ 2 * (w / 2) ≤ 26 * ((n + 1) * c) := by
    have : 7 * M ^ 2 * (w / 2) = 7 / 2 * c := by rw [hc]; ring
    linarith
  have y2 : (7 * M ^ 2 + (24 * ((n + 1) * c) * 1 + 7 * M ^ 2 * (w / 2))) * w / 2 ≤ 4 * c := by
    have : 7 * M ^ 2 + (24 * ((n + 1) * c) * 1 + 7 * M ^ 2 * (w / 2)) ≤ 8 * M ^ 2 := by linarith
    have := mul_le_mul_of_nonneg_right this hw0.le
    rw [hc] at this ⊢; linarith
  have y3 : (n + 1) * M ^ 2 / 2 ^ 47 = 32 * ((n + 1) * c) := by rw [hc, hw]; ring
  rw [y3]
  linarith

end Verif
