import Verif.Spec.NdtGrid
import Mathlib.Tactic.Linarith
import Mathlib.Tactic.Ring
import Mathlib.Tactic.FieldSimp
import Mathlib.Tactic.Positivity
import Mathlib.Tactic.LinearCombination
import Mathlib.Algebra.Order.Ring.Int
/-! Proofs about the cells of the normal distributions transform. -/
namespace Verif
open Spec

section
variable {K : Type} [Field K] [LinearOrder K] [IsStrictOrderedRing K] [FloorRing K]

/-! ### the map of leaves -/

theorem leafAt_mem_keys {L : Type} (new : L) (k : Int) (f : L → L) (m : List (Int × L)) (e : Int × L)
    (h : e ∈ leafAt new k f m) : e.1 = k ∨ e ∈ m := by
  induction m with
  | nil => simp [leafAt] at h; left; rw [h]
  | cons a rest ih =>
    obtain ⟨k', l⟩ := a
    unfold leafAt at h
    by_cases h1 : k = k'
    · rw [if_pos h1] at h
      rcases List.mem_cons.1 h with h | h
      · left; rw [h, h1]
      · right; simp [h]
    · rw [if_neg h1] at h
      by_cases h2 : k < k'
      · rw [if_pos h2] at h
        rcases List.mem_cons.1 h with h | h
        · left; rw [h]
        · right; exact h
      · rw [if_neg h2] at h
        rcases List.mem_cons.1 h with h | h
        · right; simp [h]
        · rcases ih h with h | h
          · exact Or.inl h
          · right; simp [h]

theorem leafAt_up {L : Type} (new : L) (k : Int) (f : L → L) (m : List (Int × L)) (h : KeysUp m) :
    KeysUp (leafAt new k f m) := by
  induction m with
  | nil => simp [leafAt, KeysUp]
  | cons a rest ih =>
    obtain ⟨k', l⟩ := a
    unfold KeysUp at *
    rw [List.pairwise_cons] at h
    unfold leafAt
    by_cases h1 : k = k'
    · rw [if_pos h1, List.pairwise_cons]
      exact ⟨h.1, h.2⟩
    · rw [if_neg h1]
      by_cases h2 : k < k'
      · rw [if_pos h2, List.pairwise_cons, List.pairwise_cons]
        refine ⟨?_, h.1, h.2⟩
        intro b hb
        rcases List.mem_cons.1 hb with hb | hb
        · rw [hb]; exact h2
        · exact lt_trans h2 (h.1 b hb)
      · rw [if_neg h2, List.pairwise_cons]
        refine ⟨?_, ih h.2⟩
        intro b hb
        rcases leafAt_mem_keys new k f rest b hb with hb | hb
        · show k' < b.1
          rw [hb]; omega
        · exact h.1 b hb

theorem lookup_small {L : Type} (m : List (Int × L)) (k : Int) (h : ∀ e ∈ m, k < e.1) : m.lookup k = none := by
  induction m with
  | nil => rfl
  | cons a rest ih =>
    obtain ⟨k', l⟩ := a
    have h1 : k < k' := h (k', l) (by simp)
    have : (k == k') = false := by simp; omega
    rw [List.lookup_cons, this]
    exact ih (fun e he => h e (by simp [he]))

theorem leafAt_lookup {L : Type} (new : L) (k : Int) (f : L → L) (m : List (Int × L)) (h : KeysUp m) (k2 : Int) :
    (leafAt new k f m).lookup k2 = if k2 = k then some (f ((m.lookup k).getD new)) else m.lookup k2 := by
  induction m with
  | nil =>
    unfold leafAt
    by_cases hk : k2 = k
    · rw [if_pos hk, List.lookup_cons, hk]; simp
    · rw [if_neg hk, List.lookup_cons]
      have : (k2 == k) = false := by simpa using hk
      rw [this]
  | cons a rest ih =>
    obtain ⟨k', l⟩ := a
    unfold KeysUp at h
    rw [List.pairwise_cons] at h
    unfold leafAt
    by_cases h1 : k = k'
    · rw [if_pos h1]
      by_cases hk : k2 = k
      · rw [if_pos hk, hk, ← h1]; simp [List.lookup_cons]
      · rw [if_neg hk]
        have : (k2 == k') = false := by rw [← h1]; simpa using hk
        simp only [List.lookup_cons, this]
    · rw [if_neg h1]
      by_cases h2 : k < k'
      · rw [if_pos h2]
        have hnone : ((k', l) :: rest).lookup k = none := by
          apply lookup_small
          intro e he
          rcases List.mem_cons.1 he with he | he
          · rw [he]; exact h2
          · exact lt_trans h2 (h.1 e he)
        by_cases hk : k2 = k
        · rw [if_pos hk, hk, hnone]; simp [List.lookup_cons]
        · rw [if_neg hk]
          have : (k2 == k) = false := by simpa using hk
          rw [List.lookup_cons, this]
      · rw [if_neg h2]
        by_cases hk : k2 = k'
        · have hne : k2 ≠ k := by omega
          rw [if_neg hne, hk]; simp [List.lookup_cons]
        · have e1 : (k2 == k') = false := by simpa using hk
          have e2 : (k == k') = false := by simpa using h1
          simp only [List.lookup_cons, e1, e2]
          exact ih h.2

theorem lookup_mem {L : Type} (m : List (Int × L)) (h : KeysUp m) (k : Int) (l : L) :
    m.lookup k = some l ↔ (k, l) ∈ m := by
  induction m with
  | nil => simp
  | cons a rest ih =>
    obtain ⟨k', l'⟩ := a
    unfold KeysUp at h
    rw [List.pairwise_cons] at h
    by_cases hk : k = k'
    · subst hk
      simp only [List.lookup_cons, beq_self_eq_true, Option.some.injEq, List.mem_cons, Prod.mk.injEq, true_and]
      constructor
      · intro h; exact Or.inl h.symm
      · rintro (h1 | h1)
        · exact h1.symm
        · have := h.1 (k, l) h1
          simp at this
    · have e1 : (k == k') = false := by simpa using hk
      simp only [List.lookup_cons, e1]
      rw [ih h.2, List.mem_cons]
      constructor
      · exact Or.inr
      · rintro (h1 | h1)
        · exact absurd (congrArg Prod.fst h1) hk
        · exact h1

/-! ### leaves as sums -/

/-- The leaf made of a list of points. -/
def leafOf (ps : List (NVec K)) : NdtLeaf K := ps.foldl (·.add ·) NdtLeaf.new

theorem leafOf_snoc (ps : List (NVec K)) (p : NVec K) : leafOf (ps ++ [p]) = (leafOf ps).add p := by
  unfold leafOf
  rw [List.foldl_append]; rfl

theorem leafOf_values (ps : List (NVec K)) : (leafOf ps).n = ps.length ∧
    (∀ i, (leafOf ps).mean i = (ps.map (fun p => p i)).sum) ∧
    (∀ i j, (leafOf ps).cov i j = (1 : NMat K) i j + (ps.map (fun p => p i * p j)).sum) ∧
    (leafOf ps).icov = 0 := by
  induction ps using List.reverseRecOn with
  | nil => refine ⟨rfl, fun i => ?_, fun i j => ?_, rfl⟩ <;> simp [leafOf, NdtLeaf.new]
  | append_singleton ps p ih =>
    obtain ⟨h1, h2, h3, h4⟩ := ih
    rw [leafOf_snoc]
    refine ⟨?_, ?_, ?_, h4⟩
    · show (leafOf ps).n + 1 = _
      rw [h1]; simp
    · intro i
      show (leafOf ps).mean i + p i = _
      rw [h2]; simp
    · intro i j
      show (leafOf ps).cov i j + p i * p j = _
      rw [h3]; simp [add_assoc]

/-- The first pass: each leaf is made of the points with its number, in their order. -/
theorem firstPass_lookup (c : NdtGridConfig K) (b : NdtBox) (ps : List (NVec K)) :
    ∀ (done : List (NVec K)) (m r : List (Int × NdtLeaf K)), KeysUp m →
    (∀ k, m.lookup k = if ∃ q ∈ done, leafIndex c b q = .ok k
      then some (leafOf (done.filter (fun q => decide (leafIndex c b q = .ok k)))) else none) →
    ndtFirstPass c b ps m = .ok r →
    KeysUp r ∧ (∀ q ∈ ps, ∃ k, leafIndex c b q = .ok k) ∧
    (∀ k, r.lookup k = if ∃ q ∈ done ++ ps, leafIndex c b q = .ok k
      then some (leafOf ((done ++ ps).filter (fun q => decide (leafIndex c b q = .ok k)))) else none) := by
  induction ps with
  | nil =>
    intro done m r hup hm h
    unfold ndtFirstPass at h
    injection h with h
    subst h
    rw [List.append_nil]
    exact ⟨hup, by simp, hm⟩
  | cons p ps ih =>
    intro done m r hup hm h
    unfold ndtFirstPass at h
    rw [Outcome.bind_eq_ok] at h
    obtain ⟨idx, hidx, h⟩ := h
    have key := ih (done ++ [p]) _ r (leafAt_up _ idx _ m hup) ?_ h
    · obtain ⟨k1, k2, k3⟩ := key
      rw [List.append_assoc, List.singleton_append] at k3
      refine ⟨k1, ?_, k3⟩
      intro q hq
      rcases List.mem_cons.1 hq with hq | hq
      · exact ⟨idx, by rw [hq]; exact hidx⟩
      · exact k2 q hq
    · intro k
      rw [leafAt_lookup _ _ _ _ hup]
      by_cases hk : k = idx
      · rw [if_pos hk, if_pos ⟨p, by simp, by rw [hidx, hk]⟩]
        congr 1
        rw [List.filter_append]
        have hp : [p].filter (fun q => decide (leafIndex c b q = .ok k)) = [p] := by
          simp [hidx, hk]
        rw [hp, leafOf_snoc, hm idx, ← hk]
        by_cases hex : ∃ q ∈ done, leafIndex c b q = .ok k
        · rw [if_pos hex]; rfl
        · rw [if_neg hex]
          have : done.filter (fun q => decide (leafIndex c b q = .ok k)) = [] := by
            rw [List.filter_eq_nil_iff]
            intro q hq hc
            exact hex ⟨q, hq, by simpa using hc⟩
          rw [this]; rfl
      · rw [if_neg hk, hm k]
        have hp : ¬ leafIndex c b p = .ok k := by
          rw [hidx]; intro h; injection h with h; exact hk h.symm
        have e1 : (∃ q ∈ done ++ [p], leafIndex c b q = .ok k) ↔ ∃ q ∈ done, leafIndex c b q = .ok k := by
          constructor
          · rintro ⟨q, hq, h2⟩
            rcases List.mem_append.1 hq with hq | hq
            · exact ⟨q, hq, h2⟩
            · rw [List.mem_singleton.1 hq] at h2
              exact absurd h2 hp
          · rintro ⟨q, hq, h2⟩
            exact ⟨q, by simp [hq], h2⟩
        have e2 : (done ++ [p]).filter (fun q => decide (leafIndex c b q = .ok k)) =
            done.filter (fun q => decide (leafIndex c b q = .ok k)) := by
          rw [List.filter_append]; simp [hp]
        simp only [e1, e2]

/-! ### numbers of leaves -/

theorem ndtFoldl_min_le (f : NVec K → K) (ps : List (NVec K)) (a : K) :
    ps.foldl (fun m q => min m (f q)) a ≤ a ∧ ∀ q ∈ ps, ps.foldl (fun m q => min m (f q)) a ≤ f q := by
  induction ps generalizing a with
  | nil => simp
  | cons p ps ih =>
    simp only [List.foldl_cons]
    obtain ⟨h1, h2⟩ := ih (min a (f p))
    refine ⟨h1.trans (min_le_left _ _), ?_⟩
    intro q hq
    rcases List.mem_cons.1 hq with hq | hq
    · rw [hq]; exact h1.trans (min_le_right _ _)
    · exact h2 q hq

theorem ndtFoldl_max_ge (f : NVec K → K) (ps : List (NVec K)) (a : K) :
    a ≤ ps.foldl (fun m q => max m (f q)) a ∧ ∀ q ∈ ps, f q ≤ ps.foldl (fun m q => max m (f q)) a := by
  induction ps generalizing a with
  | nil => simp
  | cons p ps ih =>
    simp only [List.foldl_cons]
    obtain ⟨h1, h2⟩ := ih (max a (f p))
    refine ⟨(le_max_left _ _).trans h1, ?_⟩
    intro q hq
    rcases List.mem_cons.1 hq with hq | hq
    · rw [hq]; exact (le_max_right _ _).trans h1
    · exact h2 q hq

/-- Every point of the cloud lies in the box. -/
theorem ndtBox_holds (c : NdtGridConfig K) (hl : 0 < c.leaf) (p : NVec K) (ps : List (NVec K)) (q : NVec K)
    (hq : q ∈ p :: ps) (i : Fin 3) :
    (ndtBox c p ps).lo i ≤ ⌊q i * (1 / c.leaf)⌋ ∧ ⌊q i * (1 / c.leaf)⌋ ≤ (ndtBox c p ps).hi i := by
  have hpos : 0 ≤ 1 / c.leaf := by positivity
  have hm := ndtFoldl_min_le (fun q => q i) ps (p i)
  have hM := ndtFoldl_max_ge (fun q => q i) ps (p i)
  have hb : coordMin i p ps ≤ q i ∧ q i ≤ coordMax i p ps := by
    unfold coordMin coordMax
    rcases List.mem_cons.1 hq with hq | hq
    · rw [hq]; exact ⟨hm.1, hM.1⟩
    · exact ⟨hm.2 q hq, hM.2 q hq⟩
  exact ⟨Int.floor_le_floor (mul_le_mul_of_nonneg_right hb.1 hpos),
    Int.floor_le_floor (mul_le_mul_of_nonneg_right hb.2 hpos)⟩

theorem ndtInt_ok {z r : Int} (h : ndtInt z = .ok r) : r = z := by
  unfold ndtInt at h
  split at h
  · injection h with h; exact h.symm
  · cases h

theorem ndtInt_of {z : Int} (h1 : -2147483648 ≤ z) (h2 : z ≤ 2147483647) : ndtInt z = .ok z := by
  unfold ndtInt
  rw [if_pos ⟨h1, h2⟩]

/-- The number of a leaf, written in the three coordinates of its cube. -/
def mixedRadix (b : NdtBox) (cube : Fin 3 → Int) : Int :=
  (cube 0 - b.lo 0) + (cube 1 - b.lo 1) * b.div 0 + (cube 2 - b.lo 2) * (b.div 0 * b.div 1)

theorem floor_cube (c : NdtGridConfig K) (p : NVec K) (i : Fin 3) : ⌊p i * (1 / c.leaf)⌋ = cubeOf c.leaf p i := by
  unfold cubeOf
  rw [mul_one_div]

theorem leafIndex_ok (c : NdtGridConfig K) (b : NdtBox) (p : NVec K) (k : Int) (h : leafIndex c b p = .ok k) :
    k = mixedRadix b (cubeOf c.leaf p) := by
  unfold leafIndex at h
  simp only [Outcome.bind_eq_ok] at h
  obtain ⟨i0, h0, i1, h1, i2, h2, a1, h3, a2, h4, s, h5, h6⟩ := h
  rw [ndtInt_ok h6, ndtInt_ok h5, ndtInt_ok h4, ndtInt_ok h3, ndtInt_ok h2, ndtInt_ok h1, ndtInt_ok h0]
  simp only [floor_cube]
  rfl

theorem radix_unique {a b c a' b' c' m n : Int} (ha : 0 ≤ a ∧ a < m) (ha' : 0 ≤ a' ∧ a' < m)
    (hb : 0 ≤ b ∧ b < n) (hb' : 0 ≤ b' ∧ b' < n)
    (h : a + b * m + c * (m * n) = a' + b' * m + c' * (m * n)) : a = a' ∧ b = b' ∧ c = c' := by
  have e1 : a = a' := by
    have h1 : (a + m * (b + c * n)) % m = (a' + m * (b' + c' * n)) % m := by
      congr 1; linarith [h]
    rw [Int.add_mul_emod_self_left, Int.add_mul_emod_self_left, Int.emod_eq_of_lt ha.1 ha.2,
      Int.emod_eq_of_lt ha'.1 ha'.2] at h1
    exact h1
  have hm : m ≠ 0 := by omega
  have h2 : b + n * c = b' + n * c' := by
    have : m * (b + n * c) = m * (b' + n * c') := by rw [e1] at h; linarith [h]
    exact mul_left_cancel₀ hm this
  have e2 : b = b' := by
    have h3 := congrArg (· % n) h2
    simp only [Int.add_mul_emod_self_left] at h3
    rwa [Int.emod_eq_of_lt hb.1 hb.2, Int.emod_eq_of_lt hb'.1 hb'.2] at h3
  have hn : n ≠ 0 := by omega
  refine ⟨e1, e2, ?_⟩
  rw [e2] at h2
  exact mul_left_cancel₀ hn (by linarith)

/-- Points in the box have the same leaf number exactly if they are in the same cube. -/
theorem mixedRadix_inj (b : NdtBox) (u v : Fin 3 → Int) (hu : ∀ i, b.lo i ≤ u i ∧ u i ≤ b.hi i)
    (hv : ∀ i, b.lo i ≤ v i ∧ v i ≤ b.hi i) (h : mixedRadix b u = mixedRadix b v) : u = v := by
  unfold mixedRadix at h
  have u0 := hu 0; have u1 := hu 1; have v0 := hv 0; have v1 := hv 1
  obtain ⟨h0, h1, h2⟩ := radix_unique (m := b.div 0) (n := b.div 1)
    (by unfold NdtBox.div; omega) (by unfold NdtBox.div; omega) (by unfold NdtBox.div; omega)
    (by unfold NdtBox.div; omega) h
  funext i
  match i with
  | 0 => omega
  | 1 => omega
  | 2 => omega

theorem radix_bounds {i0 i1 i2 d0 d1 d2 : Int} (h0 : 0 ≤ i0 ∧ i0 ≤ d0 - 1) (h1 : 0 ≤ i1 ∧ i1 ≤ d1 - 1)
    (h2 : 0 ≤ i2 ∧ i2 ≤ d2 - 1) : 0 ≤ i1 * d0 ∧ 0 ≤ i2 * (d0 * d1) ∧ d0 * d1 ≤ d0 * d1 * d2 ∧
      d0 ≤ d0 * d1 * d2 ∧ d1 ≤ d0 * d1 * d2 ∧ d2 ≤ d0 * d1 * d2 ∧
      i0 + i1 * d0 + i2 * (d0 * d1) ≤ d0 * d1 * d2 - 1 := by
  have e0 : 1 ≤ d0 := by omega
  have e1 : 1 ≤ d1 := by omega
  have e2 : 1 ≤ d2 := by omega
  have e01 : 1 ≤ d0 * d1 := by nlinarith
  have e12 : 1 ≤ d1 * d2 := by nlinarith
  have e02 : 1 ≤ d0 * d2 := by nlinarith
  refine ⟨mul_nonneg h1.1 (by omega), mul_nonneg h2.1 (by omega), by nlinarith, by nlinarith, by nlinarith,
    by nlinarith, ?_⟩
  have k1 : i1 * d0 ≤ (d1 - 1) * d0 := mul_le_mul_of_nonneg_right h1.2 (by omega)
  have k2 : i2 * (d0 * d1) ≤ (d2 - 1) * (d0 * d1) := mul_le_mul_of_nonneg_right h2.2 (by omega)
  nlinarith

theorem leafIndex_fits (c : NdtGridConfig K) (b : NdtBox) (hb : Fits b) (p : NVec K)
    (hp : ∀ i, b.lo i ≤ ⌊p i * (1 / c.leaf)⌋ ∧ ⌊p i * (1 / c.leaf)⌋ ≤ b.hi i) :
    ∃ k, leafIndex c b p = .ok k := by
  have h0 := hp 0; have h1 := hp 1; have h2 := hp 2
  obtain ⟨r1, r2, r3, r4, r5, r6, r7⟩ := radix_bounds (d0 := b.div 0) (d1 := b.div 1) (d2 := b.div 2)
    (i0 := ⌊p 0 * (1 / c.leaf)⌋ - b.lo 0) (i1 := ⌊p 1 * (1 / c.leaf)⌋ - b.lo 1)
    (i2 := ⌊p 2 * (1 / c.leaf)⌋ - b.lo 2) (by unfold NdtBox.div; omega) (by unfold NdtBox.div; omega)
    (by unfold NdtBox.div; omega)
  have hd := hb.2
  have q0 : ⌊p 0 * (1 / c.leaf)⌋ - b.lo 0 ≤ b.div 0 - 1 := by unfold NdtBox.div; omega
  have q1 : ⌊p 1 * (1 / c.leaf)⌋ - b.lo 1 ≤ b.div 1 - 1 := by unfold NdtBox.div; omega
  have q2 : ⌊p 2 * (1 / c.leaf)⌋ - b.lo 2 ≤ b.div 2 - 1 := by unfold NdtBox.div; omega
  unfold leafIndex
  rw [ndtInt_of (z := ⌊p 0 * (1 / c.leaf)⌋ - b.lo 0) (by omega) (by omega), Outcome.bind_ok,
    ndtInt_of (z := ⌊p 1 * (1 / c.leaf)⌋ - b.lo 1) (by omega) (by omega), Outcome.bind_ok,
    ndtInt_of (z := ⌊p 2 * (1 / c.leaf)⌋ - b.lo 2) (by omega) (by omega), Outcome.bind_ok,
    ndtInt_of (z := (⌊p 1 * (1 / c.leaf)⌋ - b.lo 1) * b.div 0) (by omega) (by omega), Outcome.bind_ok,
    ndtInt_of (z := (⌊p 2 * (1 / c.leaf)⌋ - b.lo 2) * (b.div 0 * b.div 1)) (by omega) (by omega), Outcome.bind_ok,
    ndtInt_of (by omega) (by omega), Outcome.bind_ok, ndtInt_of (by omega) (by omega)]
  exact ⟨_, rfl⟩

theorem firstPass_ok (c : NdtGridConfig K) (b : NdtBox) (ps : List (NVec K))
    (h : ∀ q ∈ ps, ∃ k, leafIndex c b q = .ok k) (m : List (Int × NdtLeaf K)) :
    ∃ r, ndtFirstPass c b ps m = .ok r := by
  induction ps generalizing m with
  | nil => exact ⟨m, rfl⟩
  | cons p ps ih =>
    obtain ⟨k, hk⟩ := h p (by simp)
    unfold ndtFirstPass
    rw [hk, Outcome.bind_ok]
    exact ih (fun q hq => h q (by simp [hq])) _

/-! ### the covariance -/

theorem scatter_sum (f g : NVec K → K) (a b : K) (ms : List (NVec K)) :
    (ms.map (fun p => (f p - a) * (g p - b))).sum =
      (ms.map (fun p => f p * g p)).sum - a * (ms.map g).sum - b * (ms.map f).sum + (ms.length : K) * (a * b) := by
  induction ms with
  | nil => simp
  | cons p ms ih =>
    simp only [List.map_cons, List.sum_cons, List.length_cons]
    rw [ih]
    push_cast
    ring

theorem ndtCov_eq (ms : List (NVec K)) (h : ms ≠ []) : ndtCov (leafOf ms) = cellMatrix ms := by
  obtain ⟨h1, h2, h3, _⟩ := leafOf_values ms
  have hn : (ms.length : K) ≠ 0 := by
    have := List.length_pos_iff.2 h
    exact_mod_cast (by omega : ms.length ≠ 0)
  funext i j
  unfold ndtCov cellMatrix populationCov scatter outer
  dsimp only
  rw [scatter_sum (fun p => p i) (fun p => p j), h1, h2, h2, h3]
  unfold meanPoint
  push_cast
  field_simp
  ring

/-- The quadratic form of a cell's matrix is positive. -/
theorem quad_scatter (ms : List (NVec K)) (v : NVec K) (a : NVec K) :
    (ms.map (fun p => ((v 0 * (p 0 - a 0) + v 1 * (p 1 - a 1) + v 2 * (p 2 - a 2)) ^ 2))).sum =
    ∑ i, ∑ j, v i * (ms.map (fun p => (p i - a i) * (p j - a j))).sum * v j := by
  induction ms with
  | nil => simp
  | cons p ms ih =>
    simp only [List.map_cons, List.sum_cons]
    rw [ih]
    simp only [Fin.sum_univ_three]
    ring

theorem sum_sq_nonneg (ms : List (NVec K)) (f : NVec K → K) : 0 ≤ (ms.map (fun p => f p ^ 2)).sum := by
  apply List.sum_nonneg
  intro x hx
  obtain ⟨p, _, rfl⟩ := List.mem_map.1 hx
  positivity

theorem cellMatrix_pos (ms : List (NVec K)) (h : 2 ≤ ms.length) (v : NVec K) (hv : v 0 ^ 2 + v 1 ^ 2 + v 2 ^ 2 = 1) :
    0 < ∑ i, ∑ j, v i * cellMatrix ms i j * v j := by
  have hn : (0 : K) < ms.length := by exact_mod_cast (by omega : 0 < ms.length)
  have hn1 : (0 : K) < (ms.length : K) - 1 := by
    have : (2 : K) ≤ ms.length := by exact_mod_cast h
    linarith
  have e : ∑ i, ∑ j, v i * cellMatrix ms i j * v j =
      ((ms.length : K) - 1) / (ms.length : K) * ((∑ i, ∑ j, v i * scatter ms i j * v j) / (ms.length : K) +
        (v 0 ^ 2 + v 1 ^ 2 + v 2 ^ 2) / (ms.length : K)) := by
    unfold cellMatrix populationCov
    simp only [Fin.sum_univ_three, Matrix.one_apply]
    simp
    ring
  rw [e, hv]
  have hs : 0 ≤ ∑ i, ∑ j, v i * scatter ms i j * v j := by
    unfold scatter
    rw [← quad_scatter ms v (meanPoint ms)]
    exact sum_sq_nonneg ms _
  positivity

end
end Verif
