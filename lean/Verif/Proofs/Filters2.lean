import Verif.Proofs.Filters
import Mathlib.Algebra.Order.BigOperators.Group.List
import Mathlib.Tactic.NormNum
import Mathlib.Algebra.Order.Floor.Ring
/-! Lemmas about the voxel based filters and the range image. -/
namespace Verif
open Spec

/-! ### ground removal -/

/-- voxel of a point index -/
def idxKey (cfg : GroundCfg) (pts : List (InnerPoint Rat)) (i : Nat) : Voxel :=
  match pts[i]? with
  | some p => groundKey cfg p
  | none => ⟨0, 0, 0⟩

theorem countP_range (pts : List (InnerPoint Rat)) (f : InnerPoint Rat → Bool) (g : Nat → Bool)
    (h : ∀ (i : Nat) (hi : i < pts.length), g i = f pts[i]) :
    pts.countP f = (List.range pts.length).countP g := by
  have h1 : pts = pts.zipIdx.map Prod.fst := (List.zipIdx_map_fst 0 pts).symm
  have h2 : List.range pts.length = pts.zipIdx.map Prod.snd := by
    rw [List.zipIdx_map_snd, List.range_eq_range']
  rw [h2]
  conv_lhs => rw [h1]
  rw [List.countP_map, List.countP_map]
  apply List.countP_congr
  intro q hq
  obtain ⟨a, b⟩ := List.mem_zipIdx' (x := q.1) (i := q.2) (xs := pts) (by simpa using hq)
  simp only [Function.comp_apply]
  rw [h q.2 a, b]

theorem groundTable_inv (cfg : GroundCfg) (c : InnerCloud Rat) :
    TableInv (idxKey cfg c.points) (List.range c.points.length) (groundTable cfg c) := by
  have h := tableInv_all (idxKey cfg c.points) (List.range c.points.length)
  have e : groundTable cfg c = bucketAll (idxKey cfg c.points) (List.range c.points.length) := by
    unfold groundTable bucketAll
    have hr : List.range c.points.length = c.points.zipIdx.map Prod.snd := by
      rw [List.zipIdx_map_snd, List.range_eq_range']
    rw [hr, List.foldl_map]
    apply List.foldl_ext
    intro t q hq
    have := List.mem_zipIdx' (x := q.1) (i := q.2) (xs := c.points) (by simpa using hq)
    obtain ⟨h1, h2⟩ := this
    congr 1
    unfold idxKey
    rw [List.getElem?_eq_getElem h1, h2]
  rw [e]; exact h

theorem groundLoop_mem (cfg : GroundCfg) (c : InnerCloud Rat) (t : List (Voxel × List Nat)) (i : Nat) :
    (i ∈ (groundLoop cfg c t).inl ↔ ∃ e ∈ t, i ∈ e.2 ∧ ¬ ((e.2.length : Int) < cfg.minPoints) ∧
      voxelIsGround cfg c.points e.1 e.2 = false) ∧
    (i ∈ (groundLoop cfg c t).outl ↔ ∃ e ∈ t, i ∈ e.2 ∧ ¬ ((e.2.length : Int) < cfg.minPoints) ∧
      voxelIsGround cfg c.points e.1 e.2 = true) := by
  induction t with
  | nil => simp [groundLoop]
  | cons e t ih =>
    obtain ⟨v, idx⟩ := e
    simp only [groundLoop]
    by_cases h1 : (idx.length : Int) < cfg.minPoints
    · simp only [h1, if_true, List.mem_cons, exists_eq_or_imp, not_true, false_and, and_false, false_or]
      exact ih
    · simp only [h1, if_false, List.mem_cons, exists_eq_or_imp, not_false_eq_true, true_and]
      cases h2 : voxelIsGround cfg c.points v idx
      · simp only [Bool.false_eq_true, if_false, List.mem_append, ih.1, ih.2, and_true, and_false, false_or]
      · simp only [if_true, List.mem_append, ih.1, ih.2]
        simp

theorem groundLoop_sub (cfg : GroundCfg) (c : InnerCloud Rat) (t : List (Voxel × List Nat)) :
    ((groundLoop cfg c t).inl ++ (groundLoop cfg c t).outl).Subperm (t.flatMap Prod.snd) := by
  induction t with
  | nil => simp [groundLoop]
  | cons e t ih =>
    obtain ⟨v, idx⟩ := e
    simp only [groundLoop, List.flatMap_cons]
    split
    · exact ih.trans (List.sublist_append_right _ _).subperm
    · split
      · have : ((groundLoop cfg c t).inl ++ (idx ++ (groundLoop cfg c t).outl)).Perm
            (idx ++ ((groundLoop cfg c t).inl ++ (groundLoop cfg c t).outl)) := by
          rw [← List.append_assoc, ← List.append_assoc]
          exact List.perm_append_comm.append_right _
        exact this.subperm.trans ((List.subperm_append_left idx).2 ih)
      · simp only [List.append_assoc]
        exact (List.subperm_append_left idx).2 ih

theorem groundLoop_points (cfg : GroundCfg) (c : InnerCloud Rat) (t : List (Voxel × List Nat)) :
    (groundLoop cfg c t).pts = (groundLoop cfg c t).inl.filterMap (fun i => c.points[i]?) := by
  induction t with
  | nil => simp [groundLoop]
  | cons e t ih =>
    obtain ⟨v, idx⟩ := e
    simp only [groundLoop]
    split
    · exact ih
    · split
      · exact ih
      · simp [ih]

theorem sorted_of_nodup (l : List Nat) (h : l.Nodup) :
    (l.mergeSort (fun a b => decide (a ≤ b))).Pairwise (· < ·) := by
  have h1 : (l.mergeSort (fun a b => decide (a ≤ b))).Pairwise (fun a b => decide (a ≤ b) = true) :=
    List.pairwise_mergeSort (by intro a b c; simp; omega) (by intro a b; simp; omega) l
  have h2 : (l.mergeSort (fun a b => decide (a ≤ b))).Nodup := (List.mergeSort_perm l _).nodup_iff.2 h
  refine List.Pairwise.imp ?_ (h1.and h2)
  intro a b hab
  simp only [decide_eq_true_eq] at hab
  omega

/-- fold maximum/minimum -/
theorem zSpread_foldl (zs : List Rat) (a b : Rat) :
    let m := zs.foldl (fun m z => (if z > m.1 then z else m.1, if z < m.2 then z else m.2)) (a, b)
    (a ≤ m.1 ∧ ∀ z ∈ zs, z ≤ m.1) ∧ (m.1 = a ∨ m.1 ∈ zs) ∧
    (m.2 ≤ b ∧ ∀ z ∈ zs, m.2 ≤ z) ∧ (m.2 = b ∨ m.2 ∈ zs) := by
  induction zs generalizing a b with
  | nil => simp
  | cons z zs ih =>
    obtain ⟨⟨h1, h2⟩, h3, ⟨h4, h5⟩, h6⟩ := ih (if z > a then z else a) (if z < b then z else b)
    simp only [List.foldl_cons]
    have ha : a ≤ (if z > a then z else a) ∧ z ≤ (if z > a then z else a) ∧
        ((if z > a then z else a) = a ∨ (if z > a then z else a) = z) := by
      split
      · rename_i h; exact ⟨le_of_lt h, le_refl _, Or.inr rfl⟩
      · rename_i h; exact ⟨le_refl _, not_lt.1 h, Or.inl rfl⟩
    have hb : (if z < b then z else b) ≤ b ∧ (if z < b then z else b) ≤ z ∧
        ((if z < b then z else b) = b ∨ (if z < b then z else b) = z) := by
      split
      · rename_i h; exact ⟨le_of_lt h, le_refl _, Or.inr rfl⟩
      · rename_i h; exact ⟨le_refl _, not_lt.1 h, Or.inl rfl⟩
    generalize (if z > a then z else a) = a' at *
    generalize (if z < b then z else b) = b' at *
    refine ⟨⟨le_trans ha.1 h1, ?_⟩, ?_, ⟨le_trans h4 hb.1, ?_⟩, ?_⟩
    · intro y hy
      rcases List.mem_cons.1 hy with rfl | hy
      · exact le_trans ha.2.1 h1
      · exact h2 y hy
    · rcases h3 with h | h
      · rcases ha.2.2 with h' | h'
        · exact Or.inl (by rw [h, h'])
        · exact Or.inr (by rw [h, h']; simp)
      · exact Or.inr (List.mem_cons_of_mem _ h)
    · intro y hy
      rcases List.mem_cons.1 hy with rfl | hy
      · exact le_trans h4 hb.2.1
      · exact h5 y hy
    · rcases h6 with h | h
      · rcases hb.2.2 with h' | h'
        · exact Or.inl (by rw [h, h'])
        · exact Or.inr (by rw [h, h']; simp)
      · exact Or.inr (List.mem_cons_of_mem _ h)

/-- the spread test is the test that all heights are within the threshold of each other -/
theorem zSpread_le (zs : List Rat) (hne : zs ≠ []) (hb : ∀ z ∈ zs, -1000000000 ≤ z ∧ z ≤ 1000000000)
    (t : Rat) :
    (0 ≤ (zSpread zs).1 - (zSpread zs).2 ∧ (zSpread zs).1 - (zSpread zs).2 ≤ t) ↔
      ∀ a ∈ zs, ∀ b ∈ zs, a - b ≤ t := by
  obtain ⟨⟨h1, h2⟩, h3, ⟨h4, h5⟩, h6⟩ := zSpread_foldl zs (-1000000000) 1000000000
  change (-1000000000 : Rat) ≤ (zSpread zs).1 at h1
  change ∀ z ∈ zs, z ≤ (zSpread zs).1 at h2
  change (zSpread zs).1 = _ ∨ (zSpread zs).1 ∈ zs at h3
  change (zSpread zs).2 ≤ (1000000000 : Rat) at h4
  change ∀ z ∈ zs, (zSpread zs).2 ≤ z at h5
  change (zSpread zs).2 = _ ∨ (zSpread zs).2 ∈ zs at h6
  have hmax : (zSpread zs).1 ∈ zs := by
    rcases h3 with h | h
    · cases zs with
      | nil => exact absurd rfl hne
      | cons z zs =>
        have ha := h2 z (by simp)
        have hb' := (hb z (by simp)).1
        have : (zSpread (z :: zs)).1 = z := by rw [h] at ha ⊢; exact le_antisymm hb' ha
        rw [this]; simp
    · exact h
  have hmin : (zSpread zs).2 ∈ zs := by
    rcases h6 with h | h
    · cases zs with
      | nil => exact absurd rfl hne
      | cons z zs =>
        have ha := h5 z (by simp)
        have hb' := (hb z (by simp)).2
        have : (zSpread (z :: zs)).2 = z := by rw [h] at ha ⊢; exact le_antisymm ha hb'
        rw [this]; simp
    · exact h
  constructor
  · rintro ⟨-, h⟩ a ha b hb
    have := h2 a ha; have := h5 b hb; linarith
  · intro h
    refine ⟨?_, h _ hmax _ hmin⟩
    have := h5 _ hmax; linarith

/-! ### range image -/
section image
variable {R : Type} [Field R] [LinearOrder R]
  (near tiny : R) (G : ImageGeom R) (rows cols : Int)

/-- The pixel of a point, if it falls into the image. -/
def pixelOf (p : InnerPoint R) : Option (Int × Int) :=
  let col := if G.col p ≥ cols then G.col p - cols else G.col p
  if G.xyDist p < near ∨ G.row p < 0 ∨ G.row p ≥ rows ∨ col < 0 ∨ col ≥ cols then none
  else some (G.row p, col)

theorem imageKeep_eq (s : ImageState R) (i : Nat) (p : InnerPoint R) :
    imageKeep near tiny G rows cols s i p =
      match pixelOf near G rows cols p with
      | none => (false, s)
      | some q => if s.cell q < tiny then
          (true, ⟨fun q' => if q' = q then G.range p else s.cell q',
                  fun q' => if q' = q then some i else s.index q'⟩) else (false, s) := by
  unfold imageKeep pixelOf
  dsimp only
  by_cases h1 : G.xyDist p < near
  · rw [if_pos h1, if_pos (Or.inl h1)]
  · rw [if_neg h1]
    by_cases h2 : G.row p < 0 ∨ G.row p ≥ rows
    · rw [if_pos h2, if_pos (by tauto)]
    · rw [if_neg h2]
      by_cases h3 : (if G.col p ≥ cols then G.col p - cols else G.col p) < 0 ∨
          (if G.col p ≥ cols then G.col p - cols else G.col p) ≥ cols
      · rw [if_pos h3, if_pos (by tauto)]
      · rw [if_neg h3, if_neg (c := _ ∨ _) (by tauto)]

theorem image_cell_mono (hnt : tiny ≤ near) (s : ImageState R) (i : Nat) (ps : List (InnerPoint R))
    (q : Int × Int) (h : ¬ s.cell q < tiny) :
    ¬ (scanFrom (imageKeep near tiny G rows cols) s i ps).2.cell q < tiny := by
  induction ps generalizing s i with
  | nil => simpa [scanFrom] using h
  | cons p ps ih =>
    have h' : ¬ (imageKeep near tiny G rows cols s i p).2.cell q < tiny := by
      rw [imageKeep_eq]
      cases hp : pixelOf near G rows cols p with
      | none => exact h
      | some q0 =>
        dsimp only
        split
        · dsimp only
          split
          · have hx : ¬ G.xyDist p < near := by
              intro hx; unfold pixelOf at hp; dsimp only at hp; rw [if_pos (Or.inl hx)] at hp; exact absurd hp (by simp)
            have := G.rangePos p
            exact not_lt.2 (le_trans hnt (le_trans (not_lt.1 hx) this))
          · exact h
        · exact h
    have := ih _ (i + 1) h'
    simp only [scanFrom]
    split <;> exact this

/-- after the pass every point of the cloud that falls into the image finds its pixel taken -/
theorem image_taken (hnt : tiny ≤ near) (s : ImageState R) (i : Nat) (ps : List (InnerPoint R))
    (p : InnerPoint R) (hp : p ∈ ps) (q : Int × Int) (hq : pixelOf near G rows cols p = some q) :
    ¬ (scanFrom (imageKeep near tiny G rows cols) s i ps).2.cell q < tiny := by
  induction ps generalizing s i with
  | nil => simp at hp
  | cons p0 ps ih =>
    have goal2 : ¬ (scanFrom (imageKeep near tiny G rows cols)
        (imageKeep near tiny G rows cols s i p0).2 (i + 1) ps).2.cell q < tiny := by
      rcases List.mem_cons.1 hp with rfl | hp
      · apply image_cell_mono near tiny G rows cols hnt
        rw [imageKeep_eq, hq]
        dsimp only
        split
        · have hx : ¬ G.xyDist p < near := by
            intro hx; unfold pixelOf at hq; dsimp only at hq; rw [if_pos (Or.inl hx)] at hq; exact absurd hq (by simp)
          have := G.rangePos p
          simpa using not_lt.2 (le_trans hnt (le_trans (not_lt.1 hx) this))
        · assumption
      · exact ih _ _ hp
    simp only [scanFrom]
    split <;> exact goal2

theorem image_blocked (s : ImageState R) (i : Nat) (ps : List (InnerPoint R))
    (h : ∀ p ∈ ps, ∀ q, pixelOf near G rows cols p = some q → ¬ s.cell q < tiny) :
    (scanFrom (imageKeep near tiny G rows cols) s i ps).1.inl = [] ∧
    (scanFrom (imageKeep near tiny G rows cols) s i ps).2 = s := by
  induction ps generalizing i with
  | nil => simp [scanFrom]
  | cons p ps ih =>
    have hk : imageKeep near tiny G rows cols s i p = (false, s) := by
      rw [imageKeep_eq]
      cases hp : pixelOf near G rows cols p with
      | none => rfl
      | some q => dsimp only; rw [if_neg (h p (by simp) q hp)]
    simp only [scanFrom, hk]
    exact ih (i + 1) (fun p hp => h p (List.mem_cons_of_mem _ hp))

/-- which indices are kept: those in the image whose pixel is free and not claimed before -/
theorem image_mem (hnt : tiny ≤ near) (s : ImageState R) (i : Nat) (ps : List (InnerPoint R)) (j : Nat) :
    j ∈ (scanFrom (imageKeep near tiny G rows cols) s i ps).1.inl ↔
      i ≤ j ∧ ∃ p q, ps[j - i]? = some p ∧ pixelOf near G rows cols p = some q ∧ s.cell q < tiny ∧
        ∀ k p', k < j - i → ps[k]? = some p' → pixelOf near G rows cols p' ≠ some q := by
  induction ps generalizing s i with
  | nil => simp [scanFrom]
  | cons p0 ps ih =>
    have ih' := ih (imageKeep near tiny G rows cols s i p0).2 (i + 1)
    have hmem : j ∈ (scanFrom (imageKeep near tiny G rows cols) s i (p0 :: ps)).1.inl ↔
        ((imageKeep near tiny G rows cols s i p0).1 = true ∧ j = i) ∨
        j ∈ (scanFrom (imageKeep near tiny G rows cols) (imageKeep near tiny G rows cols s i p0).2
          (i + 1) ps).1.inl := by
      simp only [scanFrom]
      by_cases hk : (imageKeep near tiny G rows cols s i p0).1 = true
      · simp [hk]
      · simp [hk]
    rw [hmem, ih']
    constructor
    · rintro (⟨h1, rfl⟩ | ⟨h1, p, q, h2, h3, h4, h5⟩)
      · refine ⟨le_refl _, p0, ?_⟩
        rw [imageKeep_eq] at h1
        cases hp : pixelOf near G rows cols p0 with
        | none => rw [hp] at h1; simp at h1
        | some q =>
          rw [hp] at h1
          dsimp only at h1
          refine ⟨q, by simp, rfl, ?_, by intro k p' hk; omega⟩
          by_contra hc
          rw [if_neg hc] at h1
          simp at h1
      · refine ⟨by omega, p, q, ?_, h3, ?_, ?_⟩
        · have e : j - i = (j - (i + 1)) + 1 := by omega
          rw [e]; simpa using h2
        · -- the cell was free before p0
          rw [imageKeep_eq] at h4
          cases hp : pixelOf near G rows cols p0 with
          | none => rw [hp] at h4; exact h4
          | some q0 =>
            rw [hp] at h4
            dsimp only at h4
            by_cases hc : s.cell q0 < tiny
            · rw [if_pos hc] at h4
              dsimp only at h4
              by_cases hqq : q = q0
              · rw [hqq]; exact hc
              · rw [if_neg hqq] at h4; exact h4
            · rw [if_neg hc] at h4; exact h4
        · intro k p' hk hp'
          cases k with
          | zero =>
            simp at hp'
            subst hp'
            intro hc
            rw [imageKeep_eq, hc] at h4
            dsimp only at h4
            by_cases hcell : s.cell q < tiny
            · rw [if_pos hcell] at h4
              simp only [if_true] at h4
              have hx : ¬ G.xyDist p0 < near := by
                intro hx; unfold pixelOf at hc; dsimp only at hc; rw [if_pos (Or.inl hx)] at hc; exact absurd hc (by simp)
              exact absurd h4 (not_lt.2 (le_trans hnt (le_trans (not_lt.1 hx) (G.rangePos p0))))
            · rw [if_neg hcell] at h4; exact hcell h4
          | succ k =>
            exact h5 k p' (by omega) (by simpa using hp')
    · rintro ⟨h1, p, q, h2, h3, h4, h5⟩
      by_cases hj : j = i
      · refine Or.inl ⟨?_, hj⟩
        subst hj
        simp at h2
        subst h2
        rw [imageKeep_eq, h3]
        dsimp only
        rw [if_pos h4]
      · refine Or.inr ⟨by omega, p, q, ?_, h3, ?_, ?_⟩
        · have e : j - i = (j - (i + 1)) + 1 := by omega
          rw [e] at h2; simpa using h2
        · rw [imageKeep_eq]
          have h0 := h5 0 p0 (by omega) (by simp)
          cases hp : pixelOf near G rows cols p0 with
          | none => exact h4
          | some q0 =>
            dsimp only
            split
            · dsimp only
              have : ¬ q = q0 := by rintro rfl; exact h0 hp
              rw [if_neg this]; exact h4
            · exact h4
        · intro k p' hk hp'
          exact h5 (k + 1) p' (by omega) (by simpa using hp')

end image

/-! ### voxel grid -/

theorem lround_mono {a b : Rat} (h : a ≤ b) : lround a ≤ lround b := by
  unfold lround
  by_cases ha : 0 ≤ a
  · have hb : 0 ≤ b := le_trans ha h
    rw [if_pos ha, if_pos hb]
    exact Int.floor_le_floor (by gcongr)
  · rw [if_neg ha]
    by_cases hb : 0 ≤ b
    · rw [if_pos hb]
      have h1 : ⌈a - 1 / 2⌉ ≤ 0 := by
        rw [Int.ceil_le]; push_cast; linarith
      have h2 : 0 ≤ ⌊b + 1 / 2⌋ := by
        rw [Int.le_floor]; push_cast; linarith
      exact le_trans h1 h2
    · rw [if_neg hb]
      exact Int.ceil_le_ceil (by gcongr)

theorem exists_le_mean (xs : List Rat) (h : xs ≠ []) : (∃ x ∈ xs, x ≤ mean xs) ∧ (∃ x ∈ xs, mean xs ≤ x) := by
  have hpos : (0 : Rat) < xs.length := by
    have : 0 < xs.length := List.length_pos_iff.2 h
    exact_mod_cast this
  constructor
  · by_contra hc
    push_neg at hc
    have : ∀ (ys : List Rat) (m : Rat), ys ≠ [] → (∀ x ∈ ys, m < x) → m * ys.length < ys.sum := by
      intro ys m hne hall
      induction ys with
      | nil => exact absurd rfl hne
      | cons y ys ih =>
        by_cases hy : ys = []
        · subst hy; simpa using hall y (by simp)
        · have := ih hy (fun x hx => hall x (by simp [hx]))
          have hy' := hall y (by simp)
          simp only [List.length_cons, List.sum_cons]
          push_cast
          linarith
    have h1 := this xs (mean xs) h hc
    unfold mean at h1
    rw [div_mul_cancel₀ _ (ne_of_gt hpos)] at h1
    exact lt_irrefl _ h1
  · by_contra hc
    push_neg at hc
    have : ∀ (ys : List Rat) (m : Rat), ys ≠ [] → (∀ x ∈ ys, x < m) → ys.sum < m * ys.length := by
      intro ys m hne hall
      induction ys with
      | nil => exact absurd rfl hne
      | cons y ys ih =>
        by_cases hy : ys = []
        · subst hy; simpa using hall y (by simp)
        · have := ih hy (fun x hx => hall x (by simp [hx]))
          have hy' := hall y (by simp)
          simp only [List.length_cons, List.sum_cons]
          push_cast
          linarith
    have h1 := this xs (mean xs) h hc
    unfold mean at h1
    rw [div_mul_cancel₀ _ (ne_of_gt hpos)] at h1
    exact lt_irrefl _ h1

/-- the mean of values in one cell is in that cell -/
theorem lround_mean (xs : List Rat) (h : xs ≠ []) (size : Rat) (hs : 0 < size) (k : Int)
    (hk : ∀ x ∈ xs, lround (x / size) = k) : lround (mean xs / size) = k := by
  obtain ⟨⟨x, hx, h1⟩, ⟨y, hy, h2⟩⟩ := exists_le_mean xs h
  apply le_antisymm
  · rw [← hk y hy]; exact lround_mono (div_le_div_of_nonneg_right h2 (le_of_lt hs))
  · rw [← hk x hx]; exact lround_mono (div_le_div_of_nonneg_right h1 (le_of_lt hs))

/-- the mean point of a list -/
def meanPoint (ps : List (InnerPoint Rat)) : InnerPoint Rat where
  x := mean (ps.map InnerPoint.x)
  y := mean (ps.map InnerPoint.y)
  z := mean (ps.map InnerPoint.z)
  intensity := mean (ps.map InnerPoint.intensity)
  factor := 0

theorem averagePoint_eq (ps : List (InnerPoint Rat)) (h : ps ≠ []) :
    averagePoint ps = .ok (meanPoint ps) := by
  have : ∀ (ps : List (InnerPoint Rat)) (a b c d : Rat),
      ps.foldl (fun (s : Rat × Rat × Rat × Rat) p =>
        (s.1 + p.x, s.2.1 + p.y, s.2.2.1 + p.z, s.2.2.2 + p.intensity)) (a, b, c, d) =
      (a + (ps.map InnerPoint.x).sum, b + (ps.map InnerPoint.y).sum, c + (ps.map InnerPoint.z).sum,
        d + (ps.map InnerPoint.intensity).sum) := by
    intro ps
    induction ps with
    | nil => intros; simp
    | cons p ps ih => intro a b c d; simp only [List.foldl_cons, ih, List.map_cons, List.sum_cons, add_assoc]
  unfold averagePoint
  rw [Outcome.check_pos h]
  simp only [this, Outcome.pure_eq, meanPoint, mean, List.length_map, zero_add]
  rfl

theorem averageAll_eq (t : List (Voxel × List (InnerPoint Rat))) (h : ∀ e ∈ t, e.2 ≠ []) :
    averageAll t = .ok (t.map (fun e => meanPoint e.2)) := by
  induction t with
  | nil => rfl
  | cons e t ih =>
    obtain ⟨v, ps⟩ := e
    simp only [averageAll]
    rw [averagePoint_eq ps (h (v, ps) (by simp)), ih (fun e he => h e (by simp [he]))]
    rfl

end Verif
