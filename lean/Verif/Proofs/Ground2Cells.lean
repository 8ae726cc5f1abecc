import Verif.Proofs.Ground2
namespace Verif
open Spec

/-! ### the cell of a point -/

theorem g2Clamp_eq (i : Int) (n : Nat) (hn : 1 ≤ n) : g2Clamp i n = (max 0 (min i ((n : Int) - 1))).toNat := by
  unfold g2Clamp
  split <;> omega

theorem g2Clamp_lt (i : Int) (n : Nat) (hn : 1 ≤ n) : g2Clamp i n < n := by
  unfold g2Clamp
  split <;> omega

theorem segOf_lt {p : G2Params} (hp : G2Sane p) (q : G2Point) : segOf p q < p.segs := by
  have := hp.segs
  unfold segOf; omega

theorem binOf_lt {p : G2Params} (hp : G2Sane p) (q : G2Point) : binOf p q < p.bins := by
  have := hp.bins
  unfold binOf; omega

theorem g2Width_pos {p : G2Params} (hp : G2Sane p) : 0 < g2Width p := by
  unfold g2Width
  apply div_pos
  · have := hp.range; linarith
  · have := hp.bins; exact_mod_cast this

theorem g2Bin_eq {p : G2Params} (hp : G2Sane p) {q : G2Point} (hq : InReach p q) :
    g2Bin p q.range = .ok (binOf p q) := by
  unfold g2Bin
  rw [if_neg (by have := hp.range; intro h; rw [h] at this; exact lt_irrefl _ this)]
  obtain ⟨h1, h2⟩ := hq
  change -2147483648 ≤ (q.range - p.rMin) / ((p.rMax - p.rMin) / p.bins) at h1
  change (q.range - p.rMin) / ((p.rMax - p.rMin) / p.bins) < 2147483648 at h2
  unfold binOf g2Width
  generalize (q.range - p.rMin) / ((p.rMax - p.rMin) / (p.bins : Rat)) = x at *
  have hb := hp.bins
  dsimp only
  unfold truncInt
  by_cases hx : 0 ≤ x
  · rw [if_pos hx]
    have f1 : (0 : Int) ≤ ⌊x⌋ := Int.floor_nonneg.2 hx
    have f2 : ⌊x⌋ < 2147483648 := Int.floor_lt.2 (by exact_mod_cast h2)
    rw [if_neg (by omega), g2Clamp_eq _ _ hb]
  · rw [if_neg hx]
    have f1 : ⌈x⌉ ≤ 0 := Int.ceil_le.2 (by push_cast; linarith)
    have f2 : (-2147483648 : Int) ≤ ⌈x⌉ := by
      have h3 : ((-2147483648 : Int) : Rat) ≤ (⌈x⌉ : Rat) :=
        le_trans (by push_cast; exact h1) (Int.le_ceil x)
      exact_mod_cast h3
    have f3 : ⌊x⌋ < 0 := Int.floor_lt.2 (by push_cast; linarith)
    rw [if_neg (by omega), g2Clamp_eq _ _ hb]
    congr 1
    congr 1
    omega

theorem g2Cell_eq {p : G2Params} (hp : G2Sane p) {q : G2Point} (hq : InReach p q) :
    g2Cell p q = .ok (some (segOf p q * p.bins + binOf p q)) := by
  unfold g2Cell
  rw [if_neg (by have := hp.range; rintro ⟨h1, h2⟩; linarith), g2Bin_eq hp hq, Outcome.bind_ok,
    g2Clamp_eq _ _ hp.segs]
  rfl

theorem g2_idx_lt {p : G2Params} (hp : G2Sane p) (q : G2Point) :
    segOf p q * p.bins + binOf p q < p.bins * p.segs := by
  have h1 := segOf_lt hp q
  have h2 := binOf_lt hp q
  have : (segOf p q + 1) * p.bins ≤ p.segs * p.bins := Nat.mul_le_mul_right _ h1
  rw [Nat.add_mul] at this
  rw [Nat.mul_comm p.bins]
  omega

theorem g2_idx_inj {n s b s' b' : Nat} (hb : b < n) (hb' : b' < n) :
    s * n + b = s' * n + b' ↔ s = s' ∧ b = b' := by
  constructor
  · intro h
    have h1 : s = s' := by
      have e1 : (s * n + b) / n = s := by
        rw [Nat.mul_comm, Nat.mul_add_div (by omega), Nat.div_eq_of_lt hb]; rfl
      have e2 : (s' * n + b') / n = s' := by
        rw [Nat.mul_comm, Nat.mul_add_div (by omega), Nat.div_eq_of_lt hb']; rfl
      rw [← e1, ← e2, h]
    subst h1
    exact ⟨rfl, by omega⟩
  · rintro ⟨rfl, rfl⟩; rfl

/-! ### the contents of a cell -/

def g2PutAll (l : List (G2Point × Nat)) (c : G2Cell) : G2Cell := l.foldl (fun c q => g2Put q.2 q.1 c) c

theorem g2Insert_eq (idx : G2Point → Nat) (l : List (G2Point × Nat)) : ∀ cells : List G2Cell,
    (∀ q ∈ l, idx q.1 < cells.length) →
    g2Insert l (l.map (fun q => some (idx q.1))) cells =
      .ok (cells.mapIdx (fun k c => g2PutAll (l.filter (fun q => idx q.1 = k)) c)) := by
  induction l with
  | nil =>
    intro cells _
    simp only [List.map_nil, g2Insert, List.filter_nil, g2PutAll, List.foldl_nil]
    congr 1
    apply List.ext_getElem?
    intro k
    simp
  | cons q l ih =>
    intro cells h
    rw [List.map_cons]
    simp only [g2Insert]
    rw [if_pos (h q (by simp)), ih _ (by
      intro r hr
      rw [List.length_modify]
      exact h r (by simp [hr]))]
    congr 1
    apply List.ext_getElem?
    intro k
    rw [List.getElem?_mapIdx, List.getElem?_mapIdx, List.getElem?_modify]
    cases hk : cells[k]? with
    | none => rfl
    | some c =>
      simp only [Option.map_eq_map, Option.map_some]
      rw [List.filter_cons]
      by_cases hq : idx q.1 = k
      · rw [if_pos hq, if_pos (by simpa using hq)]
        simp [g2PutAll]
      · rw [if_neg hq, if_neg (by simpa using hq)]

instance outcomeLawful : LawfulMonad Outcome := LawfulMonad.mk' Outcome
  (id_map := fun x => by cases x <;> rfl)
  (pure_bind := fun _ _ => rfl)
  (bind_assoc := fun x _ _ => by cases x <;> rfl)

theorem outcome_mapM_ok {α β : Type} (f : α → Outcome β) (g : α → β) (l : List α)
    (h : ∀ a ∈ l, f a = .ok (g a)) : l.mapM f = .ok (l.map g) := by
  induction l with
  | nil => rfl
  | cons a l ih =>
    rw [List.mapM_cons, h a (by simp), Outcome.bind_ok, ih (fun b hb => h b (by simp [hb])), Outcome.bind_ok]
    rfl

theorem map_fst_zipIdx {α β : Type} (l : List α) (f : α → β) : l.zipIdx.map (fun q => f q.1) = l.map f := by
  have : (fun q : α × Nat => f q.1) = f ∘ Prod.fst := rfl
  rw [this, ← List.map_map, List.zipIdx_map_fst]

/-- The points of one segment and bin, with their index. -/
def cellPts (p : G2Params) (cloud : List G2Point) (s b : Nat) : List (G2Point × Nat) :=
  cloud.zipIdx.filter (fun q => decide (segOf p q.1 = s ∧ binOf p q.1 = b))

theorem g2SetInput_eq {p : G2Params} (hp : G2Sane p) (cloud : List G2Point) (hc : ∀ q ∈ cloud, InReach p q) :
    ∃ cells, g2SetInput p cloud = .ok cells ∧
      ∀ s b, s < p.segs → b < p.bins →
        cells.getD (g2Index p s b) g2Default = g2PutAll (cellPts p cloud s b) g2Default := by
  refine ⟨(List.replicate (p.bins * p.segs) g2Default).mapIdx (fun k c =>
    g2PutAll (cloud.zipIdx.filter (fun q => segOf p q.1 * p.bins + binOf p q.1 = k)) c), ?_, ?_⟩
  · unfold g2SetInput
    rw [outcome_mapM_ok _ (fun q => some (segOf p q * p.bins + binOf p q)) cloud
      (fun q hq => g2Cell_eq hp (hc q hq)), Outcome.bind_ok, ← map_fst_zipIdx]
    exact g2Insert_eq (fun q => segOf p q * p.bins + binOf p q) cloud.zipIdx _ (by
      intro q _
      rw [List.length_replicate]
      exact g2_idx_lt hp q.1)
  · intro s b hs hb
    have hk : g2Index p s b < p.bins * p.segs := by
      unfold g2Index
      have : (s + 1) * p.bins ≤ p.segs * p.bins := Nat.mul_le_mul_right _ hs
      rw [Nat.add_mul] at this
      rw [Nat.mul_comm p.bins]
      omega
    rw [List.getD_eq_getElem?_getD, List.getElem?_mapIdx, List.getElem?_replicate, if_pos hk]
    simp only [Option.map_some, Option.getD_some]
    congr 1
    unfold cellPts
    apply List.filter_congr
    intro q _
    rw [decide_eq_decide]
    exact g2_idx_inj (binOf_lt hp q.1) hb

theorem g2PutAll_snoc (l : List (G2Point × Nat)) (q : G2Point × Nat) (c : G2Cell) :
    g2PutAll (l ++ [q]) c = g2Put q.2 q.1 (g2PutAll l c) := by
  unfold g2PutAll
  rw [List.foldl_append]
  rfl

structure G2CellInv (l : List (G2Point × Nat)) (c : G2Cell) : Prop where
  empty : c.pts.isEmpty = l.isEmpty
  low : ∀ m, (l.map Prod.fst).argmin (fun q => q.z) = some m → c.low = dzOf m
  listed : ∀ i dz, (i, dz) ∈ c.pts ↔ ∃ pre q post, l = pre ++ (q, i) :: post ∧ dz = dzOf q ∧
    ∀ r ∈ pre, q.z ≤ r.1.z + 1 / 2

theorem snoc_isEmpty {α : Type} (l : List α) (a : α) : (l ++ [a]).isEmpty = false := by
  cases l <;> rfl

theorem g2CellInv (l : List (G2Point × Nat)) : G2CellInv l (g2PutAll l g2Default) := by
  induction l using List.reverseRecOn with
  | nil =>
    refine ⟨rfl, ?_, ?_⟩
    · intro m h; simp at h
    · intro i dz
      constructor
      · intro h; exact absurd h (by simp [g2PutAll, g2Default])
      · rintro ⟨pre, q, post, h, -⟩; simp at h
  | append_singleton l q ih =>
    obtain ⟨he, hlow, hlist⟩ := ih
    rw [g2PutAll_snoc]
    set c := g2PutAll l g2Default with hcdef
    set low : DZ := if c.pts.isEmpty ∨ q.1.z < c.low.z then ⟨q.1.range, q.1.z⟩ else c.low with hld
    have hput : g2Put q.2 q.1 c =
        if q.1.z ≤ low.z + 1 / 2 then ⟨low, c.pts ++ [(q.2, ⟨q.1.range, q.1.z⟩)]⟩ else ⟨low, c.pts⟩ := rfl
    -- the lowest point so far
    have hmin : l ≠ [] → ∃ m, (l.map Prod.fst).argmin (fun q => q.z) = some m ∧ c.low = dzOf m := by
      intro hl
      cases hm : (l.map Prod.fst).argmin (fun q => q.z) with
      | none => rw [List.argmin_eq_none] at hm; exact absurd (by simpa using hm) hl
      | some m => exact ⟨m, rfl, hlow m hm⟩
    have hlow' : ∀ m, ((l ++ [q]).map Prod.fst).argmin (fun q => q.z) = some m → low = dzOf m := by
      intro m hm
      rw [List.map_append, List.map_singleton, List.argmin_concat] at hm
      by_cases hl : l = []
      · subst hl
        simp only [List.map_nil, List.argmin_nil, Option.some.injEq] at hm
        rw [hld, if_pos (Or.inl (by rw [he]; rfl)), ← hm]
        rfl
      · obtain ⟨m0, e1, e2⟩ := hmin hl
        rw [e1] at hm
        dsimp only at hm
        have hne : c.pts.isEmpty = false := by
          rw [he]; cases l with
          | nil => exact absurd rfl hl
          | cons a as => rfl
        by_cases hlt : q.1.z < m0.z
        · rw [if_pos hlt] at hm
          have : q.1 = m := by simpa using hm
          rw [hld, if_pos (Or.inr (by rw [e2]; exact hlt)), ← this]
          rfl
        · rw [if_neg hlt] at hm
          have : m0 = m := by simpa using hm
          rw [hld, if_neg (by rw [hne, e2]; simpa [dzOf] using hlt), e2, this]
    have htest : q.1.z ≤ low.z + 1 / 2 ↔ ∀ r ∈ l, q.1.z ≤ r.1.z + 1 / 2 := by
      by_cases hl : l = []
      · subst hl
        rw [hld, if_pos (Or.inl (by rw [he]; rfl))]
        simp
      · obtain ⟨m0, e1, e2⟩ := hmin hl
        have hne : c.pts.isEmpty = false := by
          rw [he]; cases l with
          | nil => exact absurd rfl hl
          | cons a as => rfl
        have hmem : m0 ∈ l.map Prod.fst := List.argmin_mem e1
        have hle : ∀ r ∈ l, m0.z ≤ r.1.z := fun r hr =>
          List.le_of_mem_argmin (f := fun q : G2Point => q.z) (List.mem_map_of_mem hr) e1
        by_cases hlt : q.1.z < m0.z
        · rw [hld, if_pos (Or.inr (by rw [e2]; exact hlt))]
          constructor
          · intro _ r hr
            have := hle r hr
            linarith
          · intro _
            show q.1.z ≤ q.1.z + 1 / 2
            linarith
        · rw [hld, if_neg (by rw [hne, e2]; simpa [dzOf] using hlt), e2]
          constructor
          · intro h r hr
            have := hle r hr
            have h' : q.1.z ≤ m0.z + 1 / 2 := h
            linarith
          · intro h
            obtain ⟨r, hr, rfl⟩ := List.mem_map.1 hmem
            exact h r hr
    have hsplit : ∀ pre (x : G2Point) i post, l ++ [q] = pre ++ (x, i) :: post →
        (∃ post', l = pre ++ (x, i) :: post' ∧ post = post' ++ [q]) ∨ (pre = l ∧ (x, i) = q ∧ post = []) := by
      intro pre x i post h
      rcases List.eq_nil_or_concat post with hp | ⟨post', y, hp⟩
      · subst hp
        have := List.append_inj' h rfl
        exact Or.inr ⟨this.1.symm, by simpa using this.2.symm, rfl⟩
      · subst hp
        left
        rw [List.concat_eq_append, ← List.cons_append, ← List.append_assoc] at h
        have := List.append_inj' h rfl
        refine ⟨post', this.1, ?_⟩
        rw [List.concat_eq_append, ← this.2]
    rw [hput]
    by_cases ht : q.1.z ≤ low.z + 1 / 2
    · rw [if_pos ht]
      refine ⟨by dsimp only; rw [snoc_isEmpty, snoc_isEmpty], hlow', ?_⟩
      intro i dz
      dsimp only
      rw [List.mem_append, hlist, List.mem_singleton]
      constructor
      · rintro (⟨pre, x, post, e, e1, e2⟩ | e)
        · exact ⟨pre, x, post ++ [q], by rw [e]; simp, e1, e2⟩
        · obtain ⟨rfl, rfl⟩ := Prod.mk.inj e
          exact ⟨l, q.1, [], rfl, rfl, htest.1 ht⟩
      · rintro ⟨pre, x, post, e, e1, e2⟩
        rcases hsplit pre x i post e with ⟨post', h, -⟩ | ⟨h1, h2, -⟩
        · exact Or.inl ⟨pre, x, post', h, e1, e2⟩
        · right
          rw [e1, ← h2]; rfl
    · rw [if_neg ht]
      have hl : l ≠ [] := by
        rintro rfl
        exact ht (htest.2 (by simp))
      refine ⟨?_, hlow', ?_⟩
      · dsimp only
        rw [he]
        cases l with
        | nil => exact absurd rfl hl
        | cons a as => rfl
      · intro i dz
        dsimp only
        rw [hlist]
        constructor
        · rintro ⟨pre, x, post, e, e1, e2⟩
          exact ⟨pre, x, post ++ [q], by rw [e]; simp, e1, e2⟩
        · rintro ⟨pre, x, post, e, e1, e2⟩
          rcases hsplit pre x i post e with ⟨post', h, -⟩ | ⟨h1, h2, -⟩
          · exact ⟨pre, x, post', h, e1, e2⟩
          · exfalso
            apply ht
            rw [htest]
            subst h1
            rw [← h2]
            exact e2

theorem cellPts_sorted (p : G2Params) (cloud : List G2Point) (s b : Nat) :
    (cellPts p cloud s b).Pairwise (fun a b => a.2 < b.2) := by
  unfold cellPts
  apply List.Pairwise.filter
  have : (cloud.zipIdx.map Prod.snd).Pairwise (· < ·) := by
    rw [List.zipIdx_map_snd]
    exact List.pairwise_lt_range'
  rw [List.pairwise_map] at this
  exact this

theorem mem_cellPts (p : G2Params) (cloud : List G2Point) (s b i : Nat) (q : G2Point) :
    (q, i) ∈ cellPts p cloud s b ↔ cloud[i]? = some q ∧ segOf p q = s ∧ binOf p q = b := by
  unfold cellPts
  rw [List.mem_filter, List.mem_zipIdx_iff_getElem?]
  simp

/-- The listed points of a cell. -/
theorem cell_listed (p : G2Params) (cloud : List G2Point) (s b i : Nat) (dz : DZ) :
    (i, dz) ∈ (g2PutAll (cellPts p cloud s b) g2Default).pts ↔
      ∃ q, cloud[i]? = some q ∧ segOf p q = s ∧ binOf p q = b ∧ dz = dzOf q ∧ Listed p cloud i := by
  rw [(g2CellInv _).listed]
  have hsort := cellPts_sorted p cloud s b
  constructor
  · rintro ⟨pre, q, post, e, e1, e2⟩
    have hm : (q, i) ∈ cellPts p cloud s b := by rw [e]; simp
    obtain ⟨h1, h2, h3⟩ := (mem_cellPts p cloud s b i q).1 hm
    refine ⟨q, h1, h2, h3, e1, q, h1, ?_⟩
    intro j r hj hr hs hb
    have hmr : (r, j) ∈ cellPts p cloud s b :=
      (mem_cellPts p cloud s b j r).2 ⟨hr, hs.trans h2, hb.trans h3⟩
    rw [e] at hmr hsort
    rcases List.mem_append.1 hmr with h | h
    · exact e2 _ h
    · exfalso
      have hp := (List.pairwise_append.1 hsort).2.1
      rcases List.mem_cons.1 h with h | h
      · have := (Prod.mk.inj h).2; omega
      · have := (List.pairwise_cons.1 hp).1 _ h
        simp only at this
        omega
  · rintro ⟨q, h1, h2, h3, e1, q', h1', hl⟩
    have : q' = q := by rw [h1] at h1'; simpa using h1'.symm
    subst this
    have hm : (q', i) ∈ cellPts p cloud s b := (mem_cellPts p cloud s b i q').2 ⟨h1, h2, h3⟩
    obtain ⟨pre, post, e⟩ := List.append_of_mem hm
    refine ⟨pre, q', post, e, e1, ?_⟩
    rintro ⟨r, j⟩ hr
    have hmr : (r, j) ∈ cellPts p cloud s b := by rw [e]; simp [hr]
    obtain ⟨g1, g2, g3⟩ := (mem_cellPts p cloud s b j r).1 hmr
    rw [e] at hsort
    have hji : j < i := (List.pairwise_append.1 hsort).2.2 _ hr (q', i) (by simp)
    exact hl j r hji g1 (g2.trans h2.symm) (g3.trans h3.symm)

/-! ### the lowest points -/

theorem lowsOf_map {α : Type} (L : List α) (G : α → G2Cell) (H : α → Option DZ)
    (h : ∀ a ∈ L, H a = if (G a).pts.isEmpty then none else some (G a).low) :
    lowsOf (L.map G) = L.filterMap H := by
  induction L with
  | nil => rfl
  | cons a L ih =>
    have ha := h a (by simp)
    have ih' := ih (fun b hb => h b (by simp [hb]))
    rw [List.filterMap_cons, ha, ← ih']
    unfold lowsOf
    rw [List.map_cons, List.filter_cons]
    cases hc : (G a).pts.isEmpty <;> simp

theorem cellPts_fst (p : G2Params) (cloud : List G2Point) (s b : Nat) :
    (cellPts p cloud s b).map Prod.fst = cloud.filter (fun q => segOf p q = s ∧ binOf p q = b) := by
  unfold cellPts
  conv => rhs; rw [← List.zipIdx_map_fst 0 cloud]
  rw [List.filter_map]
  rfl

theorem lowsOf_bins {p : G2Params} (cloud : List G2Point) (cells : List G2Cell)
    (hcells : ∀ s b, s < p.segs → b < p.bins →
        cells.getD (g2Index p s b) g2Default = g2PutAll (cellPts p cloud s b) g2Default)
    (s : Nat) (hs : s < p.segs) : lowsOf (g2Bins p cells s) = lowest p cloud s := by
  unfold g2Bins lowest
  apply lowsOf_map
  intro b hb
  rw [hcells s b hs (by simpa using hb)]
  have hi := g2CellInv (cellPts p cloud s b)
  rw [← cellPts_fst, hi.empty]
  cases hm : ((cellPts p cloud s b).map Prod.fst).argmin (fun q => q.z) with
  | none =>
    rw [List.argmin_eq_none] at hm
    have : cellPts p cloud s b = [] := by simpa using hm
    rw [this]; rfl
  | some m =>
    have hne : (cellPts p cloud s b).isEmpty = false := by
      cases hc : cellPts p cloud s b with
      | nil => rw [hc] at hm; simp at hm
      | cons a as => rfl
    rw [hne, hi.low m hm]
    rfl

theorem binOf_mono {p : G2Params} (hp : G2Sane p) {q r : G2Point} (h : binOf p q < binOf p r) :
    q.range < r.range := by
  by_contra hc
  push Not at hc
  have hw := g2Width_pos hp
  have hd : (r.range - p.rMin) / g2Width p ≤ (q.range - p.rMin) / g2Width p :=
    div_le_div_of_nonneg_right (by linarith) (le_of_lt hw)
  have hf := Int.floor_le_floor hd
  unfold binOf at h
  omega

theorem lowest_mem {p : G2Params} {cloud : List G2Point} {s : Nat} {b : Nat} {dz : DZ}
    (h : ((cloud.filter (fun q => segOf p q = s ∧ binOf p q = b)).argmin (fun q => q.z)).map dzOf = some dz) :
    ∃ q ∈ cloud, segOf p q = s ∧ binOf p q = b ∧ dz = dzOf q := by
  cases hm : (cloud.filter (fun q => segOf p q = s ∧ binOf p q = b)).argmin (fun q => q.z) with
  | none => rw [hm] at h; simp at h
  | some m =>
    rw [hm] at h
    have hmem := List.argmin_mem hm
    rw [List.mem_filter] at hmem
    have hmem2 := of_decide_eq_true hmem.2
    exact ⟨m, hmem.1, hmem2.1, hmem2.2, by simpa using h.symm⟩

theorem lowest_sorted {p : G2Params} (hp : G2Sane p) (cloud : List G2Point) (s : Nat) :
    (lowest p cloud s).Pairwise (fun a b => a.d < b.d) := by
  unfold lowest
  rw [List.pairwise_filterMap]
  have : (List.range p.bins).Pairwise (· < ·) := List.pairwise_lt_range
  refine this.imp ?_
  intro b b' hlt dz hdz dz' hdz'
  obtain ⟨q, -, -, h1, rfl⟩ := lowest_mem hdz
  obtain ⟨r, -, -, h2, rfl⟩ := lowest_mem hdz'
  exact binOf_mono hp (by rw [h1, h2]; exact hlt)

end Verif
