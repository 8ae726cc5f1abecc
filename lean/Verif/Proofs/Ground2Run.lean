import Verif.Proofs.Ground2Cells
namespace Verif
open Spec

theorem groundDist_cons (q : DZ) (l : G2Line) (ls : List G2Line) :
    groundDist q (l :: ls) =
      if Covers q l then some ((groundDist q ls).getD (offLine q l)) else groundDist q ls := by
  unfold groundDist
  rw [List.filter_cons]
  by_cases h : Covers q l
  · rw [if_pos (by simpa using h), if_pos h, List.getLast?_cons]
    cases (ls.filter (fun l => Covers q l)).getLast? <;> rfl
  · rw [if_neg (by simpa using h), if_neg h]

theorem groundDist_nonneg {q : DZ} {ls : List G2Line} {d : Rat} (h : groundDist q ls = some d) : 0 ≤ d := by
  unfold groundDist at h
  cases hl : (ls.filter (fun l => Covers q l)).getLast? with
  | none => rw [hl] at h; simp at h
  | some l =>
    rw [hl] at h
    have : offLine q l = d := by simpa using h
    rw [← this]
    exact abs_nonneg _

theorem g2Distance_eq (q : DZ) (ls : List G2Line) : ∀ (d0 : Rat), (∀ l ∈ ls, l.s.d < l.e.d) →
    g2Distance q ls d0 = .ok ((groundDist q ls).getD d0) := by
  induction ls with
  | nil => intro d0 _; rfl
  | cons l ls ih =>
    intro d0 h
    unfold g2Distance
    rw [Outcome.check_pos (h l (by simp)), Outcome.bind_ok, groundDist_cons]
    by_cases hc : Covers q l
    · rw [if_pos hc, if_pos (show l.s.d - 1 / 10 < q.d ∧ q.d < l.e.d + 1 / 10 from hc),
        ih _ (fun l hl => h l (by simp [hl]))]
      simp only [Option.getD_some]
      congr 2
      unfold offLine
      congr 1
      ring
    · rw [if_neg hc, if_neg (show ¬ (l.s.d - 1 / 10 < q.d ∧ q.d < l.e.d + 1 / 10) from hc),
        ih _ (fun l hl => h l (by simp [hl]))]

theorem lineThrough_lt (fit : List DZ → Rat × Rat) {g : List DZ} (hs : g.Pairwise (fun a b => a.d < b.d))
    (h : 2 ≤ g.length) : (lineThrough fit g).s.d < (lineThrough fit g).e.d := by
  cases g with
  | nil => simp at h
  | cons a as =>
    have hne : as ≠ [] := by rintro rfl; simp at h
    have hl : (a :: as).getLastD ⟨0, 0⟩ ∈ as := by
      rw [List.getLastD_eq_getLast?, List.getLast?_eq_some_getLast (by simp), List.getLast_cons hne]
      exact List.getLast_mem hne
    have := (List.pairwise_cons.1 hs).1 _ hl
    exact this

theorem groundLines_lt {p : G2Params} {fit : List DZ → Rat × Rat} {lows : List DZ} {lines : List G2Line}
    (hs : lows.Pairwise (fun a b => a.d < b.d)) (h : GroundLines p fit lows lines) :
    ∀ l ∈ lines, l.s.d < l.e.d := by
  obtain ⟨groups, rfl, hg, -⟩ := h
  intro l hl
  obtain ⟨g, hgm, rfl⟩ := List.mem_map.1 hl
  obtain ⟨h1, h2⟩ := hg g hgm
  exact lineThrough_lt fit (hs.sublist h1.sublist) (by have := h2.three; omega)

/-! ### the search in the neighbouring segments -/

theorem g2Steps_mem (n : Nat) : ∀ i ∈ g2Steps n, -(n : Int) ≤ i ∧ i ≤ n := by
  induction n with
  | zero => intro i h; simp [g2Steps] at h
  | succ n ih =>
    intro i h
    unfold g2Steps at h
    rcases List.mem_append.1 h with h | h
    · simp only [List.mem_cons, List.not_mem_nil, or_false] at h
      omega
    · have := ih i h
      omega

theorem g2Steps_eq (n : Nat) :
    g2Steps n = (List.range n).reverse.flatMap (fun (k : Nat) => [((k : Int) + 1), -((k : Int) + 1)]) := by
  induction n with
  | zero => rfl
  | succ n ih =>
    unfold g2Steps
    rw [List.range_succ, List.reverse_append, List.flatMap_append, ih]
    simp

theorem g2MaxStep_eq (p : G2Params) : g2MaxStep p = ⌊p.searchAngle * p.segs / 360⌋.toNat := by
  unfold g2MaxStep truncInt
  split
  · rfl
  · rename_i h
    have h1 : ⌈p.searchAngle * p.segs / 360⌉ ≤ 0 := Int.ceil_le.2 (by push_cast; linarith)
    have h2 : ⌊p.searchAngle * p.segs / 360⌋ < 0 := Int.floor_lt.2 (by push_cast; linarith)
    omega

theorem g2MaxStep_le {p : G2Params} (hp : G2Sane p) : g2MaxStep p ≤ p.segs := by
  rw [g2MaxStep_eq]
  have h0 : (0 : Rat) ≤ p.segs := by exact_mod_cast Nat.zero_le _
  have : p.searchAngle * p.segs / 360 ≤ p.segs := by
    rw [div_le_iff₀ (by norm_num)]
    nlinarith [hp.angle]
  have h1 : ⌊p.searchAngle * p.segs / 360⌋ ≤ ⌊((p.segs : Nat) : Rat)⌋ := Int.floor_le_floor this
  rw [Int.floor_natCast] at h1
  omega

theorem g2Neighbour_eq (p : G2Params) (s : Nat) (hs : s < p.segs) (i : Int) (h1 : -(p.segs : Int) ≤ i)
    (h2 : i ≤ p.segs) : g2Neighbour p s i = ((s : Int) + i) % p.segs := by
  unfold g2Neighbour
  split
  · rw [← Int.add_emod_right, Int.emod_eq_of_lt (by omega) (by omega)]
  · split
    · rw [← Int.sub_emod_right, Int.emod_eq_of_lt (by omega) (by omega)]
    · rw [Int.emod_eq_of_lt (by omega) (by omega)]

/-- Ground or not, for a distance and height in segment `s`. -/
def OnG (p : G2Params) (lines : Nat → List G2Line) (s : Nat) (dz : DZ) : Prop :=
  match groundDist dz (lines s) with
  | some d => 0 < d ∧ d ≤ p.maxDist
  | none => ∃ d, ((searchOrder p s).filterMap (fun s =>
      (groundDist dz (lines s)).filter (fun d => decide (0 < d)))).head? = some d ∧ d ≤ p.maxDist

theorem onGround_eq (p : G2Params) (lines : Nat → List G2Line) (q : G2Point) :
    OnGround p lines q = OnG p lines (segOf p q) (dzOf q) := rfl

theorem searchOrder_eq {p : G2Params} (hp : G2Sane p) (s : Nat) (hs : s < p.segs) :
    searchOrder p s = (g2Steps (g2MaxStep p)).map (fun i => (g2Neighbour p s i).toNat) := by
  have h1 : (g2Steps (g2MaxStep p)).map (fun i => (g2Neighbour p s i).toNat) =
      (g2Steps (g2MaxStep p)).map (fun i => (((s : Int) + i) % p.segs).toNat) := by
    apply List.map_congr_left
    intro i hi
    have := g2Steps_mem _ i hi
    have hle := g2MaxStep_le hp
    rw [g2Neighbour_eq p s hs i (by omega) (by omega)]
  rw [h1, g2Steps_eq, g2MaxStep_eq]
  unfold searchOrder
  rw [List.map_flatMap, List.map_flatMap]
  congr 1

theorem g2Search_eq {p : G2Params} (lines : Nat → List G2Line)
    (hl : ∀ s < p.segs, ∀ l ∈ lines s, l.s.d < l.e.d) (q : DZ) (s : Nat) (hs : s < p.segs) :
    ∀ (is : List Int), (∀ i ∈ is, -(p.segs : Int) ≤ i ∧ i ≤ p.segs) → ∀ d0 : Rat, d0 ≤ 0 →
    ∃ r, g2Search p ((List.range p.segs).map lines) q s is d0 = .ok r ∧
      ∀ d, (0 < r ∧ r = d) ↔ ((is.map (fun i => (g2Neighbour p s i).toNat)).filterMap (fun s =>
        (groundDist q (lines s)).filter (fun d => decide (0 < d)))).head? = some d := by
  intro is
  induction is with
  | nil =>
    intro _ d0 h0
    refine ⟨d0, rfl, ?_⟩
    intro d
    simp only [List.map_nil, List.filterMap_nil, List.head?_nil, reduceCtorEq, iff_false]
    rintro ⟨h, -⟩
    linarith
  | cons i is ih =>
    intro hi d0 h0
    have hn := g2Neighbour_eq p s hs i (hi i (by simp)).1 (hi i (by simp)).2
    have hn0 : 0 ≤ g2Neighbour p s i := by rw [hn]; exact Int.emod_nonneg _ (by omega)
    have hn1 : g2Neighbour p s i < p.segs := by rw [hn]; exact Int.emod_lt_of_pos _ (by omega)
    unfold g2Search
    rw [if_neg (by omega)]
    have hget : ((List.range p.segs).map lines)[(g2Neighbour p s i).toNat]? =
        some (lines (g2Neighbour p s i).toNat) := by
      rw [List.getElem?_map, List.getElem?_range (by omega)]
      rfl
    rw [hget]
    dsimp only
    rw [g2Distance_eq q _ _ (hl _ (by omega)), Outcome.bind_ok, List.map_cons, List.filterMap_cons]
    cases hd : groundDist q (lines (g2Neighbour p s i).toNat) with
    | none =>
      simp only [Option.getD_none, Option.filter_none]
      rw [if_neg (by norm_num)]
      exact ih (fun j hj => hi j (by simp [hj])) (-1) (by norm_num)
    | some d =>
      simp only [Option.getD_some]
      by_cases hpos : 0 < d
      · rw [if_pos hpos]
        refine ⟨d, rfl, ?_⟩
        intro d'
        rw [Option.filter_some, if_pos (by simpa using hpos)]
        simp only [List.head?_cons, Option.some.injEq]
        exact ⟨fun h => h.2, fun h => ⟨hpos, h⟩⟩
      · rw [if_neg hpos, Option.filter_some, if_neg (by simpa using hpos)]
        exact ih (fun j hj => hi j (by simp [hj])) d (not_lt.1 hpos)

theorem g2IsGround_eq {p : G2Params} (hp : G2Sane p) (lines : Nat → List G2Line)
    (hl : ∀ s < p.segs, ∀ l ∈ lines s, l.s.d < l.e.d) (s : Nat) (hs : s < p.segs) (q : DZ) :
    ∃ b : Bool, g2IsGround p ((List.range p.segs).map lines) s q = .ok b ∧ (b = true ↔ OnG p lines s q) := by
  unfold g2IsGround
  have hget : ((List.range p.segs).map lines)[s]? = some (lines s) := by
    rw [List.getElem?_map, List.getElem?_range hs]; rfl
  rw [hget]
  dsimp only
  rw [g2Distance_eq q _ _ (hl s hs), Outcome.bind_ok]
  unfold OnG
  cases hd : groundDist q (lines s) with
  | some d =>
    simp only [Option.getD_some]
    rw [if_neg (not_lt.2 (groundDist_nonneg hd)), Outcome.bind_ok]
    exact ⟨_, rfl, by simp⟩
  | none =>
    simp only [Option.getD_none]
    rw [if_pos (by norm_num)]
    obtain ⟨r, hr, hh⟩ := g2Search_eq lines hl q s hs (g2Steps (g2MaxStep p)) (by
      intro i hi
      have := g2Steps_mem _ i hi
      have hle := g2MaxStep_le hp
      omega) (-1) (by norm_num)
    rw [hr, Outcome.bind_ok]
    refine ⟨_, rfl, ?_⟩
    rw [decide_eq_true_iff, searchOrder_eq hp s hs]
    constructor
    · rintro ⟨h1, h2⟩
      exact ⟨r, (hh r).1 ⟨h1, rfl⟩, h2⟩
    · rintro ⟨d, h1, h2⟩
      obtain ⟨g1, g2⟩ := (hh d).2 h1
      exact ⟨g1, by rw [g2]; exact h2⟩

/-! ### the marked points -/

theorem g2MarkPoints_eq {p : G2Params} (hp : G2Sane p) (lines : Nat → List G2Line)
    (hl : ∀ s < p.segs, ∀ l ∈ lines s, l.s.d < l.e.d) (s : Nat) (hs : s < p.segs) (pts : List (Nat × DZ)) :
    ∃ m, g2MarkPoints p ((List.range p.segs).map lines) s pts = .ok m ∧
      ∀ i, i ∈ m ↔ ∃ dz, (i, dz) ∈ pts ∧ OnG p lines s dz := by
  induction pts with
  | nil => exact ⟨[], rfl, by simp⟩
  | cons q qs ih =>
    obtain ⟨m, hm, hh⟩ := ih
    obtain ⟨b, hb, hg⟩ := g2IsGround_eq hp lines hl s hs q.2
    unfold g2MarkPoints
    rw [hb, Outcome.bind_ok, hm, Outcome.bind_ok]
    refine ⟨_, rfl, ?_⟩
    intro i
    cases b with
    | true =>
      simp only [if_true, List.mem_cons]
      rw [hh]
      constructor
      · rintro (rfl | ⟨dz, h1, h2⟩)
        · exact ⟨q.2, Or.inl rfl, hg.1 rfl⟩
        · exact ⟨dz, Or.inr h1, h2⟩
      · rintro ⟨dz, h1 | h1, h2⟩
        · left; rw [← h1]
        · exact Or.inr ⟨dz, h1, h2⟩
    | false =>
      simp only [Bool.false_eq_true, if_false, List.mem_cons]
      rw [hh]
      constructor
      · rintro ⟨dz, h1, h2⟩
        exact ⟨dz, Or.inr h1, h2⟩
      · rintro ⟨dz, h1 | h1, h2⟩
        · rw [← h1] at hg
          exact absurd (hg.2 h2) (by simp)
        · exact ⟨dz, h1, h2⟩

theorem g2MarkAll_eq {p : G2Params} (hp : G2Sane p) (lines : Nat → List G2Line)
    (hl : ∀ s < p.segs, ∀ l ∈ lines s, l.s.d < l.e.d) (cells : List G2Cell) (ss : List Nat)
    (hs : ∀ s ∈ ss, s < p.segs) :
    ∃ m, g2MarkAll p ((List.range p.segs).map lines) cells ss = .ok m ∧
      ∀ i, i ∈ m ↔ ∃ s ∈ ss, ∃ c ∈ g2Bins p cells s, ∃ dz, (i, dz) ∈ c.pts ∧ OnG p lines s dz := by
  induction ss with
  | nil => exact ⟨[], rfl, by simp⟩
  | cons s ss ih =>
    obtain ⟨m, hm, hh⟩ := ih (fun t ht => hs t (by simp [ht]))
    obtain ⟨m1, hm1, hh1⟩ := g2MarkPoints_eq hp lines hl s (hs s (by simp))
      ((g2Bins p cells s).flatMap (fun c => c.pts))
    unfold g2MarkAll
    rw [hm1, Outcome.bind_ok, hm, Outcome.bind_ok]
    refine ⟨_, rfl, ?_⟩
    intro i
    rw [List.mem_append, hh1, hh]
    constructor
    · rintro (⟨dz, h1, h2⟩ | ⟨t, ht, h⟩)
      · obtain ⟨c, hc, hc'⟩ := List.mem_flatMap.1 h1
        exact ⟨s, by simp, c, hc, dz, hc', h2⟩
      · exact ⟨t, by simp [ht], h⟩
    · rintro ⟨t, ht, c, hc, dz, h1, h2⟩
      rcases List.mem_cons.1 ht with rfl | ht
      · exact Or.inl ⟨dz, List.mem_flatMap.2 ⟨c, hc, h1⟩, h2⟩
      · exact Or.inr ⟨t, ht, c, hc, dz, h1, h2⟩

theorem option_mapM_some {α β : Type} (f : α → Option β) (g : α → β) (l : List α)
    (h : ∀ a ∈ l, f a = some (g a)) : l.mapM f = some (l.map g) := by
  induction l with
  | nil => rfl
  | cons a l ih =>
    rw [List.mapM_cons, h a (by simp), ih (fun b hb => h b (by simp [hb]))]
    rfl

/-- The whole filter, with the lines of every segment as computed from its lowest points. -/
theorem g2Run_eq {p : G2Params} (hp : G2Sane p) (fit : List DZ → Rat × Rat) (cloud : List G2Point)
    (hc : ∀ q ∈ cloud, InReach p q) (rounds : Nat) (hr : 2 * p.bins ≤ rounds) :
    ∃ kept removed, g2Run p fit rounds cloud = .ok (some (kept, removed)) ∧
      kept = (List.range cloud.length).filter (fun i => decide (i ∉ removed)) ∧
      removed.Pairwise (· < ·) ∧
      (∀ i, i ∈ removed ↔ Listed p cloud i ∧
        ∃ q, cloud[i]? = some q ∧ OnGround p (fun s => fitLows p fit (lowest p cloud s)) q) := by
  obtain ⟨cells, hset, hcells⟩ := g2SetInput_eq hp cloud hc
  set lines : Nat → List G2Line := fun s => fitLows p fit (lowest p cloud s) with hlines
  have hfit : g2FitAll p fit rounds cells = some ((List.range p.segs).map lines) := by
    unfold g2FitAll
    apply option_mapM_some
    intro s hs
    rw [g2FitLines_eq p fit _ _ (by unfold g2Bins; simpa using hr),
      lowsOf_bins cloud cells hcells s (by simpa using hs)]
  have hl : ∀ s < p.segs, ∀ l ∈ lines s, l.s.d < l.e.d := fun s _ =>
    groundLines_lt (lowest_sorted hp cloud s) (fitLows_ground p fit _ (lowest_sorted hp cloud s))
  obtain ⟨marked, hm, hh⟩ := g2MarkAll_eq hp lines hl cells (List.range p.segs) (by simp)
  have hmark : ∀ i, i ∈ marked ↔ Listed p cloud i ∧ ∃ q, cloud[i]? = some q ∧ OnGround p lines q := by
    intro i
    rw [hh]
    constructor
    · rintro ⟨s, hs, c, hcb, dz, h1, h2⟩
      unfold g2Bins at hcb
      obtain ⟨b, hb, rfl⟩ := List.mem_map.1 hcb
      rw [hcells s b (by simpa using hs) (by simpa using hb), cell_listed] at h1
      obtain ⟨q, e1, e2, e3, e4, e5⟩ := h1
      refine ⟨e5, q, e1, ?_⟩
      rw [onGround_eq, e2, ← e4]
      exact h2
    · rintro ⟨h1, q, h2, h3⟩
      refine ⟨segOf p q, by simpa using segOf_lt hp q, _, List.mem_map.2
        ⟨binOf p q, by simpa using binOf_lt hp q, rfl⟩, dzOf q, ?_, h3⟩
      rw [hcells _ _ (segOf_lt hp q) (binOf_lt hp q), cell_listed]
      exact ⟨q, h2, rfl, rfl, rfl, h1⟩
  refine ⟨(List.range cloud.length).filter (fun i => decide (i ∉ marked)),
    (List.range cloud.length).filter (fun i => decide (i ∈ marked)), ?_, ?_, ?_, ?_⟩
  · unfold g2Run
    rw [hset, Outcome.bind_ok, hfit]
    dsimp only
    rw [hm, Outcome.bind_ok]
    rfl
  · apply List.filter_congr
    intro i hi
    rw [decide_eq_decide, List.mem_filter]
    simp only [hi, true_and, decide_eq_true_iff]
  · exact List.Pairwise.filter _ List.pairwise_lt_range
  · intro i
    rw [List.mem_filter, decide_eq_true_iff, hmark]
    constructor
    · rintro ⟨-, h⟩; exact h
    · intro h
      refine ⟨?_, h⟩
      obtain ⟨-, q, hq, -⟩ := h
      rw [List.mem_range]
      by_contra hc'
      rw [List.getElem?_eq_none (by omega)] at hq
      cases hq

end Verif
