import Verif.Proofs.Ground2Run
import Verif.Proofs.Outcome
/-! Property theorems C62 (removal of the ground). -/
namespace Verif
open Spec

/-- C62, what is proved: for usable parameters, every least-squares method and every cloud in reach, the
filter ends (within two rounds for every bin) without stopping the program; it splits the points into
kept and removed, both in order; and a point is removed exactly when it is low in its cell and a little
off, but at most `maxDist` off, the ground lines. Every ground line runs through at least three lowest
points of neighbouring bins that have points, none of them more than `maxError` off, is not steeper than
`maxSlope`, begins near the end of the line before it, and comes after it. Missing: a point that lies
exactly on a ground line is kept (`C62_flat_fails`), a gap can switch the detection off
(`C62_gap_fails`), and points outside the range are removed too (`C62_range_fails`). -/
theorem C62_ground_partial (p : G2Params) (hp : G2Sane p) (fit : List DZ → Rat × Rat) (cloud : List G2Point)
    (hc : ∀ q ∈ cloud, InReach p q) :
    ∃ kept removed, g2Run p fit (2 * p.bins) cloud = .ok (some (kept, removed)) ∧
      kept = (List.range cloud.length).filter (fun i => decide (i ∉ removed)) ∧
      removed.Pairwise (· < ·) ∧
      ∃ lines : Nat → List G2Line,
        (∀ s, GroundLines p fit (lowest p cloud s) (lines s)) ∧
        ∀ i, i ∈ removed ↔ Listed p cloud i ∧ ∃ q, cloud[i]? = some q ∧ OnGround p lines q := by
  obtain ⟨kept, removed, h1, h2, h3, h4⟩ := g2Run_eq hp fit cloud hc (2 * p.bins) (le_refl _)
  exact ⟨kept, removed, h1, h2, h3, _, fun s => fitLows_ground p fit _ (lowest_sorted hp cloud s), h4⟩

/-! ### ground that is found -/

theorem g2MaxError_le (pts : List DZ) (line : Rat × Rat) (e : Rat) (h0 : 0 ≤ e)
    (h : ∀ q ∈ pts, |line.1 * q.d + line.2 - q.z| ≤ e) : g2MaxError pts line ≤ e := by
  unfold g2MaxError
  have key : ∀ (pts : List DZ) (m : Rat), m ≤ e → (∀ q ∈ pts, |line.1 * q.d + line.2 - q.z| ≤ e) →
      pts.foldl (fun m q => if m < |line.1 * q.d + line.2 - q.z| then
        |line.1 * q.d + line.2 - q.z| else m) m ≤ e := by
    intro pts
    induction pts with
    | nil => intro m hm _; exact hm
    | cons a as ih =>
      intro m hm h
      rw [List.foldl_cons]
      apply ih
      · split
        · exact h a (by simp)
        · exact hm
      · exact fun q hq => h q (by simp [hq])
  exact key pts 0 h0 h

/-- Lowest points that belong to one stretch of ground: they begin near the expected height, there is no
gap, and every beginning of three or more of them carries a line. -/
structure OneStretch (p : G2Params) (fit : List DZ → Rat × Rat) (lows : List DZ) : Prop where
  three : 3 ≤ lows.length
  start : |(lows.headD ⟨0, 0⟩).z - p.startHeight| < p.maxStart
  gaps : ∀ k a b, lows[k]? = some a → lows[k + 1]? = some b → b.d - a.d < p.longThreshold
  fits : ∀ k, 3 ≤ k → k ≤ lows.length → Carries p fit (lows.take k)

theorem fold_one_stretch (p : G2Params) (fit : List DZ → Rat × Rat) (lows : List DZ)
    (h : OneStretch p fit lows) : ∀ (rest done : List DZ) (line : Rat × Rat), done ++ rest = lows →
    done ≠ [] → ∃ line', rest.foldl (g2Visit2 p fit)
      { pts := done, line := line, long := false, height := p.startHeight, out := [] } =
      { pts := lows, line := line', long := false, height := p.startHeight, out := [] } := by
  intro rest
  induction rest with
  | nil =>
    intro done line e _
    rw [List.append_nil] at e
    subst e
    exact ⟨line, rfl⟩
  | cons c rest ih =>
    intro done line e hne
    rw [List.foldl_cons]
    have hback : done[done.length - 1]? = some (g2Back done) := by
      unfold g2Back
      rw [List.getLastD_eq_getLast?, List.getLast?_eq_some_getLast hne, ← List.getLast?_eq_getElem?,
        List.getLast?_eq_some_getLast hne]
      rfl
    have hlen : 0 < done.length := List.length_pos_iff.2 hne
    have hgap : ¬ p.longThreshold ≤ c.d - (g2Back done).d := by
      have := h.gaps (done.length - 1) (g2Back done) c (by
        rw [← e, List.getElem?_append_left (by omega)]; exact hback) (by
        rw [← e, show done.length - 1 + 1 = done.length by omega, List.getElem?_append_right (le_refl _)]
        simp)
      exact not_le.2 this
    have hhead : done.headD ⟨0, 0⟩ = lows.headD ⟨0, 0⟩ := by
      rw [← e]
      cases done with
      | nil => exact absurd rfl hne
      | cons a as => rfl
    have hstep : ∃ line', g2Visit2 p fit
        { pts := done, line := line, long := false, height := p.startHeight, out := [] } c =
        { pts := done ++ [c], line := line', long := false, height := p.startHeight, out := [] } := by
      by_cases h2 : 2 ≤ done.length
      · have htake : lows.take (done.length + 1) = done ++ [c] := by
          rw [← e, List.take_append]
          simp
        have hcar := h.fits (done.length + 1) (by omega) (by rw [← e]; simp)
        rw [htake] at hcar
        have h0 : 0 ≤ p.maxError := (abs_nonneg _).trans (hcar.near c (by simp))
        have hv : g2Visit p fit
            { pts := done, line := line, long := false, height := p.startHeight, out := [] } c =
            ({ pts := done ++ [c], line := fit (done ++ [c]), long := false, height := p.startHeight,
               out := [] }, false) := by
          unfold g2Visit
          dsimp only
          rw [if_pos h2, if_neg]
          · simp [hgap]
          · push Not
            refine ⟨g2MaxError_le _ _ _ h0 hcar.near, hcar.slope, ?_⟩
            unfold g2Far
            simp [hgap]
        refine ⟨fit (done ++ [c]), ?_⟩
        unfold g2Visit2
        rw [hv, if_neg (by simp)]
      · have hb : g2Back done = done.headD ⟨0, 0⟩ := by
          unfold g2Back
          cases done with
          | nil => exact absurd rfl hne
          | cons a as =>
            simp only [List.length_cons] at h2
            have : as = [] := List.eq_nil_of_length_eq_zero (by omega)
            subst this
            rfl
        have hv : g2Visit p fit
            { pts := done, line := line, long := false, height := p.startHeight, out := [] } c =
            ({ pts := done ++ [c], line := line, long := false, height := p.startHeight,
               out := [] }, false) := by
          unfold g2Visit
          dsimp only
          rw [if_neg h2, if_pos]
          · simp [hgap]
          · refine ⟨by simp [hgap], ?_⟩
            rw [hb, hhead]
            exact h.start
        refine ⟨line, ?_⟩
        unfold g2Visit2
        rw [hv, if_neg (by simp)]
    obtain ⟨line', hst⟩ := hstep
    rw [hst]
    exact ih (done ++ [c]) line' (by rw [← e]; simp) (by simp)

theorem fitLows_stretch (p : G2Params) (fit : List DZ → Rat × Rat) (lows : List DZ)
    (h : OneStretch p fit lows) : fitLows p fit lows = [lineThrough fit lows] := by
  cases lows with
  | nil => have := h.three; simp at this
  | cons c rest =>
    unfold fitLows
    obtain ⟨line', e⟩ := fold_one_stretch p fit (c :: rest) h rest [c] (0, 0) rfl (by simp)
    dsimp only
    rw [e]
    unfold g2End
    dsimp only
    rw [if_pos (by have := h.three; omega)]
    rfl

/-- C62, ground that is found: where the lowest points of a segment form one stretch of ground, every
listed point of the segment under or over the line through them is removed when it is off the line by
no more than `maxDist` (and not exactly on it). -/
theorem C62_found_partial (p : G2Params) (hp : G2Sane p) (fit : List DZ → Rat × Rat) (cloud : List G2Point)
    (hc : ∀ q ∈ cloud, InReach p q) (s : Nat) (hs : OneStretch p fit (lowest p cloud s)) :
    ∃ kept removed, g2Run p fit (2 * p.bins) cloud = .ok (some (kept, removed)) ∧
      ∀ i q, cloud[i]? = some q → segOf p q = s → Listed p cloud i →
        Covers (dzOf q) (lineThrough fit (lowest p cloud s)) →
        (i ∈ removed ↔ 0 < offLine (dzOf q) (lineThrough fit (lowest p cloud s)) ∧
          offLine (dzOf q) (lineThrough fit (lowest p cloud s)) ≤ p.maxDist) := by
  obtain ⟨kept, removed, h1, h2, h3, h4⟩ := g2Run_eq hp fit cloud hc (2 * p.bins) (le_refl _)
  refine ⟨kept, removed, h1, ?_⟩
  intro i q hq hseg hli hcov
  rw [h4]
  have hdist : groundDist (dzOf q) (fitLows p fit (lowest p cloud (segOf p q))) =
      some (offLine (dzOf q) (lineThrough fit (lowest p cloud s))) := by
    rw [hseg, fitLows_stretch p fit _ hs, groundDist_cons, if_pos hcov]
    rfl
  have hon : ∀ r, cloud[i]? = some r → r = q := by
    intro r hr; rw [hq] at hr; simpa using hr.symm
  constructor
  · rintro ⟨-, r, hr, hg⟩
    rw [hon r hr] at hg
    unfold OnGround at hg
    rw [hdist] at hg
    exact hg
  · intro hg
    refine ⟨hli, q, hq, ?_⟩
    unfold OnGround
    rw [hdist]
    exact hg

/-! ### where the property is false -/

theorem lowest_subset {p : G2Params} {cloud : List G2Point} {s : Nat} {a : DZ} (h : a ∈ lowest p cloud s) :
    ∃ q ∈ cloud, a = dzOf q := by
  unfold lowest at h
  obtain ⟨b, -, hb⟩ := List.mem_filterMap.1 h
  obtain ⟨q, h1, -, -, h2⟩ := lowest_mem hb
  exact ⟨q, h1, h2⟩

/-- C62 is false for flat ground: if all points of the cloud have the same height, and the line through
points of the same height is the level line, then not one point is removed. -/
theorem C62_flat_fails (p : G2Params) (hp : G2Sane p) (fit : List DZ → Rat × Rat) (cloud : List G2Point)
    (hc : ∀ q ∈ cloud, InReach p q) (z : Rat) (hz : ∀ q ∈ cloud, q.z = z)
    (hfit : ∀ g, g ≠ [] → (∀ a ∈ g, a.z = z) → fit g = (0, z)) :
    g2Run p fit (2 * p.bins) cloud = .ok (some (List.range cloud.length, [])) := by
  obtain ⟨kept, removed, h1, h2, h3, h4⟩ := g2Run_eq hp fit cloud hc (2 * p.bins) (le_refl _)
  have hlevel : ∀ s, ∀ l ∈ fitLows p fit (lowest p cloud s), l.s.z = z ∧ l.e.z = z := by
    intro s l hl
    obtain ⟨groups, e, hg, -⟩ := fitLows_ground p fit _ (lowest_sorted hp cloud s)
    rw [e] at hl
    obtain ⟨g, hgm, rfl⟩ := List.mem_map.1 hl
    obtain ⟨g1, g2⟩ := hg g hgm
    have hne : g ≠ [] := by rintro rfl; have := g2.three; simp at this
    have hf := hfit g hne (by
      intro a ha
      obtain ⟨q, hq, rfl⟩ := lowest_subset (g1.subset ha)
      exact hz q hq)
    unfold lineThrough
    rw [hf]
    constructor <;> ring
  have hdist : ∀ s q d, q ∈ cloud →
      groundDist (dzOf q) (fitLows p fit (lowest p cloud s)) = some d → d = 0 := by
    intro s q d hq hd
    unfold groundDist at hd
    cases hl : ((fitLows p fit (lowest p cloud s)).filter (fun l => Covers (dzOf q) l)).getLast? with
    | none => rw [hl] at hd; simp at hd
    | some l =>
      rw [hl] at hd
      have hmem := (List.mem_filter.1 (List.mem_of_getLast? hl)).1
      obtain ⟨e1, e2⟩ := hlevel s l hmem
      have hd' : offLine (dzOf q) l = d := by simpa using hd
      rw [← hd']
      unfold offLine
      rw [e1, e2]
      show |q.z - _| = 0
      rw [hz q hq]
      simp
  have hrem : removed = [] := by
    apply List.eq_nil_iff_forall_not_mem.2
    intro i hi
    obtain ⟨-, q, hq, hon⟩ := (h4 i).1 hi
    have hqm := List.mem_of_getElem? hq
    unfold OnGround at hon
    cases hd : groundDist (dzOf q) (fitLows p fit (lowest p cloud (segOf p q))) with
    | some d =>
      rw [hd] at hon
      have := hdist _ q d hqm hd
      rw [this] at hon
      exact lt_irrefl _ hon.1
    | none =>
      rw [hd] at hon
      obtain ⟨d, hd', -⟩ := hon
      have hmem := List.mem_of_mem_head? (Option.mem_def.2 hd')
      obtain ⟨s, -, hs⟩ := List.mem_filterMap.1 hmem
      rw [Option.filter_eq_some_iff] at hs
      have := hdist s q d hqm hs.1
      rw [this] at hs
      simp at hs
  subst hrem
  rw [h1, h2]
  simp

theorem fold_stuck (p : G2Params) (fit : List DZ → Rat × Rat) (rest : List DZ) : ∀ st : G2Fit,
    st.long = true → st.pts.length = 1 → st.out = [] →
    ∃ st', rest.foldl (g2Visit2 p fit) st = st' ∧ st'.long = true ∧ st'.pts.length = 1 ∧ st'.out = [] := by
  induction rest with
  | nil => intro st h1 h2 h3; exact ⟨st, rfl, h1, h2, h3⟩
  | cons c rest ih =>
    intro st h1 h2 h3
    rw [List.foldl_cons]
    have hv : g2Visit2 p fit st c = { st with pts := [c], long := true } := by
      unfold g2Visit2
      rw [if_neg (by rw [g2Visit_single p fit st c (by omega)]; simp)]
      unfold g2Visit
      dsimp only
      rw [if_neg (by omega), h1]
      simp
    rw [hv]
    exact ih _ rfl rfl h3

theorem fitLows_stuck (p : G2Params) (fit : List DZ → Rat × Rat) (a b : DZ) (rest : List DZ)
    (h : p.longThreshold ≤ b.d - a.d) : fitLows p fit (a :: b :: rest) = [] := by
  unfold fitLows
  dsimp only
  rw [List.foldl_cons]
  have hv : g2Visit2 p fit { pts := [a], line := (0, 0), long := false, height := p.startHeight, out := [] } b =
      { pts := [b], line := (0, 0), long := true, height := p.startHeight, out := [] } := by
    unfold g2Visit2
    rw [if_neg (by rw [g2Visit_single p fit _ b (by simp)]; simp)]
    unfold g2Visit
    dsimp only
    rw [if_neg (by simp)]
    have : (g2Back [a]).d = a.d := rfl
    rw [this]
    simp [h]
  rw [hv]
  obtain ⟨st', e, -, h2, h3⟩ := fold_stuck p fit rest
    { pts := [b], line := (0, 0), long := true, height := p.startHeight, out := [] } rfl rfl rfl
  rw [e]
  unfold g2End
  rw [if_neg (by omega), h3]

/-- C62 is false after a gap: if in every segment the two nearest bins that have points are at least
`longThreshold` apart, then not one point is removed, whatever the rest of the cloud looks like. -/
theorem C62_gap_fails (p : G2Params) (hp : G2Sane p) (fit : List DZ → Rat × Rat) (cloud : List G2Point)
    (hc : ∀ q ∈ cloud, InReach p q)
    (hgap : ∀ s a b rest, lowest p cloud s = a :: b :: rest → p.longThreshold ≤ b.d - a.d) :
    g2Run p fit (2 * p.bins) cloud = .ok (some (List.range cloud.length, [])) := by
  obtain ⟨kept, removed, h1, h2, h3, h4⟩ := g2Run_eq hp fit cloud hc (2 * p.bins) (le_refl _)
  have hno : ∀ s, fitLows p fit (lowest p cloud s) = [] := by
    intro s
    cases hl : lowest p cloud s with
    | nil => rfl
    | cons a l =>
      cases l with
      | nil => rfl
      | cons b rest => exact fitLows_stuck p fit a b rest (hgap s a b rest hl)
  have hrem : removed = [] := by
    apply List.eq_nil_iff_forall_not_mem.2
    intro i hi
    obtain ⟨-, q, hq, hon⟩ := (h4 i).1 hi
    unfold OnGround at hon
    simp only [hno] at hon
    obtain ⟨d, hd', -⟩ := hon
    have hmem := List.mem_of_mem_head? (Option.mem_def.2 hd')
    obtain ⟨s, -, hs⟩ := List.mem_filterMap.1 hmem
    simp [groundDist] at hs
  subst hrem
  rw [h1, h2]
  simp

/-- The default parameters of the filter (filter_ground_removal2.cc:73-88, `tan(π/12)` rounded). -/
def g2Defaults : G2Params :=
  { rMax := 100, rMin := 1, bins := 200, segs := 180, startHeight := -1 / 4, longThreshold := 1,
    maxLongHeight := 1 / 10, maxStart := 1 / 5, maxError := 1 / 20, maxSlope := 268 / 1000,
    maxDist := 1 / 20, searchAngle := 10 }

example : G2Sane g2Defaults := ⟨by norm_num [g2Defaults], by norm_num [g2Defaults], by norm_num [g2Defaults],
  by norm_num [g2Defaults]⟩

/-- Least squares meets the assumption of `C62_flat_fails`. -/
theorem lsq_flat (g : List DZ) (z : Rat) (hne : g ≠ []) (h : ∀ a ∈ g, a.z = z) : lsq g = (0, z) := by
  have hsy : (g.map (fun q => q.z)).sum = g.length * z := by
    clear hne
    induction g with
    | nil => simp
    | cons a as ih =>
      rw [List.map_cons, List.sum_cons, ih (fun b hb => h b (by simp [hb])), h a (by simp), List.length_cons]
      push_cast; ring
  have hsxy : (g.map (fun q => q.d * q.z)).sum = (g.map (fun q => q.d)).sum * z := by
    clear hne hsy
    induction g with
    | nil => simp
    | cons a as ih =>
      rw [List.map_cons, List.sum_cons, ih (fun b hb => h b (by simp [hb])), h a (by simp), List.map_cons,
        List.sum_cons]
      ring
  have hn : (g.length : Rat) ≠ 0 := by
    have := List.length_pos_iff.2 hne
    have : (0 : Rat) < g.length := by exact_mod_cast this
    exact ne_of_gt this
  unfold lsq
  dsimp only
  rw [hsxy, hsy]
  have : (g.length : Rat) * ((g.map (fun q => q.d)).sum * z) - (g.map (fun q => q.d)).sum * (g.length * z) = 0 := by
    ring
  rw [this]
  simp only [zero_div, zero_mul, sub_zero]
  rw [mul_div_cancel_left₀ _ hn]

/-- Three bins, one segment. -/
def g2Small : G2Params :=
  { rMax := 3, rMin := 0, bins := 3, segs := 1, startHeight := 0, longThreshold := 20,
    maxLongHeight := 1 / 10, maxStart := 1 / 5, maxError := 1 / 20, maxSlope := 1 / 4,
    maxDist := 1 / 20, searchAngle := 10 }

/-- C62 is false for the range: points farther away than the largest distance are sorted into the last
bin and removed like the others. -/
theorem C62_range_fails : G2Sane g2Small ∧
    (∀ q ∈ [(⟨1 / 2, 0, 0⟩ : G2Point), ⟨3 / 2, 1 / 50, 0⟩, ⟨10, 0, 0⟩], InReach g2Small q) ∧
    g2Small.rMax < 10 ∧
    g2Run g2Small lsq 6 [⟨1 / 2, 0, 0⟩, ⟨3 / 2, 1 / 50, 0⟩, ⟨10, 0, 0⟩] = .ok (some ([], [0, 1, 2])) := by
  refine ⟨⟨by norm_num [g2Small], by norm_num [g2Small], by norm_num [g2Small], by norm_num [g2Small]⟩, ?_,
    by norm_num [g2Small], by decide +kernel⟩
  intro q hq
  simp only [List.mem_cons, List.not_mem_nil, or_false] at hq
  rcases hq with rfl | rfl | rfl <;> (unfold InReach g2Width g2Small; norm_num)

-- a point high above the ground is kept, the ground around it is removed
example : g2Run g2Small lsq 6 [⟨1 / 2, 0, 0⟩, ⟨3 / 2, 1, 0⟩, ⟨3 / 2, 1 / 50, 0⟩, ⟨5 / 2, 0, 0⟩] =
    .ok (some ([1], [0, 2, 3])) := by decide +kernel

-- one stretch of ground
example : OneStretch g2Small lsq [⟨1 / 2, 0⟩, ⟨3 / 2, 1 / 50⟩, ⟨5 / 2, 0⟩] where
  three := by simp
  start := by norm_num [g2Small]
  gaps := by
    intro k a b ha hb
    match k with
    | 0 => simp at ha hb; subst ha; subst hb; norm_num [g2Small]
    | 1 => simp at ha hb; subst ha; subst hb; norm_num [g2Small]
    | k + 2 => simp at hb
  fits := by
    intro k h3 hk
    simp only [List.length_cons, List.length_nil] at hk
    have : k = 3 := by omega
    subst this
    have hl : lsq (([⟨1 / 2, 0⟩, ⟨3 / 2, 1 / 50⟩, ⟨5 / 2, 0⟩] : List DZ).take 3) = (0, 1 / 150) := by
      decide +kernel
    refine ⟨by simp, ?_, ?_⟩
    · rw [hl]
      intro q hq
      simp only [List.take_succ_cons, List.take_zero, List.mem_cons, List.not_mem_nil, or_false] at hq
      rcases hq with rfl | rfl | rfl <;> (unfold g2Small; norm_num [abs_le])
    · rw [hl]; norm_num [g2Small]

theorem g2Cell_total (p : G2Params) (q : G2Point) : (∃ k, g2Cell p q = .ok k) ∨ g2Cell p q = .ub := by
  unfold g2Cell
  split
  · exact Or.inl ⟨_, rfl⟩
  · unfold g2Bin
    dsimp only
    split
    · exact Or.inr rfl
    · split
      · exact Or.inr rfl
      · exact Or.inl ⟨_, rfl⟩

/-- C62 is false for very distant points, and for limits that are equal: the number of the bin does not
fit a 32 bit number and the conversion is undefined. -/
theorem C62_far_fails (p : G2Params) (fit : List DZ → Rat × Rat) (rounds : Nat) (cloud : List G2Point)
    (q : G2Point) (hq : q ∈ cloud) (hp : p.rMin ≤ p.rMax)
    (h : p.rMax = p.rMin ∨ 2147483648 ≤ (q.range - p.rMin) / g2Width p) :
    g2Run p fit rounds cloud = .ub := by
  have hcell : g2Cell p q = .ub := by
    unfold g2Cell
    rw [if_neg (by rintro ⟨h1, h2⟩; linarith)]
    unfold g2Bin
    rcases h with h | h
    · rw [if_pos h]; rfl
    · by_cases he : p.rMax = p.rMin
      · rw [if_pos he]; rfl
      · rw [if_neg he]
        dsimp only
        unfold g2Width at h
        have h0 : (0 : Rat) ≤ (q.range - p.rMin) / ((p.rMax - p.rMin) / p.bins) := by linarith
        unfold truncInt
        rw [if_pos h0]
        have : (2147483648 : Int) ≤ ⌊(q.range - p.rMin) / ((p.rMax - p.rMin) / p.bins)⌋ :=
          Int.le_floor.2 (by push_cast; exact h)
        rw [if_pos (by right; omega)]
        rfl
  have hmap : ∀ cloud : List G2Point, q ∈ cloud → cloud.mapM (g2Cell p) = .ub := by
    intro cloud
    induction cloud with
    | nil => intro h; simp at h
    | cons a as ih =>
      intro hm
      rw [List.mapM_cons]
      rcases g2Cell_total p a with ⟨k, hk⟩ | hk
      · rw [hk, Outcome.bind_ok]
        rcases List.mem_cons.1 hm with rfl | hm
        · rw [hcell] at hk; cases hk
        · rw [ih hm]; rfl
      · rw [hk]; rfl
  unfold g2Run g2SetInput
  rw [hmap cloud hq]
  rfl

-- flat ground and ground after a gap, with three and more points in a segment
example : g2Run g2Small lsq 6 [⟨1 / 2, 0, 0⟩, ⟨3 / 2, 0, 0⟩, ⟨5 / 2, 0, 0⟩] = .ok (some ([0, 1, 2], [])) :=
  C62_flat_fails g2Small C62_range_fails.1 lsq _ (by
    intro q hq
    simp only [List.mem_cons, List.not_mem_nil, or_false] at hq
    rcases hq with rfl | rfl | rfl <;> (unfold InReach g2Width g2Small; norm_num)) 0 (by simp)
    (fun g hne h => lsq_flat g 0 hne h)
example : lowest { g2Small with rMax := 6, bins := 6, longThreshold := 2 }
    [⟨1 / 2, 0, 0⟩, ⟨5 / 2, 1 / 50, 0⟩, ⟨7 / 2, 0, 0⟩, ⟨9 / 2, 1 / 50, 0⟩] 0 =
    [⟨1 / 2, 0⟩, ⟨5 / 2, 1 / 50⟩, ⟨7 / 2, 0⟩, ⟨9 / 2, 1 / 50⟩] := by decide +kernel

theorem fitLows_third_gap (p : G2Params) (fit : List DZ → Rat × Rat) (a b c : DZ)
    (h : p.longThreshold ≤ c.d - b.d) : fitLows p fit [a, b, c] = [] := by
  by_cases hab : p.longThreshold ≤ b.d - a.d
  · exact fitLows_stuck p fit a b [c] hab
  have hb : (g2Back [b]).d = b.d := rfl
  have hab' : (g2Back [a, b]).d = b.d := rfl
  have ha : (g2Back [a]).d = a.d := rfl
  have hs : ∀ st : G2Fit, st.pts = [b] → st.out = [] → (g2Visit2 p fit st c).pts.length ≤ 1 ∧
      (g2Visit2 p fit st c).out = [] := by
    intro st h1 h2
    unfold g2Visit2
    rw [if_neg (by rw [g2Visit_single p fit st c (by rw [h1]; simp)]; simp)]
    unfold g2Visit
    rw [h1]
    dsimp only
    rw [if_neg (by simp), hb]
    simp [h, h2]
  have hend : ∀ st : G2Fit, st.pts.length ≤ 1 → st.out = [] → g2End fit st = [] := by
    intro st h1 h2
    unfold g2End
    rw [if_neg (by omega), h2]
  unfold fitLows
  dsimp only
  rw [List.foldl_cons, List.foldl_cons, List.foldl_nil]
  by_cases hl : |a.z - p.startHeight| < p.maxStart
  · have e : g2Visit2 p fit { pts := [a], line := (0, 0), long := false, height := p.startHeight, out := [] } b =
        { pts := [a, b], line := (0, 0), long := false, height := p.startHeight, out := [] } := by
      unfold g2Visit2
      rw [if_neg (by rw [g2Visit_single p fit _ b (by simp)]; simp)]
      unfold g2Visit
      dsimp only
      rw [if_neg (by simp), ha, if_pos ⟨by simp [hab], hl⟩]
      simp [hab]
    rw [e]
    have e2 : g2Visit p fit { pts := [a, b], line := (0, 0), long := false, height := p.startHeight, out := [] } c =
        (g2Close fit { pts := [a, b], line := (0, 0), long := false, height := p.startHeight, out := [] }
          (fit [a, b, c]), true) := by
      unfold g2Visit
      dsimp only
      rw [if_pos (by simp), if_pos]
      · rfl
      · right; right
        unfold g2Far
        simp [hab', h]
    unfold g2Visit2
    rw [e2, if_pos rfl]
    have e3 : g2Close fit { pts := [a, b], line := (0, 0), long := false, height := p.startHeight, out := [] }
          (fit [a, b, c]) = { pts := [b], line := fit [a, b, c], long := false, height := p.startHeight, out := [] } := by
      unfold g2Close
      rw [if_neg (by simp)]
      rfl
    rw [e3]
    have := hs { pts := [b], line := fit [a, b, c], long := false, height := p.startHeight, out := [] } rfl rfl
    unfold g2Visit2 at this
    rw [if_neg (by rw [g2Visit_single p fit _ c (by simp)]; simp)] at this
    exact hend _ this.1 this.2
  · have e : g2Visit2 p fit { pts := [a], line := (0, 0), long := false, height := p.startHeight, out := [] } b =
        { pts := [b], line := (0, 0), long := false, height := p.startHeight, out := [] } := by
      unfold g2Visit2
      rw [if_neg (by rw [g2Visit_single p fit _ b (by simp)]; simp)]
      unfold g2Visit
      dsimp only
      rw [if_neg (by simp), ha, if_neg (fun h => hl h.2)]
      simp [hab]
    rw [e]
    have := hs { pts := [b], line := (0, 0), long := false, height := p.startHeight, out := [] } rfl rfl
    exact hend _ this.1 this.2

/-- A wide gap in front of the third point of a sector with three cells in use: two points make no line, whatever
the heights, and nothing is removed. -/
theorem C62_third_gap_fails (p : G2Params) (hp : G2Sane p) (fit : List DZ → Rat × Rat) (cloud : List G2Point)
    (hc : ∀ q ∈ cloud, InReach p q)
    (hgap : ∀ s, lowest p cloud s = [] ∨
      ∃ a b c, lowest p cloud s = [a, b, c] ∧ p.longThreshold ≤ c.d - b.d) :
    g2Run p fit (2 * p.bins) cloud = .ok (some (List.range cloud.length, [])) := by
  obtain ⟨kept, removed, h1, h2, h3, h4⟩ := g2Run_eq hp fit cloud hc (2 * p.bins) (le_refl _)
  have hno : ∀ s, fitLows p fit (lowest p cloud s) = [] := by
    intro s
    rcases hgap s with h | ⟨a, b, c, h, hg⟩
    · rw [h]; rfl
    · rw [h]; exact fitLows_third_gap p fit a b c hg
  have hrem : removed = [] := by
    apply List.eq_nil_iff_forall_not_mem.2
    intro i hi
    obtain ⟨-, q, hq, hon⟩ := (h4 i).1 hi
    unfold OnGround at hon
    simp only [hno] at hon
    obtain ⟨d, hd', -⟩ := hon
    have hmem := List.mem_of_mem_head? (Option.mem_def.2 hd')
    obtain ⟨s, -, hs⟩ := List.mem_filterMap.1 hmem
    simp [groundDist] at hs
  subst hrem
  rw [h1, h2]
  simp

example : lowest { g2Small with rMax := 6, bins := 6, longThreshold := 2 }
    [⟨1 / 2, 0, 0⟩, ⟨3 / 2, 1 / 50, 0⟩, ⟨9 / 2, 1 / 50, 0⟩] 0 =
    [⟨1 / 2, 0⟩, ⟨3 / 2, 1 / 50⟩, ⟨9 / 2, 1 / 50⟩] := by decide +kernel

theorem g2Insert_ne_ub : ∀ (qs : List (G2Point × Nat)) (ks : List (Option Nat)) (cells : List G2Cell),
    g2Insert qs ks cells ≠ .ub := by
  intro qs ks
  induction qs generalizing ks with
  | nil => intro cells h; cases ks <;> simp [g2Insert] at h
  | cons q qs ih =>
    intro cells
    cases ks with
    | nil => simp [g2Insert]
    | cons k ks =>
      cases k with
      | none => rw [g2Insert]; exact ih _ _
      | some k =>
        rw [g2Insert]
        split
        · exact ih _ _
        · simp

theorem g2Distance_ne_ub (q : DZ) (ls : List G2Line) : ∀ d, g2Distance q ls d ≠ .ub := by
  induction ls with
  | nil => intro d; simp [g2Distance]
  | cons l ls ih =>
    intro d h
    rw [g2Distance, Outcome.check_bind_eq_ub] at h
    have h := h.2
    split at h
    · exact ih _ h
    · exact ih _ h

theorem g2Search_ne_ub (p : G2Params) (segments : List (List G2Line)) (q : DZ) (s : Nat) (is : List Int) :
    ∀ d, g2Search p segments q s is d ≠ .ub := by
  induction is with
  | nil => intro d; simp [g2Search]
  | cons i is ih =>
    intro d h
    rw [g2Search] at h
    split at h
    · cases h
    · cases hs : segments[(g2Neighbour p s i).toNat]? with
      | none => rw [hs] at h; cases h
      | some lines =>
        rw [hs] at h
        rcases (Outcome.bind_eq_ub _ _).1 h with h | ⟨d', -, h⟩
        · exact g2Distance_ne_ub _ _ _ h
        · split at h
          · cases h
          · exact ih _ h

theorem g2IsGround_ne_ub (p : G2Params) (segments : List (List G2Line)) (s : Nat) (q : DZ) :
    g2IsGround p segments s q ≠ .ub := by
  intro h
  unfold g2IsGround at h
  cases hs : segments[s]? with
  | none => rw [hs] at h; cases h
  | some lines =>
    rw [hs] at h
    rcases (Outcome.bind_eq_ub _ _).1 h with h | ⟨d', -, h⟩
    · exact g2Distance_ne_ub _ _ _ h
    · dsimp only at h
      split at h
      · rcases (Outcome.bind_eq_ub _ _).1 h with h | ⟨d', -, h⟩
        · exact g2Search_ne_ub _ _ _ _ _ _ h
        · cases h
      · cases h

theorem g2MarkPoints_ne_ub (p : G2Params) (segments : List (List G2Line)) (s : Nat) (qs : List (Nat × DZ)) :
    g2MarkPoints p segments s qs ≠ .ub := by
  induction qs with
  | nil => simp [g2MarkPoints]
  | cons q qs ih =>
    intro h
    rw [g2MarkPoints] at h
    rcases (Outcome.bind_eq_ub _ _).1 h with h | ⟨d', -, h⟩
    · exact g2IsGround_ne_ub _ _ _ _ h
    · rcases (Outcome.bind_eq_ub _ _).1 h with h | ⟨d', -, h⟩
      · exact ih h
      · cases h

theorem g2MarkAll_ne_ub (p : G2Params) (segments : List (List G2Line)) (cells : List G2Cell) (ss : List Nat) :
    g2MarkAll p segments cells ss ≠ .ub := by
  induction ss with
  | nil => simp [g2MarkAll]
  | cons q qs ih =>
    intro h
    rw [g2MarkAll] at h
    rcases (Outcome.bind_eq_ub _ _).1 h with h | ⟨d', -, h⟩
    · exact g2MarkPoints_ne_ub _ _ _ _ h
    · rcases (Outcome.bind_eq_ub _ _).1 h with h | ⟨d', -, h⟩
      · exact ih h
      · cases h

/-- The only undefined case is the cell of a point: equal limits, or a number of the cell that is no `int`. (Cells
outside the grid stop the program instead.) -/
theorem C62_undefined (p : G2Params) (fit : List DZ → Rat × Rat) (rounds : Nat) (cloud : List G2Point)
    (h : g2Run p fit rounds cloud = .ub) : ∃ q ∈ cloud, p.rMax = p.rMin ∨
      (q.range - p.rMin) / g2Width p ≤ -2147483649 ∨ 2147483648 ≤ (q.range - p.rMin) / g2Width p := by
  have key : ∃ q ∈ cloud, g2Cell p q = .ub := by
    unfold g2Run g2SetInput at h
    rcases (Outcome.bind_eq_ub _ _).1 h with h | ⟨cells, -, h⟩
    · rcases (Outcome.bind_eq_ub _ _).1 h with h | ⟨cells, -, h⟩
      · clear * - h
        induction cloud with
        | nil => simp at h
        | cons a as ih =>
          rw [List.mapM_cons] at h
          rcases (Outcome.bind_eq_ub _ _).1 h with h | ⟨k, -, h⟩
          · exact ⟨a, by simp, h⟩
          · rcases (Outcome.bind_eq_ub _ _).1 h with h | ⟨k, -, h⟩
            · obtain ⟨q, hq, e⟩ := ih h
              exact ⟨q, by simp [hq], e⟩
            · cases h
      · exact absurd h (g2Insert_ne_ub _ _ _)
    · cases hf : g2FitAll p fit rounds cells with
      | none => rw [hf] at h; cases h
      | some segments =>
        rw [hf] at h
        rcases (Outcome.bind_eq_ub _ _).1 h with h | ⟨k, -, h⟩
        · exact absurd h (g2MarkAll_ne_ub _ _ _ _)
        · cases h
  obtain ⟨q, hq, e⟩ := key
  refine ⟨q, hq, ?_⟩
  unfold g2Cell at e
  split at e
  · cases e
  · rcases (Outcome.bind_eq_ub _ _).1 e with e | ⟨k, -, e⟩
    · unfold g2Bin at e
      split at e
      · left; assumption
      · right
        dsimp only at e
        split at e
        · rename_i hr
          unfold g2Width
          generalize (q.range - p.rMin) / ((p.rMax - p.rMin) / p.bins) = x at hr
          unfold truncInt at hr
          split at hr
          · rename_i h0
            right
            rcases hr with hr | hr
            · have := Int.floor_nonneg.2 h0; omega
            · have : (2147483648 : Int) ≤ ⌊x⌋ := by omega
              have := Int.le_floor.1 this
              push_cast at this
              exact this
          · rename_i h0
            rcases hr with hr | hr
            · left
              have : ⌈x⌉ ≤ (-2147483649 : Int) := by omega
              have := Int.ceil_le.1 this
              push_cast at this
              exact this
            · exfalso
              have : ⌈x⌉ ≤ 0 := Int.ceil_le.2 (by push_cast; linarith)
              omega
        · cases e
    · cases e

end Verif
