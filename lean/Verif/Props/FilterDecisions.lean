import Verif.Props.Filters
/-! Property theorems C21 - C23. -/
namespace Verif
open Spec

/-! ### C21 -/
section
variable {R : Type} [Field R] [LinearOrder R] [IsStrictOrderedRing R]

/-- C21, range filter: a point is kept iff its distance from the origin is in `[min, max]`. -/
theorem C21_range (sqrt : R → R) (hs : IsSqrt sqrt) (min max : R) (st : FState R) (c out : InnerCloud R)
    (hc : c.points ≠ []) (i : Nat) :
    i ∈ (rangeFilter sqrt min max (st.setInput (some c)) out).1.inliers ↔
      ∃ p, c.points[i]? = some p ∧ InRange min max p := by
  have hi : (st.setInput (some c)).input = some c := by rw [setInput_input st c hc]
  unfold rangeFilter
  rw [runScan_mem _ _ c out hi]
  apply exists_congr
  intro p
  apply and_congr_right
  intro _
  unfold rangeKeep InRange
  have hn : 0 ≤ p.x * p.x + p.y * p.y + p.z * p.z :=
    add_nonneg (add_nonneg (mul_self_nonneg _) (mul_self_nonneg _)) (mul_self_nonneg _)
  obtain ⟨h1, h2⟩ := hs _ hn
  have e : p.x ^ 2 + p.y ^ 2 + p.z ^ 2 = p.x * p.x + p.y * p.y + p.z * p.z := by ring
  rw [e]
  generalize p.x * p.x + p.y * p.y + p.z * p.z = n at *
  dsimp only
  generalize sqrt n = s at *
  simp only [Bool.and_eq_true, decide_eq_true_eq, ge_iff_le]
  rw [← h2]
  apply and_congr
  · constructor
    · intro h
      by_cases hm : min ≤ 0
      · exact Or.inl hm
      · exact Or.inr (pow_le_pow_left₀ (le_of_lt (not_le.1 hm)) h 2)
    · rintro (h | h)
      · exact le_trans h h1
      · exact le_of_sq_le_sq h h1
  · constructor
    · intro h; exact ⟨le_trans h1 h, pow_le_pow_left₀ h1 h 2⟩
    · rintro ⟨ha, hb⟩; exact le_of_sq_le_sq hb ha

/-- C21, axis filter, on any object right after `SetInputCloud`: a point is kept iff its coordinate
on the configured axis is in `[min, max]`.  With the untouched limits `±limit` everything is kept,
which is the same as long as no coordinate exceeds `limit`. -/
theorem C21_axis (limit min max : R) (axis : Int) (ha : axis = 0 ∨ axis = 1 ∨ axis = 2)
    (st : FState R) (c out : InnerCloud R) (hc : c.points ≠ [])
    (hlim : ∀ p ∈ c.points, |p.x| ≤ limit ∧ |p.y| ≤ limit ∧ |p.z| ≤ limit) (i : Nat) :
    i ∈ (axisFilter limit min max axis (st.setInput (some c)) out).1.inliers ↔
      ∃ p, c.points[i]? = some p ∧
        let v := if axis = 0 then p.x else if axis = 1 then p.y else p.z
        min ≤ v ∧ v ≤ max := by
  have hi : (st.setInput (some c)).input = some c := by rw [setInput_input st c hc]
  unfold axisFilter
  split
  · rename_i h
    rw [setInput_input st c hc]
    simp only [copyAll, List.nil_append, List.mem_range]
    constructor
    · intro hlt
      refine ⟨c.points[i], List.getElem?_eq_getElem hlt, ?_⟩
      obtain ⟨hx, hy, hz⟩ := hlim c.points[i] (List.getElem_mem hlt)
      rw [abs_le] at hx hy hz
      rw [h.1, h.2]
      split
      · exact hx
      · split
        · exact hy
        · exact hz
    · rintro ⟨p, hp, -⟩
      exact (List.getElem?_eq_some_iff.1 hp).1
  · rw [runScan_mem _ _ c out hi]
    apply exists_congr
    intro p
    apply and_congr_right
    intro _
    unfold axisKeep
    rcases ha with rfl | rfl | rfl
    · simp
    · simp
    · simp

/-- C21, bounding-box filter: a point is kept iff it is outside the closed box. -/
theorem C21_bbox (mn mx : Vec3 R) (st : FState R) (c out : InnerCloud R) (hc : c.points ≠ [])
    (r : FState R × InnerCloud R) (h : bboxFilter mn mx (st.setInput (some c)) out = .ok r) (i : Nat) :
    i ∈ r.1.inliers ↔ ∃ p, c.points[i]? = some p ∧
      ¬ ((mn.x ≤ p.x ∧ p.x ≤ mx.x) ∧ (mn.y ≤ p.y ∧ p.y ≤ mx.y) ∧ (mn.z ≤ p.z ∧ p.z ≤ mx.z)) := by
  have hi : (st.setInput (some c)).input = some c := by rw [setInput_input st c hc]
  unfold bboxFilter at h
  rw [hi] at h
  simp only [Outcome.check_bind_eq_ok, Outcome.pure_eq, Outcome.ok.injEq] at h
  rw [← h.2, runScan_mem _ _ c out hi]
  apply exists_congr
  intro p
  apply and_congr_right
  intro _
  simp only [boxContains, Bool.not_eq_true', ← Bool.not_eq_true, Bool.and_eq_true, decide_eq_true_eq, ge_iff_le]
  tauto

/-- C21, random sampling: a point is kept iff its draw is at most the rate (or the rate is above
0.999). -/
theorem C21_random (one rate : R) (draws : Nat → R) (st : FState R) (c out : InnerCloud R)
    (hc : c.points ≠ []) (i : Nat) :
    i ∈ (randomFilter one rate draws (st.setInput (some c)) out).1.inliers ↔
      i < c.points.length ∧ (one < rate ∨ draws i ≤ rate) := by
  have hi : (st.setInput (some c)).input = some c := by rw [setInput_input st c hc]
  unfold randomFilter
  split
  · rename_i h
    rw [setInput_input st c hc]
    simp only [copyAll, List.nil_append, List.mem_range]
    tauto
  · rename_i h
    rw [runScan_mem _ _ c out hi]
    simp only [decide_eq_true_eq]
    constructor
    · rintro ⟨p, hp, hd⟩; exact ⟨(List.getElem?_eq_some_iff.1 hp).1, Or.inr hd⟩
    · rintro ⟨hlt, hd⟩
      exact ⟨c.points[i], List.getElem?_eq_getElem hlt, by tauto⟩

end

/-- The square root of the reals is a square root in the sense of the specification. -/
example : IsSqrt Real.sqrt := fun _ ha => ⟨Real.sqrt_nonneg _, Real.sq_sqrt ha⟩

/-- C21, voxel-based ground filter: a point is removed iff its voxel holds enough points, is at or
below the first layer, and all points of the voxel are within the height threshold of each other. -/
theorem C21_ground (cfg : GroundCfg) (io : IterOrder (Voxel × List Nat)) (st : FState Rat)
    (c out : InnerCloud Rat) (hc : c.points ≠ [])
    (hz : ∀ p ∈ c.points, -1000000000 ≤ p.z ∧ p.z ≤ 1000000000) (i : Nat) :
    i ∈ (groundFilter cfg io (st.setInput (some c)) out).1.outliers ↔
      ∃ p, c.points[i]? = some p ∧
        cfg.minPoints ≤ (c.points.countP (fun q => groundKey cfg q = groundKey cfg p) : Int) ∧
        (groundKey cfg p).z ≤ 0 ∧
        ∀ a ∈ c.points, ∀ b ∈ c.points, groundKey cfg a = groundKey cfg p →
          groundKey cfg b = groundKey cfg p → a.z - b.z ≤ cfg.height := by
  rw [setInput_input st c hc]
  simp only [groundFilter, filterPrepare, List.nil_append]
  have inv := (groundTable_inv cfg c).perm (io.perm (groundTable cfg c))
  generalize io.order (groundTable cfg c) = t at *
  rw [(List.mergeSort_perm _ _).mem_iff, (groundLoop_mem cfg c t i).2]
  have key : ∀ e ∈ t, ∀ j ∈ e.2, ∃ p, c.points[j]? = some p ∧ groundKey cfg p = e.1 ∧
      e.2.length = c.points.countP (fun q => groundKey cfg q = groundKey cfg p) ∧
      (voxelIsGround cfg c.points e.1 e.2 = true ↔ (groundKey cfg p).z ≤ 0 ∧
        ∀ a ∈ c.points, ∀ b ∈ c.points, groundKey cfg a = groundKey cfg p →
          groundKey cfg b = groundKey cfg p → a.z - b.z ≤ cfg.height) := by
    intro e he j hj
    obtain ⟨hcon, -⟩ := inv.content e he
    have hj' := hj
    rw [hcon] at hj'
    obtain ⟨hlt, hk⟩ := List.mem_filter.1 hj'
    rw [List.mem_range] at hlt
    have hk' : groundKey cfg c.points[j] = e.1 := by
      simpa [idxKey, List.getElem?_eq_getElem hlt] using hk
    refine ⟨c.points[j], List.getElem?_eq_getElem hlt, hk', ?_, ?_⟩
    · rw [hcon, ← List.countP_eq_length_filter]
      symm
      apply countP_range
      intro k hk2
      simp [idxKey, List.getElem?_eq_getElem hk2, hk']
    · have hzs : ∀ z, z ∈ (e.2.filterMap (fun i => c.points[i]?)).map InnerPoint.z ↔
          ∃ a ∈ c.points, groundKey cfg a = e.1 ∧ a.z = z := by
        intro z
        simp only [List.mem_map, List.mem_filterMap]
        constructor
        · rintro ⟨a, ⟨k, hk1, hk2⟩, rfl⟩
          rw [hcon] at hk1
          obtain ⟨h1, h2⟩ := List.mem_filter.1 hk1
          refine ⟨a, List.mem_of_getElem? hk2, ?_, rfl⟩
          simpa [idxKey, hk2] using h2
        · rintro ⟨a, ha, hka, rfl⟩
          obtain ⟨k, hk1, rfl⟩ := List.mem_iff_getElem.1 ha
          refine ⟨c.points[k], ⟨k, ?_, List.getElem?_eq_getElem hk1⟩, rfl⟩
          rw [hcon]
          exact List.mem_filter.2 ⟨List.mem_range.2 hk1, by simp [idxKey, List.getElem?_eq_getElem hk1, hka]⟩
      have hne : (e.2.filterMap (fun i => c.points[i]?)).map InnerPoint.z ≠ [] := by
        intro h0
        have := (hzs c.points[j].z).2 ⟨c.points[j], List.getElem_mem hlt, hk', rfl⟩
        rw [h0] at this; simp at this
      have hspread := zSpread_le _ hne (by
        intro z hz'
        obtain ⟨a, ha, -, rfl⟩ := (hzs z).1 hz'
        exact hz a ha) cfg.height
      unfold voxelIsGround
      rw [hk']
      by_cases hvz : e.1.z ≤ 0
      · rw [if_pos hvz]
        dsimp only
        simp only [Bool.and_eq_true, decide_eq_true_eq, ge_iff_le, hspread, hvz, true_and]
        constructor
        · intro h a ha b hb ka kb
          exact h a.z ((hzs _).2 ⟨a, ha, ka, rfl⟩) b.z ((hzs _).2 ⟨b, hb, kb, rfl⟩)
        · intro h x hx y hy
          obtain ⟨a, ha, ka, rfl⟩ := (hzs x).1 hx
          obtain ⟨b, hb, kb, rfl⟩ := (hzs y).1 hy
          exact h a ha b hb ka kb
      · rw [if_neg hvz]
        simp [hvz]
  constructor
  · rintro ⟨e, he, hie, hlen, hg⟩
    obtain ⟨p, hp, -, hl, hiff⟩ := key e he i hie
    refine ⟨p, hp, ?_, (hiff.1 hg).1, (hiff.1 hg).2⟩
    rw [← hl]; omega
  · rintro ⟨p, hp, hcnt, hrest⟩
    have hlt : i < c.points.length := (List.getElem?_eq_some_iff.1 hp).1
    obtain ⟨e, he, hk⟩ := inv.all i (List.mem_range.2 hlt)
    have hie : i ∈ e.2 := by
      rw [(inv.content e he).1]
      exact List.mem_filter.2 ⟨List.mem_range.2 hlt, by simp [hk]⟩
    obtain ⟨p', hp', -, hl, hiff⟩ := key e he i hie
    rw [hp] at hp'
    cases hp'
    rw [← hl] at hcnt
    exact ⟨e, he, hie, by omega, hiff.2 hrest⟩

/-- C21, range image: a point is kept iff it falls into the image and no earlier point of the cloud
falls into the same pixel. -/
theorem C21_image {R : Type} [Field R] [LinearOrder R] (near tiny : R) (ht : 0 < tiny) (hnt : tiny ≤ near)
    (G : ImageGeom R) (rows cols : Int) (hr : 0 < rows) (hc : 0 < cols) (st : ImageFilter R)
    (c out : InnerCloud R) (hne : c.points ≠ []) (r : ImageFilter R × InnerCloud R)
    (h : (st.setInput rows cols (some c)).filter near tiny G rows cols out = .ok r) (i : Nat) :
    i ∈ r.1.base.inliers ↔ ∃ p q, c.points[i]? = some p ∧ pixelOf near G rows cols p = some q ∧
      ∀ k p', k < i → c.points[k]? = some p' → pixelOf near G rows cols p' ≠ some q := by
  have h0 : ¬ (rows ≤ 0 ∨ cols ≤ 0) := by omega
  have hi : st.setInput rows cols (some c) = { base := { st.base with input := some c }, image := ImageState.blank } := by
    simp only [ImageFilter.setInput, List.isEmpty_iff, hne, if_false, h0]
  rw [hi] at h
  unfold ImageFilter.filter at h
  simp only [Outcome.bind_eq_ok, Outcome.pure_eq, Outcome.ok.injEq] at h
  obtain ⟨ps, -, rfl⟩ := h
  have := image_mem near tiny G rows cols hnt ImageState.blank 0 c.points i
  simp only [Nat.zero_le, true_and, Nat.sub_zero] at this
  rw [this]
  simp [ImageState.blank, ht]

/-! ### C22 -/

/-- C22: a second (hence any later) call on the same input gives the same output and lists - range,
axis range with a limit configured, line-based ground filter. -/
theorem C22_repeat_partial {R : Type} [Field R] [LinearOrder R] (sqrt : R → R) (min max limit : R) (axis : Int)
    (hlim : ¬ (min = -limit ∧ max = limit)) (flags : Nat → Bool)
    (st : FState R) (c out out' : InnerCloud R) (hc : c.points ≠ []) :
    (let r := rangeFilter sqrt min max (st.setInput (some c)) out
     rangeFilter sqrt min max r.1 out' = r) ∧
    (let r := axisFilter limit min max axis (st.setInput (some c)) out
     axisFilter limit min max axis r.1 out' = r) ∧
    (let r := ground2Filter flags (st.setInput (some c)) out
     ground2Filter flags r.1 out' = r) := by
  have hi : (st.setInput (some c)).input = some c := by rw [setInput_input st c hc]
  refine ⟨runScan_again _ _ c out out' hi, ?_, runScan_again _ _ c out out' hi⟩
  unfold axisFilter
  simp only [hlim, if_false]
  exact runScan_again _ _ c out out' hi

/-- C22 for the bounding-box filter. -/
theorem C22_repeat_bbox {R : Type} [Field R] [LinearOrder R] (mn mx : Vec3 R)
    (st : FState R) (c out out' : InnerCloud R) (hc : c.points ≠ []) (r : FState R × InnerCloud R)
    (h : bboxFilter mn mx (st.setInput (some c)) out = .ok r) :
    bboxFilter mn mx r.1 out' = .ok r := by
  have hi : (st.setInput (some c)).input = some c := by rw [setInput_input st c hc]
  unfold bboxFilter at h
  rw [hi] at h
  simp only [Outcome.check_bind_eq_ok, Outcome.pure_eq, Outcome.ok.injEq] at h
  obtain ⟨hb, rfl⟩ := h
  have hin : (runScan (fun _ p => !boxContains mn mx p) (st.setInput (some c)) out).1.input = some c := by
    rw [setInput_input st c hc]; rfl
  unfold bboxFilter
  rw [hin]
  simp only
  rw [Outcome.check_pos hb, runScan_again _ _ c out out' hi]
  rfl

/-- C22 for the voxel-based ground filter (same iteration order of the same table). -/
theorem C22_repeat_ground (cfg : GroundCfg) (io : IterOrder (Voxel × List Nat)) (st : FState Rat)
    (c out out' : InnerCloud Rat) (hc : c.points ≠ []) :
    let r := groundFilter cfg io (st.setInput (some c)) out
    groundFilter cfg io r.1 out' = r := by
  rw [setInput_input st c hc]
  simp [groundFilter, filterPrepare]

/-- C22 is false for the axis filter with unset limits (and in the same way for random sampling with
rate 1): a second call lists every inlier twice. -/
theorem C22_repeat_fails :
    ∃ (c : InnerCloud Rat), c.points ≠ [] ∧
      let r1 := axisFilter 100 (-100) 100 2 (({} : FState Rat).setInput (some c)) freshCloud
      let r2 := axisFilter 100 (-100) 100 2 r1.1 freshCloud
      r1.1.inliers = [0] ∧ r2.1.inliers = [0, 0] :=
  ⟨⟨⟨0, 0, 1⟩, [⟨1, 2, 3, 4, 0⟩]⟩, by simp, by decide +kernel, by decide +kernel⟩

/-- C22 is false for the range image: whatever the cloud, a second call without setting the input
again returns no point at all. -/
theorem C22_image_fails {R : Type} [Field R] [LinearOrder R] (near tiny : R) (hnt : tiny ≤ near)
    (G : ImageGeom R) (rows cols : Int) (hr : 0 < rows) (hc : 0 < cols) (st : ImageFilter R)
    (c out out' : InnerCloud R) (hne : c.points ≠ []) (r : ImageFilter R × InnerCloud R)
    (h : (st.setInput rows cols (some c)).filter near tiny G rows cols out = .ok r) :
    ∃ r', r.1.filter near tiny G rows cols out' = .ok r' ∧ r'.1.base.inliers = [] ∧ r'.2.points = [] := by
  have h0 : ¬ (rows ≤ 0 ∨ cols ≤ 0) := by omega
  have hi : st.setInput rows cols (some c) = { base := { st.base with input := some c }, image := ImageState.blank } := by
    simp only [ImageFilter.setInput, List.isEmpty_iff, hne, if_false, h0]
  rw [hi] at h
  unfold ImageFilter.filter at h
  simp only [Outcome.bind_eq_ok, Outcome.pure_eq, Outcome.ok.injEq] at h
  obtain ⟨ps, -, rfl⟩ := h
  have hb := image_blocked near tiny G rows cols
    (scanFrom (imageKeep near tiny G rows cols) ImageState.blank 0 c.points).2 0 c.points
    (fun p hp q hq => image_taken near tiny G rows cols hnt ImageState.blank 0 c.points p hp q hq)
  unfold ImageFilter.filter
  simp only [hb.1, pickPoints, Outcome.bind_ok, Outcome.pure_eq]
  exact ⟨_, rfl, rfl, rfl⟩

-- an image filter that keeps a point, so the previous theorem is not vacuous
example : (match (({ image := ImageState.blank } : ImageFilter Rat).setInput 4 4
      (some ⟨⟨0, 0, 1⟩, [⟨1, 2, 3, 4, 0⟩]⟩)).filter (1/100) (1/1000000)
      ⟨fun _ => 1, fun _ => 2, fun _ => 4, fun _ => 3, fun _ => by decide +kernel⟩ 4 4 freshCloud with
    | .ok r => r.1.base.inliers
    | _ => []) = [0] := by decide +kernel

/-! ### C23 -/
section
variable {R : Type} [Field R] [LinearOrder R]

/-- A chain member that computes `g`: for a non-empty input the output is replaced by `g input`; for
an empty input (which `SetInputCloud` refuses) the output cloud is left as it is. -/
structure Computes (s : Stage R) (g : InnerCloud R → InnerCloud R) : Prop where
  on_points : ∀ c out, c.points ≠ [] → s c out = g c
  on_empty : ∀ c out, c.points = [] → s c out = out

/-- What a chain of functions should compute: apply them one after the other, an empty cloud staying
as it is. -/
def runFns : List (InnerCloud R → InnerCloud R) → InnerCloud R → InnerCloud R
  | [], c => c
  | g :: gs, c => runFns gs (if c.points = [] then c else g c)

theorem chainLoop_eq (ss : List (Stage R)) (gs : List (InnerCloud R → InnerCloud R))
    (h : List.Forall₂ Computes ss gs) (c : InnerCloud R) : chainLoop ss c c = runFns gs c := by
  induction h generalizing c with
  | nil => rfl
  | cons hs _ ih =>
    simp only [chainLoop, runFns]
    by_cases hc : c.points = []
    · rw [hs.on_empty c c hc, if_pos hc, ih]
    · rw [hs.on_points c c hc, if_neg hc, ih]

/-- C23: the output of a chain of computing filters is the composition of their functions in
configuration order; with no filter it is the input. -/
theorem C23_chain_partial (ss : List (Stage R)) (gs : List (InnerCloud R → InnerCloud R))
    (h : List.Forall₂ Computes ss gs) (st : FState R) (c out : InnerCloud R) (hc : c.points ≠ []) :
    (factoryFilter ss (st.setInput (some c)) out).2 = runFns gs c := by
  rw [setInput_input st c hc]
  unfold factoryFilter
  simp only [filterPrepare]
  cases h with
  | nil => rfl
  | cons hs ht =>
    simp only [chainLoop, runFns]
    rw [hs.on_points c _ hc, if_neg hc]
    exact chainLoop_eq _ _ ht _

/-- C23: if every member keeps a subsequence of its input and its stamp, so does the chain. -/
theorem C23_subsequence (gs : List (InnerCloud R → InnerCloud R))
    (h : ∀ g ∈ gs, ∀ c, (g c).points.Sublist c.points ∧ (g c).stamp = c.stamp) (c : InnerCloud R) :
    (runFns gs c).points.Sublist c.points ∧ (runFns gs c).stamp = c.stamp := by
  induction gs generalizing c with
  | nil => exact ⟨List.Sublist.refl _, rfl⟩
  | cons g gs ih =>
    simp only [runFns]
    have h1 := ih (fun g hg => h g (by simp [hg]))
    split
    · exact h1 c
    · have h2 := h g (by simp) c
      exact ⟨(h1 _).1.trans h2.1, (h1 _).2.trans h2.2⟩

/-- The range, axis, random and line-based ground filters are computing chain members whose function
keeps a subsequence and the stamp. -/
theorem C23_members (sqrt : R → R) (min max limit : R) (axis : Int) (one rate : R) (draws : Nat → R)
    (flags : Nat → Bool) (st : FState R) :
    ∀ f ∈ [rangeFilter sqrt min max, axisFilter limit min max axis, randomFilter one rate draws,
        ground2Filter flags], ∃ g, Computes (stageOf f st) g ∧
      ∀ c : InnerCloud R, (g c).points.Sublist c.points ∧ (g c).stamp = c.stamp := by
  have sub : ∀ (keep : Unit → Nat → InnerPoint R → Bool × Unit) (i : Nat) (ps : List (InnerPoint R)),
      (scanFrom keep () i ps).1.pts.Sublist ps := by
    intro keep i ps
    induction ps generalizing i with
    | nil => exact List.Sublist.refl _
    | cons p ps ih =>
      simp only [scanFrom]
      split
      · exact (ih (i + 1)).cons_cons p
      · exact (ih (i + 1)).cons p
  have scan : ∀ keep : Nat → InnerPoint R → Bool, ∃ g, Computes (stageOf (runScan keep) st) g ∧
      ∀ c : InnerCloud R, (g c).points.Sublist c.points ∧ (g c).stamp = c.stamp := by
    intro keep
    refine ⟨fun c => { stamp := c.stamp
                       points := (scanFrom (fun (_ : Unit) i p => (keep i p, ())) () 0 c.points).1.pts },
      ⟨?_, ?_⟩, ?_⟩
    · intro c out hc
      unfold stageOf
      rw [setInput_input st c hc]
      simp [runScan, filterPrepare]
    · intro c out hc
      unfold stageOf
      rw [setInput_empty st c hc]
      rfl
    · intro c
      exact ⟨sub _ 0 c.points, rfl⟩
  have copy : ∃ g, Computes (stageOf (copyAll (R := R)) st) g ∧
      ∀ c : InnerCloud R, (g c).points.Sublist c.points ∧ (g c).stamp = c.stamp := by
    refine ⟨id, ⟨?_, ?_⟩, fun c => ⟨List.Sublist.refl _, rfl⟩⟩
    · intro c out hc
      unfold stageOf
      rw [setInput_input st c hc]
      rfl
    · intro c out hc
      unfold stageOf
      rw [setInput_empty st c hc]
      rfl
  intro f hf
  simp only [List.mem_cons, List.not_mem_nil, or_false] at hf
  rcases hf with rfl | rfl | rfl | rfl
  · exact scan _
  · by_cases h : min = -limit ∧ max = limit
    · have e : axisFilter limit min max axis = copyAll (R := R) := by
        funext st out; unfold axisFilter; rw [if_pos h]
      rw [e]; exact copy
    · have e : axisFilter limit min max axis = runScan (fun _ p => axisKeep min max axis p) := by
        funext st out; unfold axisFilter; rw [if_neg h]
      rw [e]; exact scan _
  · by_cases h : rate > one
    · have e : randomFilter one rate draws = copyAll (R := R) := by
        funext st out; unfold randomFilter; rw [if_pos h]
      rw [e]; exact copy
    · have e : randomFilter one rate draws = runScan (fun i (_ : InnerPoint R) => decide (draws i ≤ rate)) := by
        funext st out; unfold randomFilter; rw [if_neg h]
      rw [e]; exact scan _
  · exact scan _

/-- C23: the configured names become the chain in order, unknown names being skipped. -/
theorem C23_config {F : Type} (supported : String → Option F) (names : List String) :
    (buildChain supported names).map some = (names.map supported).filter Option.isSome := by
  induction names with
  | nil => rfl
  | cons n ns ih =>
    simp only [buildChain, List.map_cons]
    cases h : supported n with
    | none => simpa using ih
    | some f => simpa using ih

/-- C23 is false for chains with the (unimplemented) statistic filter: as the first member it empties
the cloud and loses the stamp. -/
theorem C23_chain_fails : ∃ (c : InnerCloud Rat), c.points ≠ [] ∧
    (factoryFilter [stageOf statisticFilter {}] (({} : FState Rat).setInput (some c)) freshCloud).2.points = [] ∧
    (factoryFilter [stageOf statisticFilter {}] (({} : FState Rat).setInput (some c)) freshCloud).2.stamp = ⟨0, 0, 1⟩ ∧
    c.stamp = ⟨7, 0, 1⟩ :=
  ⟨⟨⟨7, 0, 1⟩, [⟨1, 2, 3, 4, 0⟩]⟩, by simp, by decide +kernel, by decide +kernel, rfl⟩

-- a chain of a range filter and an axis filter
example : (factoryFilter [stageOf (axisFilter 1000 (-10) 10 0) {}, stageOf (axisFilter 1000 0 10 2) {}]
    (({} : FState Rat).setInput (some ⟨⟨7, 0, 1⟩, [⟨1, 2, 3, 4, 0⟩, ⟨20, 2, 3, 4, 0⟩, ⟨1, 2, -3, 4, 0⟩]⟩))
    freshCloud).2 = ⟨⟨7, 0, 1⟩, [⟨1, 2, 3, 4, 0⟩]⟩ := by decide +kernel
end

end Verif
