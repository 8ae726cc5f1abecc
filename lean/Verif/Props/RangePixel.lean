import Verif.Proofs.RangePixel
import Verif.Model.ConfigText
/-! Property theorems C107 (geometry of the range image, angle test of the depth clusters, picture). -/
namespace Verif
open Spec

/-- C107: the pixel of a point is the one of its direction; but row 0 also gets the directions up to one row below the
field. -/
theorem C107_pixel (c : ImageCfg) (hr : 0 < c.rows) (hc : 0 < c.cols) (ht : c.btm < c.top)
    (hfit : Real.pi / 2 + |c.btm| / 180 * Real.pi ≤ 2147483647 * c.vRes) (p : InnerPoint ℝ) (r ε φ : ℝ)
    (h : SeenAt (fromSensor c p) r ε φ) :
    ∃ o, imagePixel c p = .ok o ∧ ∀ i j, o = some (i, j) ↔
      1 / 100 ≤ r * Real.cos ε ∧ (InRow c ε i ∨ i = 0 ∧ JustBelow c ε) ∧ InCol c φ j := by
  rw [show fromSensor c p = c.shift p from rfl] at h
  obtain ⟨k, hk⟩ := imageRow_ok hr ht h hfit
  have hrow := imageRow_iff hr ht h k hk
  have hcol := imageCol_iff hc h
  unfold imagePixel
  dsimp only
  rw [seen_flat h, hk]
  by_cases hn : r * Real.cos ε < 1 / 100
  · rw [if_pos hn]
    refine ⟨none, rfl, fun i j => ⟨fun h => (by cases h), ?_⟩⟩
    rintro ⟨h1, -⟩
    linarith
  · rw [if_neg hn]
    simp only [Outcome.bind_ok, Outcome.pure_eq]
    by_cases hkr : k < 0 ∨ c.rows ≤ k
    · rw [if_pos hkr]
      refine ⟨none, rfl, fun i j => ⟨fun h => (by cases h), ?_⟩⟩
      rintro ⟨-, h2, -⟩
      have := hrow.1.2 ⟨i, h2⟩
      omega
    · rw [if_neg hkr]
      have hk0 : 0 ≤ k := by omega
      have hk1 : k < c.rows := by omega
      generalize (if c.cols ≤ imageCol c (c.shift p) then imageCol c (c.shift p) - c.cols else imageCol c (c.shift p)) = m at hcol
      have hm := (hcol m).2 rfl
      rw [if_neg (by have := hm.1; have := hm.2.1; omega)]
      refine ⟨_, rfl, fun i j => ?_⟩
      rw [hcol j, hrow.2 hk0 hk1 i]
      simp only [Option.some.injEq, Prod.mk.injEq]
      constructor
      · rintro ⟨rfl, rfl⟩; exact ⟨not_lt.1 hn, rfl, rfl⟩
      · rintro ⟨-, rfl, rfl⟩; exact ⟨rfl, rfl⟩

theorem imageKeep_pixel (c : ImageCfg) (p : InnerPoint ℝ) (tiny : ℝ) (s : ImageState ℝ) (n : Nat) (o : Option (Int × Int))
    (h : imagePixel c p = .ok o) : imageKeep (1 / 100) tiny (imageGeom c) c.rows c.cols s n p =
      match o with
      | none => (false, s)
      | some q => if s.cell q < tiny then
          (true, ⟨fun q' => if q' = q then (imageGeom c).range p else s.cell q',
            fun q' => if q' = q then some n else s.index q'⟩) else (false, s) := by
  unfold imagePixel at h
  dsimp only at h
  unfold imageKeep
  have e1 : (imageGeom c).xyDist p = flatDist (c.shift p) := rfl
  have e2 : (imageGeom c).col p = imageCol c (c.shift p) := rfl
  rw [e1, e2]
  split at h
  · rename_i hn
    cases h
    rw [if_pos hn]
  · rename_i hn
    rw [if_neg hn]
    rw [Outcome.bind_eq_ok] at h
    obtain ⟨row, hrow, h⟩ := h
    have e3 : (imageGeom c).row p = row := by
      have : (imageGeom c).row p = match imageRow c (c.shift p) with
        | .ok r => r
        | _ => 0 := rfl
      rw [this, hrow]
    rw [e3]
    split at h
    · rename_i h1
      cases h
      rw [if_pos h1]
    · rename_i h1
      rw [if_neg h1]
      dsimp only
      generalize (if c.cols ≤ imageCol c (c.shift p) then imageCol c (c.shift p) - c.cols else imageCol c (c.shift p)) = m at h ⊢
      split at h
      · rename_i h2
        cases h
        rw [if_pos h2]
      · rename_i h2
        cases h
        rw [if_neg h2]

theorem seen_range (c : ImageCfg) (p : InnerPoint ℝ) (r ε φ : ℝ) (h : SeenAt (fromSensor c p) r ε φ) : (imageGeom c).range p = r := by
  rw [show fromSensor c p = c.shift p from rfl] at h
  have : (imageGeom c).range p = Real.sqrt ((c.shift p).x * (c.shift p).x + (c.shift p).y * (c.shift p).y + (c.shift p).z * (c.shift p).z) := rfl
  rw [this, h.x, h.y, h.z]
  rw [show r * Real.cos ε * Real.cos φ * (r * Real.cos ε * Real.cos φ) + r * Real.cos ε * Real.sin φ * (r * Real.cos ε * Real.sin φ) +
      r * Real.sin ε * (r * Real.sin ε) = r ^ 2 by
    have h1 := Real.sin_sq_add_cos_sq φ
    have h2 := Real.sin_sq_add_cos_sq ε
    linear_combination (r * Real.cos ε) ^ 2 * h1 + r ^ 2 * h2]
  exact Real.sqrt_sq h.far.le

/-- C107: a point is kept exactly if it is 1 cm or more away from the axis of the sensor, its direction belongs to a
pixel, and the pixel is still empty; the pixel then holds the distance of the point. -/
theorem C107_kept (c : ImageCfg) (hr : 0 < c.rows) (hc : 0 < c.cols) (ht : c.btm < c.top)
    (hfit : Real.pi / 2 + |c.btm| / 180 * Real.pi ≤ 2147483647 * c.vRes) (p : InnerPoint ℝ) (r ε φ : ℝ)
    (h : SeenAt (fromSensor c p) r ε φ) (s : ImageState ℝ) (n : Nat) (tiny : ℝ) :
    let res := imageKeep (1 / 100) tiny (imageGeom c) c.rows c.cols s n p
    (res.1 = true ↔ ∃ i j, 1 / 100 ≤ r * Real.cos ε ∧ (InRow c ε i ∨ i = 0 ∧ JustBelow c ε) ∧ InCol c φ j ∧ s.cell (i, j) < tiny) ∧
    (res.1 = true → ∃ q, s.cell q < tiny ∧ res.2.cell q = r ∧ res.2.index q = some n ∧
      ∀ q', q' ≠ q → res.2.cell q' = s.cell q' ∧ res.2.index q' = s.index q') ∧
    (res.1 = false → res.2 = s) := by
  obtain ⟨o, ho, hpix⟩ := C107_pixel c hr hc ht hfit p r ε φ h
  dsimp only
  rw [imageKeep_pixel c p tiny s n o ho, seen_range c p r ε φ h]
  cases o with
  | none =>
    refine ⟨⟨fun h => (by cases h), ?_⟩, fun h => (by cases h), fun _ => rfl⟩
    rintro ⟨i, j, h1, h2, h3, -⟩
    have := (hpix i j).2 ⟨h1, h2, h3⟩
    cases this
  | some q =>
    have hq := (hpix q.1 q.2).1 rfl
    dsimp only
    by_cases hs : s.cell q < tiny
    · rw [if_pos hs]
      refine ⟨⟨fun _ => ⟨q.1, q.2, hq.1, hq.2.1, hq.2.2, hs⟩, fun _ => rfl⟩, fun _ => ⟨q, hs, if_pos rfl, if_pos rfl, fun q' hq' =>
        ⟨if_neg hq', if_neg hq'⟩⟩, fun h => (by cases h)⟩
    · rw [if_neg hs]
      refine ⟨⟨fun h => (by cases h), ?_⟩, fun h => (by cases h), fun _ => rfl⟩
      rintro ⟨i, j, h1, h2, h3, h4⟩
      have := (hpix i j).2 ⟨h1, h2, h3⟩
      simp only [Option.some.injEq] at this
      rw [← this] at h4
      exact absurd h4 hs

/-- C107: every direction in the field of view belongs to one row and one column only, so no point in view is lost
because of its direction. -/
theorem C107_covers (c : ImageCfg) (hr : 0 < c.rows) (hc : 0 < c.cols) (ht : c.btm < c.top) :
    (∀ ε, c.btm / 180 * Real.pi ≤ ε → ε < c.top / 180 * Real.pi → ∃! k, InRow c ε k) ∧
    (∀ φ, 0 ≤ φ → φ < 2 * Real.pi → ∃ k, InCol c φ k) := by
  have hpi := Real.pi_pos
  have hr' : (0 : ℝ) < c.rows := by exact_mod_cast hr
  have hc' : (0 : ℝ) < c.cols := by exact_mod_cast hc
  constructor
  · intro ε h1 h2
    obtain ⟨w, hw⟩ : ∃ w, w = (c.top - c.btm) / c.rows := ⟨_, rfl⟩
    have hw0 : 0 < w := by rw [hw]; exact div_pos (by linarith) hr'
    have hwr : w * c.rows = c.top - c.btm := by rw [hw]; field_simp
    obtain ⟨d, hd⟩ : ∃ d, d = ε * 180 / Real.pi := ⟨_, rfl⟩
    have hε : ε = d / 180 * Real.pi := by rw [hd]; field_simp
    have key : ∀ x : ℝ, (x / 180 * Real.pi ≤ ε ↔ x ≤ d) ∧ (ε < x / 180 * Real.pi ↔ d < x) := by
      intro x
      rw [hε]
      constructor
      · constructor
        · intro h; have := le_of_mul_le_mul_right h hpi; linarith
        · intro h; exact mul_le_mul_of_nonneg_right (by linarith) hpi.le
      · constructor
        · intro h; have := lt_of_mul_lt_mul_right h hpi.le; linarith
        · intro h; exact mul_lt_mul_of_pos_right (by linarith) hpi
    rw [(key c.btm).1] at h1
    rw [(key c.top).2] at h2
    have row : ∀ k : Int, InRow c ε k ↔ k = ⌊(d - c.btm) / w⌋ := by
      intro k
      unfold InRow
      rw [(key _).1, (key _).2, ← hw]
      have e : k = ⌊(d - c.btm) / w⌋ ↔ (k : ℝ) * w ≤ d - c.btm ∧ d - c.btm < (k + 1) * w := by
        rw [eq_comm, Int.floor_eq_iff, le_div_iff₀ hw0, div_lt_iff₀ hw0]
      rw [e]
      constructor
      · rintro ⟨-, -, h3, h4⟩
        exact ⟨by linarith, by linarith⟩
      · rintro ⟨h3, h4⟩
        refine ⟨?_, ?_, by linarith, by linarith⟩
        · have : (0 : ℝ) < (k + 1) * w := by linarith
          have : (0 : ℝ) < k + 1 := pos_of_mul_pos_left this hw0.le
          have : 0 < k + 1 := by exact_mod_cast this
          omega
        · have : (k : ℝ) * w < c.rows * w := by linarith
          have := lt_of_mul_lt_mul_right this hw0.le
          exact_mod_cast this
    exact ⟨_, (row _).2 rfl, fun k hk => (row k).1 hk⟩
  · intro φ h1 h2
    obtain ⟨w, hw⟩ : ∃ w, w = 2 * Real.pi / c.cols := ⟨_, rfl⟩
    have hw0 : 0 < w := by rw [hw]; positivity
    have hwc : c.cols * w = 2 * Real.pi := by rw [hw]; field_simp
    unfold InCol
    rw [← hw]
    obtain ⟨k, hk⟩ : ∃ k : Int, k = ⌊φ / w + 1 / 2⌋ := ⟨_, rfl⟩
    have hk' := hk.symm
    rw [Int.floor_eq_iff] at hk'
    have a1 : ((k : ℝ) - 1 / 2) * w ≤ φ := by
      have : (k : ℝ) - 1 / 2 ≤ φ / w := by linarith [hk'.1]
      exact (le_div_iff₀ hw0).1 this
    have a2 : φ < ((k : ℝ) + 1 / 2) * w := by
      have : φ / w < (k : ℝ) + 1 / 2 := by linarith [hk'.2]
      exact (div_lt_iff₀ hw0).1 this
    have k0 : 0 ≤ k := by rw [hk]; exact Int.floor_nonneg.2 (by positivity)
    by_cases hkc : k < c.cols
    · exact ⟨k, k0, hkc, Or.inl ⟨a1, a2⟩⟩
    · refine ⟨0, le_rfl, hc, Or.inr ⟨rfl, le_trans ?_ a1⟩⟩
      have : (c.cols : ℝ) ≤ k := by exact_mod_cast (not_lt.1 hkc)
      exact mul_le_mul_of_nonneg_right (by linarith) hw0.le

/-- The default settings (filter_range_image.cc:29-37). -/
noncomputable def defaultImage : ImageCfg := ⟨30, -15, 0, 0, 0, 40, 1800⟩

theorem defaultImage_fit : Real.pi / 2 + |defaultImage.btm| / 180 * Real.pi ≤ 2147483647 * defaultImage.vRes := by
  have := Real.pi_pos
  simp only [defaultImage, ImageCfg.vRes]
  rw [abs_of_nonpos (by norm_num)]
  push_cast
  nlinarith

/-- C107 is false at the lower edge: with the default settings (field from -15 degrees up) a point at -15.5 degrees
is kept, in row 0. -/
theorem C107_view_fails : ∃ (p : InnerPoint ℝ) (ε : ℝ), SeenAt (fromSensor defaultImage p) 10 ε 0 ∧ ε < -15 / 180 * Real.pi ∧
    imagePixel defaultImage p = .ok (some (0, 0)) ∧
    (imageKeep (1 / 100) (1 / 1000000) (imageGeom defaultImage) 40 1800 ImageState.blank 0 p).1 = true := by
  have hpi := Real.pi_pos
  have hε : -(Real.pi / 2) < -(31 / 2) / 180 * Real.pi ∧ -(31 / 2) / 180 * Real.pi < Real.pi / 2 := ⟨by linarith, by linarith⟩
  have hseen : SeenAt (fromSensor defaultImage ⟨10 * Real.cos (-(31 / 2) / 180 * Real.pi), 0, 10 * Real.sin (-(31 / 2) / 180 * Real.pi), 0, 0⟩)
      10 (-(31 / 2) / 180 * Real.pi) 0 :=
    ⟨by norm_num, hε, ⟨le_rfl, by linarith⟩, by simp [fromSensor, defaultImage], by simp [fromSensor, defaultImage],
      by simp [fromSensor, defaultImage]⟩
  refine ⟨_, _, hseen, by linarith, ?_⟩
  obtain ⟨o, ho, hpix⟩ := C107_pixel defaultImage (by decide) (by decide) (by norm_num [defaultImage]) defaultImage_fit _ _ _ _ hseen
  have hcos : 1 / 2 ≤ Real.cos (-(31 / 2) / 180 * Real.pi) := by
    rw [← Real.cos_pi_div_three, ← Real.cos_abs (-(31 / 2) / 180 * Real.pi)]
    refine Real.cos_le_cos_of_nonneg_of_le_pi (abs_nonneg _) (by linarith) ?_
    rw [abs_le]
    constructor <;> linarith
  have hsome : o = some (0, 0) := by
    refine (hpix 0 0).2 ⟨by linarith, Or.inr ⟨rfl, ?_, ?_⟩, le_rfl, by decide, Or.inl ⟨?_, ?_⟩⟩
    · simp only [defaultImage]; push_cast; nlinarith
    · simp only [defaultImage]; linarith
    · simp only [defaultImage]; push_cast; nlinarith
    · simp only [defaultImage]; push_cast; positivity
  subst hsome
  refine ⟨ho, ?_⟩
  have := imageKeep_pixel defaultImage _ (1 / 1000000) ImageState.blank 0 _ ho
  have hrows : defaultImage.rows = 40 ∧ defaultImage.cols = 1800 := ⟨rfl, rfl⟩
  rw [hrows.1, hrows.2] at this
  rw [this]
  dsimp only
  rw [if_pos (by simp [ImageState.blank])]

/-- A point straight ahead on the level of the sensor lies in row 13 (of 40) and column 0. -/
example : ∃ p : InnerPoint ℝ, SeenAt (fromSensor defaultImage p) 10 0 0 ∧ InRow defaultImage 0 13 ∧ InCol defaultImage 0 0 ∧
    imagePixel defaultImage p = .ok (some (13, 0)) := by
  have hpi := Real.pi_pos
  have hseen : SeenAt (fromSensor defaultImage ⟨10, 0, 0, 0, 0⟩) 10 0 0 :=
    ⟨by norm_num, ⟨by linarith, by linarith⟩, ⟨le_rfl, by linarith⟩, by simp [fromSensor, defaultImage],
      by simp [fromSensor, defaultImage], by simp [fromSensor, defaultImage]⟩
  have hrow : InRow defaultImage 0 13 := by
    refine ⟨by decide, by decide, ?_, ?_⟩
    · simp only [defaultImage]; push_cast; nlinarith
    · simp only [defaultImage]; push_cast; nlinarith
  have hcol : InCol defaultImage 0 0 := by
    refine ⟨le_rfl, by decide, Or.inl ⟨?_, ?_⟩⟩
    · simp only [defaultImage]; push_cast; nlinarith
    · simp only [defaultImage]; push_cast; positivity
  obtain ⟨o, ho, hpix⟩ := C107_pixel defaultImage (by decide) (by decide) (by norm_num [defaultImage]) defaultImage_fit _ _ _ _ hseen
  have := (hpix 13 0).2 ⟨by rw [Real.cos_zero]; norm_num, Or.inl hrow, hcol⟩
  exact ⟨_, hseen, hrow, hcol, by rw [ho, this]⟩

/-- C107: settings with the two angles equal are accepted, and then every point off the axis makes the row undefined. -/
theorem C107_flat_fails (c : ImageCfg) (h : c.top = c.btm) (p : InnerPoint ℝ) (hp : 1 / 100 ≤ flatDist (fromSensor c p)) :
    (∀ t, rangeImageConfig.valid t = true) ∧ imagePixel c p = .ub := by
  rw [show fromSensor c p = c.shift p from rfl] at hp
  refine ⟨fun _ => rfl, ?_⟩
  unfold imagePixel imageRow
  dsimp only
  rw [if_neg (not_lt.2 hp), if_pos (by unfold ImageCfg.vRes; rw [h]; simp)]
  rfl

/-! The angle test -/

theorem angle_at_far {V : Type} [NormedAddCommGroup V] [InnerProductSpace ℝ V] (A B : V) (α : ℝ) (hα : 0 < α ∧ α < Real.pi)
    (hA : A ≠ 0) (hB : B ≠ 0) (h : InnerProductGeometry.angle A B = α) :
    InnerProductGeometry.angle (0 - A) (B - A) = atan2 (‖B‖ * Real.sin α) (‖A‖ - ‖B‖ * Real.cos α) := by
  have hB' : 0 < ‖B‖ := norm_pos_iff.2 hB
  have hA' : 0 < ‖A‖ := norm_pos_iff.2 hA
  have hs : 0 < Real.sin α := Real.sin_pos_of_pos_of_lt_pi hα.1 hα.2
  have hinner : (inner ℝ A B : ℝ) = ‖A‖ * ‖B‖ * Real.cos α := by
    rw [← h, ← InnerProductGeometry.cos_angle_mul_norm_mul_norm]
    ring
  unfold atan2
  rw [Complex.arg_of_im_nonneg_of_ne_zero (by simpa using (mul_pos hB' hs).le) (by
    intro hz
    have := congrArg Complex.im hz
    simp only [Complex.zero_im] at this
    exact (mul_pos hB' hs).ne' this)]
  unfold InnerProductGeometry.angle
  congr 1
  have hn2 : ‖B - A‖ ^ 2 = (‖A‖ - ‖B‖ * Real.cos α) ^ 2 + (‖B‖ * Real.sin α) ^ 2 := by
    rw [@norm_sub_sq_real, real_inner_comm, hinner]
    have := Real.sin_sq_add_cos_sq α
    linear_combination (-‖B‖ ^ 2) * this
  have hnorm : ‖(⟨‖A‖ - ‖B‖ * Real.cos α, ‖B‖ * Real.sin α⟩ : ℂ)‖ = ‖B - A‖ := by
    rw [Complex.norm_def, Complex.normSq_mk]
    rw [show (‖A‖ - ‖B‖ * Real.cos α) * (‖A‖ - ‖B‖ * Real.cos α) + ‖B‖ * Real.sin α * (‖B‖ * Real.sin α) = ‖B - A‖ ^ 2 by
      rw [hn2]; ring]
    exact Real.sqrt_sq (norm_nonneg _)
  rw [hnorm]
  have hin : (inner ℝ (0 - A) (B - A) : ℝ) = ‖A‖ * (‖A‖ - ‖B‖ * Real.cos α) := by
    rw [zero_sub, inner_neg_left, inner_sub_right, hinner, real_inner_self_eq_norm_sq]
    ring
  rw [hin, zero_sub, norm_neg, mul_div_mul_left _ _ hA'.ne']

/-- C107: two pixels next to each other are joined exactly if the line through the two points meets the beam of the
further one at more than ten degrees: the beams `A` and `B` have the angle of the step between them. -/
theorem C107_angle_partial (c : ImageCfg) (horizontal : Bool) (A B : EuclideanSpace ℝ (Fin 3)) (hA : A ≠ 0) (hB : B ≠ 0)
    (hα : let α := if horizontal then c.hRes else c.vRes
      0 < α ∧ α < Real.pi ∧ InnerProductGeometry.angle A B = α) :
    (imageDepth c).sep horizontal ‖A‖ ‖B‖ = true ↔
      10 / 180 * Real.pi < EuclideanGeometry.angle 0 A B := by
  dsimp only at hα
  have := angle_at_far A B _ ⟨hα.1, hα.2.1⟩ hA hB hα.2.2
  unfold EuclideanGeometry.angle
  simp only [vsub_eq_sub]
  rw [this]
  simp [imageDepth]

/-- Two beams with the angle of one column of the default settings. -/
example : ∃ A B : EuclideanSpace ℝ (Fin 3), A ≠ 0 ∧ B ≠ 0 ∧ 0 < defaultImage.hRes ∧ defaultImage.hRes < Real.pi ∧
    InnerProductGeometry.angle A B = defaultImage.hRes := by
  have hpi := Real.pi_pos
  have hh : defaultImage.hRes = Real.pi / 900 := by
    simp only [ImageCfg.hRes, defaultImage]
    push_cast
    ring
  have h1 : ‖(WithLp.toLp 2 ![1, 0, 0] : EuclideanSpace ℝ (Fin 3))‖ = 1 := by
    rw [EuclideanSpace.norm_eq]
    simp [Fin.sum_univ_three]
  have h2 : ‖(WithLp.toLp 2 ![Real.cos (Real.pi / 900), Real.sin (Real.pi / 900), 0] : EuclideanSpace ℝ (Fin 3))‖ = 1 := by
    rw [EuclideanSpace.norm_eq]
    simp [Fin.sum_univ_three]
  refine ⟨_, _, by rw [← norm_pos_iff, h1]; norm_num, by rw [← norm_pos_iff, h2]; norm_num, by rw [hh]; positivity, by rw [hh]; linarith, ?_⟩
  unfold InnerProductGeometry.angle
  rw [h1, h2, hh]
  have : (inner ℝ (WithLp.toLp 2 ![1, 0, 0] : EuclideanSpace ℝ (Fin 3))
      (WithLp.toLp 2 ![Real.cos (Real.pi / 900), Real.sin (Real.pi / 900), 0] : EuclideanSpace ℝ (Fin 3)) : ℝ) = Real.cos (Real.pi / 900) := by
    simp [PiLp.inner_apply, Fin.sum_univ_three]
  rw [this, mul_one, div_one]
  exact Real.arccos_cos (by positivity) (by linarith)

/-- C107 is false of the steps over two columns: the angle of one column is used.  With 36 columns, two points whose
beams are two columns apart are not joined although their line meets the further beam at more than ten degrees. -/
theorem C107_two_columns_fails : ∃ (c : ImageCfg) (A B : EuclideanSpace ℝ (Fin 3)), 0 < c.cols ∧ A ≠ 0 ∧ B ≠ 0 ∧ ‖B‖ ≤ ‖A‖ ∧
    InnerProductGeometry.angle A B = 2 * c.hRes ∧ 10 / 180 * Real.pi < EuclideanGeometry.angle 0 A B ∧
    (0, 2) ∈ neighbourSteps ∧ (imageDepth c).sep true ‖A‖ ‖B‖ = false := by
  have hpi := Real.pi_pos
  obtain ⟨a, ha⟩ : ∃ a, a = Real.pi / 18 := ⟨_, rfl⟩
  have hcos : 1 / 2 < Real.cos a := by
    rw [← Real.cos_pi_div_three]
    exact Real.cos_lt_cos_of_nonneg_of_le_pi (by rw [ha]; positivity) (by linarith) (by rw [ha]; linarith)
  have hsin : 0 < Real.sin a := Real.sin_pos_of_pos_of_lt_pi (by rw [ha]; positivity) (by rw [ha]; linarith)
  let A : EuclideanSpace ℝ (Fin 3) := WithLp.toLp 2 ![2 * Real.cos a, 0, 0]
  let B : EuclideanSpace ℝ (Fin 3) := WithLp.toLp 2 ![Real.cos (2 * a), Real.sin (2 * a), 0]
  have hA : ‖A‖ = 2 * Real.cos a := by
    rw [EuclideanSpace.norm_eq]
    simp only [A, Fin.sum_univ_three, Real.norm_eq_abs, sq_abs]
    simp
    exact Real.sqrt_sq (by linarith)
  have hB : ‖B‖ = 1 := by
    rw [EuclideanSpace.norm_eq]
    simp only [B, Fin.sum_univ_three, Real.norm_eq_abs, sq_abs]
    simp
  have hA0 : A ≠ 0 := by rw [← norm_pos_iff, hA]; linarith
  have hB0 : B ≠ 0 := by rw [← norm_pos_iff, hB]; norm_num
  have hang : InnerProductGeometry.angle A B = 2 * a := by
    unfold InnerProductGeometry.angle
    rw [hA, hB]
    have : (inner ℝ A B : ℝ) = 2 * Real.cos a * Real.cos (2 * a) := by
      simp [A, B, PiLp.inner_apply, Fin.sum_univ_three]
      ring
    rw [this, mul_one, mul_div_cancel_left₀ _ (by linarith)]
    exact Real.arccos_cos (by rw [ha]; positivity) (by rw [ha]; linarith)
  have hh : (ImageCfg.mk 30 (-15) 0 0 0 40 36).hRes = a := by
    simp only [ImageCfg.hRes, ha]
    push_cast
    ring
  refine ⟨⟨30, -15, 0, 0, 0, 40, 36⟩, A, B, by decide, hA0, hB0, by rw [hA, hB]; linarith, by rw [hang, hh], ?_, by decide, ?_⟩
  · have h1 := angle_at_far A B (2 * a) ⟨by rw [ha]; positivity, by rw [ha]; linarith⟩ hA0 hB0 hang
    unfold EuclideanGeometry.angle
    simp only [vsub_eq_sub]
    have h0 : InnerProductGeometry.angle (0 - A) (B - A) ≤ Real.pi := InnerProductGeometry.angle_le_pi _ _
    have h00 : 0 ≤ InnerProductGeometry.angle (0 - A) (B - A) := InnerProductGeometry.angle_nonneg _ _
    rw [h1, hA, hB, one_mul, one_mul] at *
    obtain ⟨β, hβ⟩ : ∃ β, β = atan2 (Real.sin (2 * a)) (2 * Real.cos a - Real.cos (2 * a)) := ⟨_, rfl⟩
    rw [← hβ] at h0 h00 ⊢
    obtain ⟨z, hz⟩ : ∃ z : ℂ, z = ⟨2 * Real.cos a - Real.cos (2 * a), Real.sin (2 * a)⟩ := ⟨_, rfl⟩
    have hzb : β = Complex.arg z := by rw [hβ, hz]; rfl
    have hs2 : 0 < Real.sin (2 * a) := by rw [Real.sin_two_mul]; have : 0 < Real.cos a := by linarith
                                          positivity
    have hz0 : z ≠ 0 := by
      intro h
      have := congrArg Complex.im h
      rw [hz] at this
      simp only [Complex.zero_im] at this
      exact hs2.ne' this
    have hzn : 0 < ‖z‖ := norm_pos_iff.2 hz0
    have c1 : Real.cos β = (2 * Real.cos a - Real.cos (2 * a)) / ‖z‖ := by rw [hzb, Complex.cos_arg hz0, hz]
    have c2 : Real.sin β = Real.sin (2 * a) / ‖z‖ := by rw [hzb, Complex.sin_arg, hz]
    have hs3 : Real.sin (2 * a) < Real.sin (3 * a) :=
      Real.sin_lt_sin_of_lt_of_le_pi_div_two (by rw [ha]; linarith) (by rw [ha]; linarith) (by rw [ha]; linarith)
    have hpos : 0 < Real.sin (β - a) := by
      rw [Real.sin_sub, c1, c2]
      have e : Real.sin (2 * a) / ‖z‖ * Real.cos a - (2 * Real.cos a - Real.cos (2 * a)) / ‖z‖ * Real.sin a =
          (Real.sin (3 * a) - Real.sin (2 * a)) / ‖z‖ := by
        have e3 : Real.sin (3 * a) = Real.sin (2 * a) * Real.cos a + Real.cos (2 * a) * Real.sin a := by
          rw [← Real.sin_add]; congr 1; ring
        rw [e3]
        nth_rewrite 3 [Real.sin_two_mul]
        ring
      rw [e]
      exact div_pos (by linarith) hzn
    by_contra hc
    have : Real.sin (β - a) ≤ 0 := by
      refine Real.sin_nonpos_of_nonpos_of_neg_pi_le ?_ ?_
      · rw [ha]; linarith [not_lt.1 hc]
      · rw [ha]; linarith
    linarith
  · have : atan2 (Real.sin a) (2 * Real.cos a - Real.cos a) = a := by
      have := atan2_polar (r := 1) (θ := a) one_pos ⟨by rw [ha]; linarith, by rw [ha]; linarith⟩
      rw [one_mul, one_mul] at this
      rw [show 2 * Real.cos a - Real.cos a = Real.cos a by ring]
      exact this
    simp only [imageDepth, hA, hB, one_mul, if_true, hh, this]
    rw [decide_eq_false_iff_not, not_lt, ha]
    linarith

/-! The picture -/

theorem pngRow_spec (max : ℝ) (colorful : Bool) (ms : List ℝ) (os : List (Option Rgb)) (hl : ms.length = os.length) (hmax : 0 < max) :
    ∃ r, pngRow max colorful ms os = .ok r ∧ r.length = ms.length ∧
      ∀ x (hx : x < ms.length), pngPixel max colorful ms[x] (os[x]'(by omega)) = .ok (r.getD x none) := by
  induction ms generalizing os with
  | nil => exact ⟨[], by cases os <;> rfl, rfl, fun x hx => by simp at hx⟩
  | cons m ms ih =>
    cases os with
    | nil => simp at hl
    | cons o os =>
      obtain ⟨r, h1, h2, h3⟩ := ih os (by simpa using hl)
      have hp : ∃ v, pngPixel max colorful m o = .ok v := by
        unfold pngPixel
        split
        · exact ⟨_, rfl⟩
        · rw [if_neg hmax.ne']
          dsimp only
          split <;> exact ⟨_, rfl⟩
      obtain ⟨v, hv⟩ := hp
      refine ⟨v :: r, ?_, by simp [h2], ?_⟩
      · rw [pngRow, hv, h1]; rfl
      · intro x hx
        cases x with
        | zero => simpa using hv
        | succ x => simpa using h3 x (by simpa using hx)

theorem pngRows_spec (max : ℝ) (colorful : Bool) (w : Nat) (image : List (List ℝ)) (hw : ∀ ms ∈ image, ms.length = w) (hmax : 0 < max)
    (buf : List (Option Rgb)) (hb : buf.length = w) :
    ∃ pic, pngRows max colorful image buf = .ok pic ∧ pic.length = image.length ∧
      ∀ y x (hy : y < image.length) (hx : x < w),
        pngPixel max colorful (image[y][x]'(by rw [hw _ (List.getElem_mem hy)]; exact hx))
          (if y = 0 then buf.getD x none else (pic.getD (y - 1) []).getD x none) = .ok ((pic.getD y []).getD x none) := by
  induction image generalizing buf with
  | nil => exact ⟨[], rfl, rfl, fun y x hy => by simp at hy⟩
  | cons ms rest ih =>
    obtain ⟨r, h1, h2, h3⟩ := pngRow_spec max colorful ms buf (by rw [hb]; exact hw ms List.mem_cons_self) hmax
    have hms : ms.length = w := hw ms List.mem_cons_self
    obtain ⟨rs, g1, g2, g3⟩ := ih (fun m hm => hw m (List.mem_cons_of_mem _ hm)) r (by omega)
    refine ⟨r :: rs, by rw [pngRows, h1, Outcome.bind_ok, g1]; rfl, by simp [g2], ?_⟩
    intro y x hy hx
    cases y with
    | zero =>
      have := h3 x (by omega)
      simp only [List.getElem_cons_zero, if_true, List.getD_cons_zero]
      rw [List.getD_eq_getElem?_getD, List.getElem?_eq_getElem (by omega), Option.getD_some]
      exact this
    | succ y =>
      have := g3 y x (by simpa using hy) hx
      simp only [List.getElem_cons_succ, List.getD_cons_succ, Nat.add_sub_cancel]
      rw [if_neg (by omega)]
      cases y with
      | zero => simpa using this
      | succ y => simpa using this

theorem pngPixel_grey {max m : ℝ} (hmax : 0 < max) (h0 : 0 ≤ m) (hm : m ≤ max) (colorful : Bool) (old : Option Rgb) :
    ∃ p, pngPixel max colorful m old = .ok (some p) ∧
      (colorful = true ∧ m < 1 / 1000000 → p = ⟨0, 255, 0⟩) ∧
      (¬ (colorful = true ∧ m < 1 / 1000000) → ∃ v ≤ 255, Grey max m v ∧ p = ⟨v, v, v⟩) := by
  unfold pngPixel
  rw [if_neg (not_lt.2 hm), if_neg hmax.ne']
  dsimp only
  by_cases hc : colorful = true ∧ m < 1 / 1000000
  · rw [if_pos hc]
    exact ⟨_, rfl, fun _ => rfl, fun h => absurd hc h⟩
  · rw [if_neg hc]
    refine ⟨_, rfl, fun h => absurd h hc, fun _ => ⟨_, ?_, ?_, rfl⟩⟩
    all_goals
      have hv : 0 ≤ m / max * 255 := by positivity
      have hv1 : m / max * 255 ≤ 255 := by
        have : m / max ≤ 1 := (div_le_one hmax).2 hm
        linarith
      have ht : realTrunc (m / max * 255) = ⌊m / max * 255⌋ := by unfold realTrunc; rw [if_pos hv]
      have hf : 0 ≤ ⌊m / max * 255⌋ := Int.floor_nonneg.2 hv
      rw [ht]
    · have : ⌊m / max * 255⌋ ≤ 255 := by
        have h1 : (⌊m / max * 255⌋ : ℝ) ≤ 255 := le_trans (Int.floor_le _) hv1
        exact_mod_cast h1
      omega
    · have hc : ((⌊m / max * 255⌋.toNat : ℕ) : ℝ) = (⌊m / max * 255⌋ : ℝ) := by
        have : ((⌊m / max * 255⌋.toNat : ℕ) : ℤ) = ⌊m / max * 255⌋ := Int.toNat_of_nonneg hf
        exact_mod_cast this
      exact ⟨by rw [hc]; exact Int.floor_le _, by rw [hc]; exact Int.lt_floor_add_one _⟩

/-- C107: with a positive limit the picture has the size of the image; a pixel within the limit shows its range as a
grey (with colours: green where the image is empty); a pixel beyond the limit shows whatever the row above shows, and
in the top row what happens to be in the memory. -/
theorem C107_picture_partial (max : ℝ) (colorful : Bool) (w : Nat) (image : List (List ℝ)) (hw : ∀ ms ∈ image, ms.length = w)
    (h0 : ∀ ms ∈ image, ∀ m ∈ ms, 0 ≤ m) (hmax : 0 < max) (hne : image ≠ []) (hw0 : 0 < w) :
    ∃ pic, toPng max colorful w image = .ok pic ∧ pic.length = image.length ∧
      ∀ y x (hy : y < image.length) (hx : x < (image[y]).length),
        (image[y][x] ≤ max → ∃ p, (pic.getD y []).getD x none = some p ∧
          (colorful = true ∧ image[y][x] < 1 / 1000000 → p = ⟨0, 255, 0⟩) ∧
          (¬ (colorful = true ∧ image[y][x] < 1 / 1000000) → ∃ v ≤ 255, Grey max image[y][x] v ∧ p = ⟨v, v, v⟩)) ∧
        (max < image[y][x] → (pic.getD y []).getD x none = if y = 0 then none else (pic.getD (y - 1) []).getD x none) := by
  obtain ⟨pic, h1, h2, h3⟩ := pngRows_spec max colorful w image hw hmax (List.replicate w none) (by simp)
  refine ⟨pic, ?_, h2, ?_⟩
  · unfold toPng
    rw [Outcome.check_pos ⟨List.length_pos_iff.2 hne, hw0⟩]
    exact h1
  · intro y x hy hx
    have hxw : x < w := by rw [hw _ (List.getElem_mem hy)] at hx; exact hx
    have hp := h3 y x hy hxw
    constructor
    · intro hm
      obtain ⟨p, hp1, hp2, hp3⟩ := pngPixel_grey hmax (h0 _ (List.getElem_mem hy) _ (List.getElem_mem hx)) hm colorful
        (if y = 0 then (List.replicate w none).getD x none else (pic.getD (y - 1) []).getD x none)
      rw [hp1] at hp
      simp only [Outcome.ok.injEq] at hp
      exact ⟨p, hp.symm, hp2, hp3⟩
    · intro hm
      unfold pngPixel at hp
      rw [if_pos hm] at hp
      simp only [Outcome.ok.injEq] at hp
      rw [← hp]
      split
      · simp [List.getD_eq_getElem?_getD, hxw]
      · rfl

/-- C107 is false of pixels beyond the limit: two images that differ only there in the row above give the same far
pixel two different colours; and in the top row it is not set at all. -/
theorem C107_picture_far_fails : ∃ a b, toPng 10 false 1 [[0], [20]] = .ok [[some ⟨0, 0, 0⟩], [some a]] ∧
    toPng 10 false 1 [[10], [20]] = .ok [[some ⟨255, 255, 255⟩], [some b]] ∧ a ≠ b ∧
    toPng 10 false 1 [[20]] = .ok [[none]] := by
  have t0 : realTrunc 0 = 0 := by simp [realTrunc]
  have t1 : realTrunc 255 = 255 := by simp [realTrunc]
  refine ⟨⟨0, 0, 0⟩, ⟨255, 255, 255⟩, ?_, ?_, by decide, ?_⟩
  · simp [toPng, pngRows, pngRow, pngPixel, Outcome.check, t0]
    norm_num
  · simp [toPng, pngRows, pngRow, pngPixel, Outcome.check, t1]
    norm_num
  · simp [toPng, pngRows, pngRow, pngPixel, Outcome.check]
    norm_num

/-- C107: a limit of zero is undefined as soon as one pixel is empty. -/
theorem C107_picture_zero_fails (colorful : Bool) : toPng 0 colorful 1 [[0]] = .ub := by
  simp [toPng, pngRows, pngRow, pngPixel, Outcome.check]

end Verif
