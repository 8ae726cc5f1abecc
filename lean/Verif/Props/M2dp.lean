import Verif.Proofs.M2dp
/-
C49: the place descriptor.
-/
namespace Verif

namespace Spec

/-- A point is in reach: its distance from the origin is at most `d`. -/
def inReach (d : Rat) (p : Vec3 Rat) : Bool :=
  decide (p.x ^ 2 + p.y ^ 2 + p.z ^ 2 ≤ d ^ 2)

/-- The (absolute) coordinate of a point along an axis. -/
def along (axis p : Vec3 Rat) : Rat := |p.x * axis.x + p.y * axis.y + p.z * axis.z|

/-- The point is in ring number `k` of `l`: ring `k` starts at radius `k² r`, the last ring has no
outer border. -/
def inRing (l : Nat) (r : Rat) (ax ay p : Vec3 Rat) (k : Nat) : Bool :=
  decide ((k : Rat) ^ 4 * r ^ 2 ≤ along ax p ^ 2 + along ay p ^ 2) &&
    (decide (k + 1 = l) || decide (along ax p ^ 2 + along ay p ^ 2 < ((k + 1 : Nat) : Rat) ^ 4 * r ^ 2))

/-- The point is in sector number `k` of `t`. -/
def inSector (t : Nat) (ang : Rat → Rat → Nat) (ax ay p : Vec3 Rat) (k : Nat) : Bool :=
  decide (k = ang (along ax p) (along ay p)) ||
    (decide (k + 1 = t) && decide (t ≤ ang (along ax p) (along ay p)))

end Spec

theorem m2dpNear_eq (d : Rat) (hd : 0 < d) (p : Vec3 Rat) :
    m2dpNear d p = Spec.inReach d p := by
  unfold m2dpNear Spec.inReach m2dpSqLength
  rw [decide_eq_true hd.le, Bool.true_and]
  congr 1
  rw [eq_iff_iff]
  constructor <;> intro h <;> nlinarith [h]

theorem m2dpIndex_range (l t : Nat) (hl : 0 < l) (ht : 0 < t) (r : Rat) (ang : Rat → Rat → Nat)
    (ax ay p : Vec3 Rat) :
    0 ≤ m2dpIndex l t r ang ax ay p ∧ m2dpIndex l t r ang ax ay p < ((l * t : Nat) : Int) := by
  unfold m2dpIndex
  dsimp only
  generalize hA : (if (m2dpRing r (m2dpCoord ax p) (m2dpCoord ay p) : Int) > (l : Int) - 1 then
    (l : Int) - 1 else (m2dpRing r (m2dpCoord ax p) (m2dpCoord ay p) : Int)) = a
  generalize hB : (if (ang (m2dpCoord ax p) (m2dpCoord ay p) : Int) > (t : Int) - 1 then
    (t : Int) - 1 else (ang (m2dpCoord ax p) (m2dpCoord ay p) : Int)) = b
  have ha : 0 ≤ a ∧ a ≤ (l : Int) - 1 := by
    subst hA
    split <;> omega
  have hb : 0 ≤ b ∧ b ≤ (t : Int) - 1 := by
    subst hB
    split <;> omega
  push_cast
  constructor
  · have := mul_nonneg ha.1 (Int.natCast_nonneg t)
    omega
  · have : a * t ≤ ((l : Int) - 1) * t := mul_le_mul_of_nonneg_right ha.2 (by omega)
    nlinarith

theorem m2dpIndex_eq_iff (l t : Nat) (hl : 0 < l) (r : Rat) (hr : 0 < r)
    (ang : Rat → Rat → Nat) (ax ay p : Vec3 Rat) (ring sector : Nat) (hring : ring < l)
    (hsec : sector < t) :
    m2dpIndex l t r ang ax ay p = ((ring * t + sector : Nat) : Int) ↔
      (Spec.inRing l r ax ay p ring && Spec.inSector t ang ax ay p sector) = true := by
  have hring' := m2dpRing_spec r (Spec.along ax p) (Spec.along ay p) hr
  have hR : (if (m2dpRing r (Spec.along ax p) (Spec.along ay p) : Int) > (l : Int) - 1 then
      (l : Int) - 1 else (m2dpRing r (Spec.along ax p) (Spec.along ay p) : Int)) = ring ↔
      Spec.inRing l r ax ay p ring = true := by
    unfold Spec.inRing
    rw [Bool.and_eq_true, Bool.or_eq_true, decide_eq_true_iff, decide_eq_true_iff,
      decide_eq_true_iff, ← hring', ← not_le, ← hring']
    split <;> omega
  have hS : (if (ang (Spec.along ax p) (Spec.along ay p) : Int) > (t : Int) - 1 then
      (t : Int) - 1 else (ang (Spec.along ax p) (Spec.along ay p) : Int)) = sector ↔
      Spec.inSector t ang ax ay p sector = true := by
    unfold Spec.inSector
    rw [Bool.or_eq_true, Bool.and_eq_true, decide_eq_true_iff, decide_eq_true_iff,
      decide_eq_true_iff]
    split <;> omega
  rw [Bool.and_eq_true, ← hR, ← hS]
  unfold m2dpIndex
  dsimp only
  show (if (m2dpRing r (Spec.along ax p) (Spec.along ay p) : Int) > (l : Int) - 1 then
      (l : Int) - 1 else (m2dpRing r (Spec.along ax p) (Spec.along ay p) : Int)) * (t : Int) +
    (if (ang (Spec.along ax p) (Spec.along ay p) : Int) > (t : Int) - 1 then
      (t : Int) - 1 else (ang (Spec.along ax p) (Spec.along ay p) : Int)) = _ ↔ _
  generalize hA : (if (m2dpRing r (Spec.along ax p) (Spec.along ay p) : Int) > (l : Int) - 1 then
    (l : Int) - 1 else (m2dpRing r (Spec.along ax p) (Spec.along ay p) : Int)) = a
  generalize hB : (if (ang (Spec.along ax p) (Spec.along ay p) : Int) > (t : Int) - 1 then
    (t : Int) - 1 else (ang (Spec.along ax p) (Spec.along ay p) : Int)) = b
  have hb : 0 ≤ b ∧ b ≤ (t : Int) - 1 := by
    subst hB
    split <;> omega
  push_cast
  constructor
  · intro h
    have h1 : (a * t + b) / (t : Int) = a := by
      rw [add_comm, Int.add_mul_ediv_right _ _ (by omega), Int.ediv_eq_zero_of_lt hb.1 (by omega)]
      omega
    have h2 : ((ring : Int) * t + sector) / (t : Int) = ring := by
      rw [add_comm, Int.add_mul_ediv_right _ _ (by omega),
        Int.ediv_eq_zero_of_lt (by omega) (by omega)]
      omega
    have ha : a = ring := by rw [← h1, h, h2]
    refine ⟨ha, ?_⟩
    rw [ha] at h
    omega
  · rintro ⟨rfl, rfl⟩
    rfl

theorem m2dpView_spec (c : M2dpParams) (hr : 0 < c.r) (ht : 0 < c.t) (ang : Rat → Rat → Nat)
    (ax ay : Vec3 Rat) (st : M2dpState) (l : Nat) (hl : st.l = some l) (hl0 : 0 < l) :
    ∃ row, m2dpView c ang ax ay st = .ok row ∧ row.length = l * c.t ∧ row.sum = st.inner.length ∧
      ∀ ring sector : Nat, ring < l → sector < c.t →
        row.getD (ring * c.t + sector) 0 = st.inner.countP fun p =>
          Spec.inRing l c.r ax ay p ring && Spec.inSector c.t ang ax ay p sector := by
  obtain ⟨row, h1, h2, h3, h4⟩ := m2dpCountAll_spec (m2dpIndex l c.t c.r ang ax ay) st.inner
    (List.replicate (l * c.t) 0) (by
      intro p _
      rw [List.length_replicate]
      exact m2dpIndex_range l c.t hl0 ht c.r ang ax ay p)
  refine ⟨row, ?_, by rw [h2, List.length_replicate], ?_, ?_⟩
  · unfold m2dpView
    rw [hl]
    exact h1
  · rw [h3]
    simp
  · intro ring sector hring hsec
    have hlt : ring * c.t + sector < l * c.t := by nlinarith
    rw [h4 _ (by rw [List.length_replicate]; exact hlt)]
    rw [List.getD_eq_getElem?_getD, List.getElem?_replicate, if_pos hlt, Option.getD_some, zero_add]
    congr 1
    funext p
    have := m2dpIndex_eq_iff l c.t hl0 c.r hr ang ax ay p ring sector hring hsec
    rw [Bool.eq_iff_iff, decide_eq_true_iff]
    exact this

theorem m2dpViews_spec (c : M2dpParams) (ang : Rat → Rat → Nat) (st : M2dpState)
    (R : Vec3 Rat × Vec3 Rat → List Nat → Prop)
    (hview : ∀ a, ∃ row, m2dpView c ang a.1 a.2 st = .ok row ∧ R a row) :
    ∀ l : List (Vec3 Rat × Vec3 Rat), ∃ rows, m2dpViews c ang st l = .ok rows ∧
      List.Forall₂ R l rows := by
  intro l
  induction l with
  | nil => exact ⟨[], rfl, .nil⟩
  | cons a l ih =>
    obtain ⟨row, h1, h2⟩ := hview a
    obtain ⟨rows, h3, h4⟩ := ih
    refine ⟨row :: rows, ?_, .cons h2 h4⟩
    unfold m2dpViews
    rw [h1]
    simp only [Outcome.bind_ok]
    rw [h3]
    rfl

/-- C49, histograms (from any state).  With valid parameters, `setInputCloud` of a non-empty cloud
succeeds and makes one row per view `(i, j)`, in that order; each row has one bin per ring and
sector, its bins add up to the number of points (in reach), and each bin counts exactly the points
in its ring and sector. -/
theorem C49_histograms_from (c : M2dpParams) (hr : 1 / 1000000 ≤ c.r) (hd : 0 < c.maxDistance)
    (ht : 0 < c.t) (pca : List (Vec3 Rat) → List (Vec3 Rat))
    (axes : Nat → Nat → Vec3 Rat × Vec3 Rat) (ang : Rat → Rat → Nat)
    (svd : List (List Nat) → List Rat × List Rat) (st : M2dpState)
    (cloud : List (Vec3 Rat)) (hc : cloud ≠ []) :
    ∃ (st' : M2dpState) (l : Nat) (rows : List (List Nat)) (d : List Rat),
      m2dpSetInput c pca axes ang svd st cloud = .ok (st', some (rows, d)) ∧
      0 < l ∧ st'.inner = st.inner ++ (pca cloud).filter (Spec.inReach c.maxDistance) ∧
      List.Forall₂ (fun a row =>
        row.length = l * c.t ∧ row.sum = st'.inner.length ∧
        ∀ ring sector : Nat, ring < l → sector < c.t →
          row.getD (ring * c.t + sector) 0 = st'.inner.countP fun p =>
            Spec.inRing l c.r a.1 a.2 p ring && Spec.inSector c.t ang a.1 a.2 p sector)
        ((List.range c.p).flatMap fun i => (List.range c.q).map fun j => axes i j) rows := by
  have hr0 : 0 < c.r := lt_of_lt_of_le (by norm_num) hr
  have hx : 0 < c.maxDistance / c.r := div_pos hd hr0
  have hl0 : 0 < ceilSqrt (c.maxDistance / c.r) := by
    by_contra h
    have h0 : ceilSqrt (c.maxDistance / c.r) = 0 := by omega
    have := (ceilSqrt_spec _ hx.le).1
    rw [h0] at this
    simp only [Nat.cast_zero, mul_zero] at this
    linarith
  have hnear : m2dpNear c.maxDistance = Spec.inReach c.maxDistance := by
    funext p
    exact m2dpNear_eq _ hd p
  let st' : M2dpState := ⟨st.inner ++ (pca cloud).filter (Spec.inReach c.maxDistance),
    some (ceilSqrt (c.maxDistance / c.r))⟩
  have hpre : m2dpPreProcess c st (pca cloud) = .ok st' := by
    unfold m2dpPreProcess
    rw [if_neg (not_lt.mpr hr), if_neg (not_lt.mpr hd.le), hnear]
  obtain ⟨rows, h1, h2⟩ := m2dpViews_spec c ang st' _
    (fun a => m2dpView_spec c hr0 ht ang a.1 a.2 st' _ rfl hl0) (m2dpAxes c axes)
  refine ⟨st', ceilSqrt (c.maxDistance / c.r), rows, (svd rows).1 ++ (svd rows).2, ?_, hl0, rfl, h2⟩
  unfold m2dpSetInput
  rw [if_neg (by simpa using hc), hpre]
  simp only [Outcome.bind_ok]
  rw [h1]
  rfl

/-- C49, histograms.  A new descriptor object counts every point of the (projected) cloud within
reach exactly once in each view: in the bin of its ring and sector. -/
theorem C49_histograms_partial (c : M2dpParams) (hr : 1 / 1000000 ≤ c.r) (hd : 0 < c.maxDistance)
    (ht : 0 < c.t) (pca : List (Vec3 Rat) → List (Vec3 Rat))
    (axes : Nat → Nat → Vec3 Rat × Vec3 Rat) (ang : Rat → Rat → Nat)
    (svd : List (List Nat) → List Rat × List Rat) (cloud : List (Vec3 Rat)) (hc : cloud ≠ []) :
    ∃ (st' : M2dpState) (l : Nat) (rows : List (List Nat)) (d : List Rat),
      m2dpSetInput c pca axes ang svd .fresh cloud = .ok (st', some (rows, d)) ∧ 0 < l ∧
      List.Forall₂ (fun a row =>
        row.length = l * c.t ∧
        row.sum = (pca cloud).countP (Spec.inReach c.maxDistance) ∧
        ∀ ring sector : Nat, ring < l → sector < c.t →
          row.getD (ring * c.t + sector) 0 = (pca cloud).countP fun p =>
            Spec.inReach c.maxDistance p &&
              (Spec.inRing l c.r a.1 a.2 p ring && Spec.inSector c.t ang a.1 a.2 p sector))
        ((List.range c.p).flatMap fun i => (List.range c.q).map fun j => axes i j) rows := by
  obtain ⟨st', l, rows, d, h1, h2, h3, h4⟩ :=
    C49_histograms_from c hr hd ht pca axes ang svd .fresh cloud hc
  refine ⟨st', l, rows, d, h1, h2, ?_⟩
  refine h4.imp ?_
  rintro a row ⟨g1, g2, g3⟩
  have h3' : st'.inner = (pca cloud).filter (Spec.inReach c.maxDistance) := by
    rw [h3]
    rfl
  refine ⟨g1, ?_, ?_⟩
  · rw [g2, h3', List.countP_eq_length_filter]
  · intro ring sector hr hs
    rw [g3 ring sector hr hs, h3', List.countP_filter]
    congr 1
    funext p
    exact Bool.and_comm _ _

/-- The hypotheses are those of the default object: `r = 0.1`, `max_distance = 100`, 16 sectors. -/
example : (1 : Rat) / 1000000 ≤ 1 / 10 ∧ (0 : Rat) < 100 ∧ 0 < 16 := by norm_num

/-- C49, histograms, is false for an object used twice: the second descriptor also counts the
points of the first cloud. -/
theorem C49_second_cloud_fails : ¬ (∀ (c : M2dpParams), 1 / 1000000 ≤ c.r → 0 < c.maxDistance →
    0 < c.t → ∀ (pca : List (Vec3 Rat) → List (Vec3 Rat)) (axes : Nat → Nat → Vec3 Rat × Vec3 Rat)
      (ang : Rat → Rat → Nat) (svd : List (List Nat) → List Rat × List Rat)
      (st st1 : M2dpState) (a b : List (Vec3 Rat)) (o : Option (List (List Nat) × List Rat)),
      m2dpSetInput c pca axes ang svd .fresh a = .ok (st1, o) →
      ∀ rows d, m2dpSetInput c pca axes ang svd st1 b = .ok (st, some (rows, d)) →
        ∀ row ∈ rows, row.sum = (pca b).countP (Spec.inReach c.maxDistance)) := by
  intro h
  let c : M2dpParams := ⟨1, 1, 1, 1, 1⟩
  let axes : Nat → Nat → Vec3 Rat × Vec3 Rat := fun _ _ => (⟨1, 0, 0⟩, ⟨0, 1, 0⟩)
  let svd : List (List Nat) → List Rat × List Rat := fun _ => ([], [])
  obtain ⟨st1, l1, rows1, d1, h1, _, h3, _⟩ := C49_histograms_from c (by norm_num) (by norm_num)
    (by norm_num) id axes (fun _ _ => 0) svd .fresh [⟨0, 0, 0⟩] (by simp)
  obtain ⟨st, l2, rows2, d2, g1, _, g3, g4⟩ := C49_histograms_from c (by norm_num) (by norm_num)
    (by norm_num) id axes (fun _ _ => 0) svd st1 [⟨0, 0, 0⟩] (by simp)
  have hx := h c (by norm_num) (by norm_num) (by norm_num) id axes (fun _ _ => 0) svd st st1 _ _ _
    h1 rows2 d2 g1
  have hone : Spec.inReach 1 ⟨0, 0, 0⟩ = true := by
    unfold Spec.inReach
    rw [decide_eq_true_iff]
    norm_num
  have hf : ([⟨0, 0, 0⟩] : List (Vec3 Rat)).filter (Spec.inReach c.maxDistance) = [⟨0, 0, 0⟩] := by
    show List.filter (Spec.inReach 1) _ = _
    rw [List.filter_cons, if_pos hone]
    rfl
  have hl1 : st1.inner = [⟨0, 0, 0⟩] := by
    rw [h3]
    simp only [id_eq]
    rw [hf]
    rfl
  have hl2 : st.inner = [⟨0, 0, 0⟩, ⟨0, 0, 0⟩] := by
    rw [g3, hl1]
    simp only [id_eq]
    rw [hf]
    rfl
  cases rows2 with
  | nil => cases g4
  | cons row rest =>
    have g4' : List.Forall₂ _ [axes 0 0] (row :: rest) := g4
    rw [List.forall₂_cons] at g4'
    have e := hx row (by simp)
    rw [g4'.1.2.1, hl2] at e
    simp only [id_eq] at e
    rw [List.countP_eq_length_filter, hf] at e
    cases e

/-- For `r` below one millionth the number of rings is never set: undefined behaviour. -/
theorem C49_small_r (c : M2dpParams) (hr : c.r < 1 / 1000000) (hp : 0 < c.p) (hq : 0 < c.q)
    (pca : List (Vec3 Rat) → List (Vec3 Rat)) (axes : Nat → Nat → Vec3 Rat × Vec3 Rat)
    (ang : Rat → Rat → Nat) (svd : List (List Nat) → List Rat × List Rat)
    (cloud : List (Vec3 Rat)) (hc : cloud ≠ []) :
    m2dpSetInput c pca axes ang svd .fresh cloud = .ub := by
  unfold m2dpSetInput m2dpPreProcess
  rw [if_neg (by simpa using hc), if_pos hr]
  simp only [Outcome.bind_ok]
  have : m2dpAxes c axes ≠ [] := by
    unfold m2dpAxes
    obtain ⟨n, hn⟩ : ∃ n, c.p = n + 1 := ⟨c.p - 1, by omega⟩
    obtain ⟨k, hk⟩ : ∃ k, c.q = k + 1 := ⟨c.q - 1, by omega⟩
    rw [hn, hk, List.range_succ_eq_map, List.range_succ_eq_map]
    simp
  obtain ⟨a, l, hl⟩ := List.exists_cons_of_ne_nil this
  rw [hl]
  rfl

/-! ### The axes of a view -/

/-- A negative distance: a number of rings is computed from the square root of a negative number, which is
undefined.  An empty cloud leaves everything as it was. -/
theorem C49_negative (c : M2dpParams) (pca : List (Vec3 Rat) → List (Vec3 Rat))
    (axes : Nat → Nat → Vec3 Rat × Vec3 Rat) (ang : Rat → Rat → Nat)
    (svd : List (List Nat) → List Rat × List Rat) (st : M2dpState) (cloud : List (Vec3 Rat)) :
    (cloud ≠ [] → 1 / 1000000 ≤ c.r → c.maxDistance < 0 → m2dpSetInput c pca axes ang svd st cloud = .ub) ∧
    (cloud = [] → m2dpSetInput c pca axes ang svd st cloud = .ok (st, none)) := by
  constructor
  · intro hc hr hd
    unfold m2dpSetInput m2dpPreProcess
    rw [if_neg (by simpa using hc), if_neg (not_lt.2 hr), if_pos hd]
    rfl
  · rintro rfl
    rfl

/-- C49, planes, the part that holds: for a direction that does not point backwards both axes are
perpendicular to it and to each other. -/
theorem C49_plane_partial (m : Vec3 Rat) (hm : m.x ^ 2 + m.y ^ 2 + m.z ^ 2 = 1) (hx : 0 ≤ m.x) :
    (m2dpAxisX m).x * m.x + (m2dpAxisX m).y * m.y + (m2dpAxisX m).z * m.z = 0 ∧
    (m2dpAxisY m).x * m.x + (m2dpAxisY m).y * m.y + (m2dpAxisY m).z * m.z = 0 ∧
    (m2dpAxisX m).x * (m2dpAxisY m).x + (m2dpAxisX m).y * (m2dpAxisY m).y +
      (m2dpAxisX m).z * (m2dpAxisY m).z = 0 := by
  unfold m2dpAxisY m2dpAxisX
  dsimp only
  rw [abs_of_nonneg hx]
  refine ⟨?_, by ring, by ring⟩
  have : (1 - m.x * m.x) * m.x + (0 - m.x * m.y) * m.y + (0 - m.x * m.z) * m.z =
      m.x * (1 - (m.x ^ 2 + m.y ^ 2 + m.z ^ 2)) := by ring
  rw [this, hm]
  ring

/-- C49, planes, is false for every direction that points backwards (half of the views): the
first axis is never perpendicular to it. -/
theorem C49_plane_fails (m : Vec3 Rat) (hm : m.x ^ 2 + m.y ^ 2 + m.z ^ 2 = 1) (hx : m.x < 0) :
    (m2dpAxisX m).x * m.x + (m2dpAxisX m).y * m.y + (m2dpAxisX m).z * m.z ≠ 0 := by
  unfold m2dpAxisX
  dsimp only
  rw [abs_of_neg hx]
  have : (1 - -m.x * m.x) * m.x + (0 - -m.x * m.y) * m.y + (0 - -m.x * m.z) * m.z =
      m.x * (1 + (m.x ^ 2 + m.y ^ 2 + m.z ^ 2)) := by ring
  rw [this, hm]
  intro h
  linarith

example : ((-3 / 5 : Rat)) ^ 2 + (4 / 5) ^ 2 + 0 ^ 2 = 1 ∧ (-3 / 5 : Rat) < 0 := by norm_num

/-! ### The score -/

/-- C49, score: symmetric. -/
theorem C49_symmetric (P Q : List Rat) : m2dpMatch P Q = m2dpMatch Q P := by
  unfold m2dpMatch
  by_cases h : P.length = Q.length
  · rw [h]
    dsimp only
    rw [ratDot_comm P Q, mul_comm P.sum Q.sum,
      mul_comm ((Q.length : Rat) * ratDot P P - P.sum ^ 2)]
  · rw [if_pos (Or.inl h), if_pos (Or.inl (Ne.symm h))]

theorem m2dpMatch_eq (P Q : List Rat) (h : P.length = Q.length) (h10 : 10 ≤ P.length)
    (hp : ¬ ∃ c, P = List.replicate P.length c) (hq : ¬ ∃ c, Q = List.replicate Q.length c) :
    0 < ratVar P ∧ 0 < ratVar Q ∧
    m2dpMatch P Q = .score |(ratCov P Q : ℝ) / Real.sqrt ((ratVar P * ratVar Q : Rat) : ℝ)| := by
  have hN : 0 < P.length := by omega
  have hN' : 0 < Q.length := by omega
  have h1 : 0 < ratVar P := lt_of_le_of_ne (ratVar_nonneg hN)
    (fun e => hp ((ratVar_eq_zero_iff hN).mp e.symm))
  have h2 : 0 < ratVar Q := lt_of_le_of_ne (ratVar_nonneg hN')
    (fun e => hq ((ratVar_eq_zero_iff hN').mp e.symm))
  refine ⟨h1, h2, ?_⟩
  unfold m2dpMatch
  rw [if_neg (by push Not; exact ⟨h, h10⟩)]
  dsimp only
  have e : ((P.length : Rat) * ratDot P P - P.sum ^ 2) *
      ((P.length : Rat) * ratDot Q Q - Q.sum ^ 2) = ratVar P * ratVar Q := by
    unfold ratVar
    rw [h]
  rw [e, if_neg (mul_pos h1 h2).ne']
  rfl

/-- C49, score: between 0 and 1 for two descriptors of the same length (at least 10), neither of
them constant. -/
theorem C49_range (P Q : List Rat) (h : P.length = Q.length) (h10 : 10 ≤ P.length)
    (hp : ¬ ∃ c, P = List.replicate P.length c) (hq : ¬ ∃ c, Q = List.replicate Q.length c) :
    ∃ v : ℝ, m2dpMatch P Q = .score v ∧ 0 ≤ v ∧ v ≤ 1 := by
  obtain ⟨h1, h2, h3⟩ := m2dpMatch_eq P Q h h10 hp hq
  refine ⟨_, h3, abs_nonneg _, ?_⟩
  have hcs : (ratCov P Q : ℝ) ^ 2 ≤ ((ratVar P * ratVar Q : Rat) : ℝ) := by
    exact_mod_cast ratCov_sq_le h (by omega)
  have hpos : (0 : ℝ) < ((ratVar P * ratVar Q : Rat) : ℝ) := by exact_mod_cast mul_pos h1 h2
  rw [abs_div, abs_of_pos (Real.sqrt_pos.mpr hpos), div_le_one (Real.sqrt_pos.mpr hpos)]
  exact Real.abs_le_sqrt hcs

/-- C49, score: a non-constant descriptor matches itself with score 1. -/
theorem C49_self (P : List Rat) (h10 : 10 ≤ P.length) (hp : ¬ ∃ c, P = List.replicate P.length c) :
    m2dpMatch P P = .score 1 := by
  obtain ⟨h1, _, h3⟩ := m2dpMatch_eq P P rfl h10 hp hp
  rw [h3]
  have e : ratCov P P = ratVar P := by
    unfold ratCov ratVar
    ring
  have hpos : (0 : ℝ) < (ratVar P : ℝ) := by exact_mod_cast h1
  rw [e]
  push_cast
  rw [Real.sqrt_mul_self hpos.le, div_self hpos.ne', abs_one]

/-- C49, score: the remaining cases.  Lengths that differ or are below 10 give the error value;
otherwise the result is not a number exactly if one of the descriptors is constant. -/
theorem C49_other (P Q : List Rat) :
    (m2dpMatch P Q = .mismatch ↔ P.length ≠ Q.length ∨ P.length < 10) ∧
    (m2dpMatch P Q = .nan ↔ P.length = Q.length ∧ 10 ≤ P.length ∧
      ((∃ c, P = List.replicate P.length c) ∨ ∃ c, Q = List.replicate Q.length c)) := by
  by_cases hm : P.length ≠ Q.length ∨ P.length < 10
  · have e : m2dpMatch P Q = .mismatch := by
      unfold m2dpMatch
      rw [if_pos hm]
    rw [e]
    refine ⟨⟨fun _ => hm, fun _ => rfl⟩, ⟨fun h => (by cases h), ?_⟩⟩
    rintro ⟨a, b, _⟩
    rcases hm with hm | hm
    · exact absurd a hm
    · omega
  · have h : P.length = Q.length := by
      by_contra hne
      exact hm (Or.inl hne)
    have h10 : 10 ≤ P.length := by
      by_contra hne
      exact hm (Or.inr (by omega))
    by_cases hc : (∃ c, P = List.replicate P.length c) ∨ ∃ c, Q = List.replicate Q.length c
    · have e : m2dpMatch P Q = .nan := by
        unfold m2dpMatch
        rw [if_neg hm]
        dsimp only
        have e : ((P.length : Rat) * ratDot P P - P.sum ^ 2) *
            ((P.length : Rat) * ratDot Q Q - Q.sum ^ 2) = ratVar P * ratVar Q := by
          unfold ratVar
          rw [h]
        have h0 : ratVar P * ratVar Q = 0 := by
          rcases hc with hc | hc
          · rw [(ratVar_eq_zero_iff (by omega)).mpr hc, zero_mul]
          · rw [(ratVar_eq_zero_iff (by omega)).mpr hc, mul_zero]
        rw [e, if_pos h0]
      rw [e]
      exact ⟨⟨fun h => (by cases h), fun h => absurd h hm⟩, ⟨fun _ => ⟨h, h10, hc⟩, fun _ => rfl⟩⟩
    · have hc' := hc
      push Not at hc'
      obtain ⟨_, _, e⟩ := m2dpMatch_eq P Q h h10 (by push Not; exact hc'.1)
        (by push Not; exact hc'.2)
      rw [e]
      exact ⟨⟨fun h => (by cases h), fun h => absurd h hm⟩,
        ⟨fun h => (by cases h), fun h => absurd h.2.2 hc⟩⟩

/-- A descriptor the theorems apply to. -/
example : ¬ ∃ c : Rat, [1, 2, 3, 4, 5, 6, 7, 8, 9, 10] = List.replicate 10 c := by
  rintro ⟨c, h⟩
  simp only [List.replicate_succ, List.cons.injEq] at h
  have := h.1.trans h.2.1.symm
  norm_num at this

end Verif
