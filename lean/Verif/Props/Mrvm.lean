import Verif.Proofs.Mrvm
import Verif.Proofs.Filters2
import Verif.Proofs.Floats
import Mathlib.Analysis.SpecialFunctions.Log.Basic
/-! Property theorems C25, C26, C53 (probabilistic voxel map). -/
namespace Verif
open Spec

/-- The exact update is the log-odds update of the code: adding the logarithms of the odds and
converting back. -/
theorem bayes_eq_odds (p q : Rat) (hp : 0 < p ∧ p < 1) (hq : 0 < q ∧ q < 1) :
    ((bayes p q : Rat) : ℝ) = 1 - 1 / (1 + Real.exp (Real.log (p / (1 - p)) + Real.log (q / (1 - q)))) := by
  have hp0 : (0 : ℝ) < p := by exact_mod_cast hp.1
  have hp1 : (0 : ℝ) < 1 - p := by
    have : (p : ℝ) < 1 := by exact_mod_cast hp.2
    linarith
  have hq0 : (0 : ℝ) < q := by exact_mod_cast hq.1
  have hq1 : (0 : ℝ) < 1 - q := by
    have : (q : ℝ) < 1 := by exact_mod_cast hq.2
    linarith
  rw [Real.exp_add, Real.exp_log (div_pos hp0 hp1), Real.exp_log (div_pos hq0 hq1)]
  unfold bayes
  push_cast
  have hd : (0 : ℝ) < p * q + (1 - p) * (1 - q) := add_pos (mul_pos hp0 hq0) (mul_pos hp1 hq1)
  have hd2 : (0 : ℝ) < (1 - p) * (1 - q) + p * q := by linarith
  field_simp
  ring

/-- `Initialise` makes any settings with a positive point limit and resolution admissible. -/
theorem C25_initialise (s s' : MrvmCfg) (hr : 0 < s.resolution) (h : mrvmInit s = .ok s') : Admissible s' := by
  unfold mrvmInit at h
  simp only [Outcome.check_bind_eq_ok, Outcome.pure_eq, Outcome.ok.injEq] at h
  obtain ⟨hp, rfl⟩ := h
  refine ⟨hp, ?_, ?_, hr⟩
  · simp only
    rw [clampRat_eq _ _ _ (by norm_num)]
    exact ⟨lt_of_lt_of_le (by norm_num) (le_max_left _ _), max_le (by norm_num) (min_le_right _ _)⟩
  · simp only
    rw [clampRat_eq _ _ _ (by norm_num)]
    exact ⟨le_max_left _ _, lt_of_le_of_lt (max_le (by norm_num) (min_le_right _ _)) (by norm_num)⟩

/-- What `Initialise` makes of the probabilities: a hit between 0.501 and 0.9, a miss between 0.1 and 0.499, a value
in range stays as it is; nothing else changes; without a positive point limit the program stops. -/
theorem C25_initialise_values (s : MrvmCfg) :
    mrvmInit s = if 0 < s.maxPoints then
      .ok { s with hit := max (501 / 1000) (min s.hit (9 / 10)), miss := max (1 / 10) (min s.miss (499 / 1000)) }
    else .abort := by
  unfold mrvmInit
  rw [clampRat_eq _ _ _ (by norm_num), clampRat_eq _ _ _ (by norm_num)]
  by_cases h : 0 < s.maxPoints
  · rw [if_pos h, Outcome.check_pos h]; rfl
  · rw [if_neg h, Outcome.check_neg h]; rfl

theorem truncInt_lt (x : Rat) : x < truncInt x + 1 := by
  unfold truncInt
  split
  · exact Int.lt_floor_add_one x
  · have := Int.le_ceil x
    linarith

theorem foldl_max_ge (hs : List (InnerPoint Rat)) (a : Int) :
    a ≤ hs.foldl (fun a p => max a (truncInt p.intensity)) a ∧
    ∀ p ∈ hs, truncInt p.intensity ≤ hs.foldl (fun a p => max a (truncInt p.intensity)) a := by
  induction hs generalizing a with
  | nil => simp
  | cons h hs ih =>
    obtain ⟨h1, h2⟩ := ih (max a (truncInt h.intensity))
    simp only [List.foldl_cons]
    refine ⟨le_trans (le_max_left _ _) h1, ?_⟩
    intro p hp
    rcases List.mem_cons.1 hp with rfl | hp
    · exact le_trans (le_max_right _ _) h1
    · exact h2 p hp

theorem endOf_inVoxel (res : Rat) (hr : 0 < res) (p : InnerPoint Rat) : InVoxel res (endOf res p) p :=
  ⟨voxel_bounds hr _, voxel_bounds hr _, voxel_bounds hr _⟩

/-- one insertion keeps all cells good -/
theorem insertCloud_good (cfg : MrvmCfg) (ha : Admissible cfg) (m : VMap)
    (hm : GoodMap cfg.maxPoints cfg.resolution m) (cloud : Option (List (InnerPoint Rat))) (origin : Vec3 Rat) :
    ∃ m', insertCloud cfg m cloud origin = .ok m' ∧ GoodMap cfg.maxPoints cfg.resolution m' := by
  cases cloud with
  | none => exact ⟨m, rfl, hm⟩
  | some ps =>
    obtain ⟨m', h1, h2⟩ := insertCloud_effect cfg m ps origin (fun v c h => (hm v c h).free)
    refine ⟨m', h1, ?_⟩
    intro v c hc
    have h := h2 v
    simp only at h
    generalize passesBeforeHit _ _ v ps = k at h
    by_cases hh : hitsIn cfg.resolution v ps = []
    · rw [if_pos hh, hc] at h
      cases hmv : m v with
      | none => rw [hmv] at h; cases h
      | some c0 =>
        rw [hmv] at h
        simp only [Option.map_some, Option.some.injEq] at h
        subst h
        have g := hm v c0 hmv
        exact ⟨(iterate_miss ha.miss k g.prob_range).2, g.some_point, g.bounded, g.intensity, g.inside, g.free⟩
    · rw [if_neg hh, hc] at h
      simp only [Option.some.injEq] at h
      set base : Cell := ((m v).map (fun c => { c with prob := (updateProb cfg.miss)^[k] c.prob })).getD {} with hb
      have hbase : (25 ≤ base.prob ∧ base.prob ≤ 230) ∧ (base.points.length : Int) ≤ cfg.maxPoints ∧
          (∀ p ∈ base.points, p.intensity < base.maxIntensity + 1) ∧
          (∀ p ∈ base.points, InVoxel cfg.resolution v p) := by
        cases hmv : m v with
        | none =>
          rw [hmv] at hb
          have : base = {} := hb
          rw [this]
          refine ⟨by decide, ?_, by simp, by simp⟩
          simpa using le_of_lt ha.points
        | some c0 =>
          rw [hmv] at hb
          have : base = { c0 with prob := (updateProb cfg.miss)^[k] c0.prob } := hb
          rw [this]
          have g := hm v c0 hmv
          exact ⟨(iterate_miss ha.miss k g.prob_range).2, g.bounded, g.intensity, g.inside⟩
      obtain ⟨f1, f2, f3⟩ := fold_hits cfg (hitsIn cfg.resolution v ps) base
      have f2 := f2 hbase.2.1
      obtain ⟨m1, m2⟩ := foldl_max_ge (hitsIn cfg.resolution v ps) base.maxIntensity
      subst h
      have hmem : ∀ p ∈ (List.foldl (fun c p => hitCell cfg p c) base (hitsIn cfg.resolution v ps)).points,
          p ∈ base.points ∨ p ∈ hitsIn cfg.resolution v ps := by
        intro p hp
        rw [f2] at hp
        exact List.mem_append.1 (List.mem_of_mem_take hp)
      refine ⟨?_, ?_, ?_, ?_, ?_, rfl⟩
      · simp only
        rw [f1]
        exact (iterate_hit ha.hit _ hbase.1).2
      · simp only
        rw [f2]
        intro h0
        have hl := congrArg List.length h0
        have hpos : 0 < (hitsIn cfg.resolution v ps).length := List.length_pos_iff.2 hh
        have := ha.points
        simp only [List.length_take, List.length_append, List.length_nil] at hl
        omega
      · simp only
        rw [f2, List.length_take]
        have := ha.points
        omega
      · intro p hp
        simp only at hp ⊢
        rw [f3]
        rcases hmem p hp with h | h
        · have h1 := hbase.2.2.1 p h
          have h2 : (base.maxIntensity : Rat) ≤
              ((hitsIn cfg.resolution v ps).foldl (fun a p => max a (truncInt p.intensity)) base.maxIntensity : Int) := by
            exact_mod_cast m1
          linarith
        · have h1 := truncInt_lt p.intensity
          have h2 : (truncInt p.intensity : Rat) ≤
              ((hitsIn cfg.resolution v ps).foldl (fun a p => max a (truncInt p.intensity)) base.maxIntensity : Int) := by
            exact_mod_cast m2 p h
          linarith
      · intro p hp
        rcases hmem p hp with h | h
        · exact hbase.2.2.2 p h
        · have he : endOf cfg.resolution p = v := by simpa using (List.mem_filter.1 h).2
          rw [← he]
          exact endOf_inVoxel _ ha.res p

/-- C25 (single thread): any sequence of insertions into an empty map succeeds, and afterwards every
stored voxel has an occupancy index in 25..230, between one and the maximal number of points, all of
them inside the voxel, a maximal intensity that is at least the integer part of each point's
intensity, and its update flag set. -/
theorem C25_invariant_partial (cfg : MrvmCfg) (ha : Admissible cfg)
    (clouds : List (Option (List (InnerPoint Rat)) × Vec3 Rat)) :
    ∃ m, insertClouds cfg (fun _ => none) clouds = .ok m ∧ GoodMap cfg.maxPoints cfg.resolution m := by
  have gen : ∀ m, GoodMap cfg.maxPoints cfg.resolution m →
      ∃ m', insertClouds cfg m clouds = .ok m' ∧ GoodMap cfg.maxPoints cfg.resolution m' := by
    induction clouds with
    | nil => intro m hm; exact ⟨m, rfl, hm⟩
    | cons c cs ih =>
      intro m hm
      obtain ⟨m1, h1, g1⟩ := insertCloud_good cfg ha m hm c.1 c.2
      obtain ⟨m2, h2, g2⟩ := ih m1 g1
      exact ⟨m2, by simp only [insertClouds]; rw [h1]; exact h2, g2⟩
  exact gen _ (fun v c h => by cases h)

/-- Settings used in the examples. -/
def mrvmExample : MrvmCfg := { maxPoints := 2, hit := 11 / 20, miss := 12 / 25, resolution := 1, zOffset := 0 }

example : Admissible mrvmExample := by
  constructor <;> simp [mrvmExample] <;> norm_num

/-- The content of a voxel after a sequence of insertions. -/
def cellAfter (cfg : MrvmCfg) (clouds : List (Option (List (InnerPoint Rat)) × Vec3 Rat)) (v : Voxel) : Option Cell :=
  match insertClouds cfg (fun _ => none) clouds with
  | .ok m => m v
  | _ => none

theorem cellAfter_some (cfg : MrvmCfg) (clouds : List (Option (List (InnerPoint Rat)) × Vec3 Rat)) (v : Voxel)
    (c : Cell) (h : cellAfter cfg clouds v = some c) :
    ∃ m, insertClouds cfg (fun _ => none) clouds = .ok m ∧ m v = some c := by
  unfold cellAfter at h
  split at h
  · rename_i m hm; exact ⟨m, hm, h⟩
  · cases h

/-- C25 is false as stated: the maximal intensity is kept as an integer, so a stored point can be
brighter than its voxel's maximum. -/
theorem C25_intensity_fails : ∃ (ps : List (InnerPoint Rat)) (m : VMap) (v : Voxel) (c : Cell),
    insertClouds mrvmExample (fun _ => none) [(some ps, ⟨0, 0, 0⟩)] = .ok m ∧ m v = some c ∧
    ∃ p ∈ c.points, (c.maxIntensity : Rat) < p.intensity := by
  obtain ⟨m, h1, h2⟩ := cellAfter_some mrvmExample [(some [⟨1 / 2, 0, 0, 1 / 2, 0⟩], ⟨0, 0, 0⟩)] ⟨0, 0, 0⟩
    ⟨updateProb (11 / 20) 128, true, 0, [⟨1 / 2, 0, 0, 1 / 2, 0⟩]⟩ (by decide +kernel)
  exact ⟨_, m, _, _, h1, h2, _, List.mem_singleton.2 rfl, by norm_num⟩

/-! ### C26 -/

/-- C26, the exact effect of inserting a cloud, for each voxel `v`.
If no point ends in `v`: a stored voxel loses exactly one miss update per ray through it and nothing
else changes; a missing voxel stays missing.
If points end in `v`: it is stored afterwards, with the misses of the rays processed before the first
of those points (only if it was stored before), then one hit per point, the new points appended up
to the limit, and the maximal intensity raised. -/
theorem C26_effect_partial (cfg : MrvmCfg) (ha : Admissible cfg) (m : VMap)
    (hm : GoodMap cfg.maxPoints cfg.resolution m) (ps : List (InnerPoint Rat)) (origin : Vec3 Rat) :
    ∃ m', insertCloud cfg m (some ps) origin = .ok m' ∧ ∀ v,
      let o : Vec3 Rat := { origin with z := origin.z + cfg.zOffset }
      let hs := hitsIn cfg.resolution v ps
      let k := passesBeforeHit cfg.resolution o v ps
      (hs = [] → k = ps.countP (passes cfg.resolution o v) ∧
        m' v = (m v).map (fun c => { c with prob := (updateProb cfg.miss)^[k] c.prob })) ∧
      (hs ≠ [] → ∃ c', m' v = some c' ∧ c'.needUpdate = true ∧
        (∀ c, m v = some c →
          c'.prob = (updateProb cfg.hit)^[hs.length] ((updateProb cfg.miss)^[k] c.prob) ∧
          c'.points = (c.points ++ hs).take cfg.maxPoints.toNat ∧
          c.maxIntensity ≤ c'.maxIntensity ∧ ∀ p ∈ hs, p.intensity < c'.maxIntensity + 1) ∧
        (m v = none →
          c'.prob = (updateProb cfg.hit)^[hs.length] 128 ∧
          c'.points = hs.take cfg.maxPoints.toNat ∧ ∀ p ∈ hs, p.intensity < c'.maxIntensity + 1)) := by
  obtain ⟨m', h1, h2⟩ := insertCloud_effect cfg m ps origin (fun v c h => (hm v c h).free)
  refine ⟨m', h1, ?_⟩
  intro v
  have h := h2 v
  simp only at h ⊢
  generalize ({ origin with z := origin.z + cfg.zOffset } : Vec3 Rat) = o at *
  have inten : ∀ a : Int, ∀ p ∈ hitsIn cfg.resolution v ps, p.intensity <
      ((hitsIn cfg.resolution v ps).foldl (fun a p => max a (truncInt p.intensity)) a : Int) + 1 := by
    intro a p hp
    have h1 := truncInt_lt p.intensity
    have h2 : (truncInt p.intensity : Rat) ≤
        ((hitsIn cfg.resolution v ps).foldl (fun a p => max a (truncInt p.intensity)) a : Int) := by
      exact_mod_cast (foldl_max_ge _ a).2 p hp
    linarith
  constructor
  · intro hh
    rw [if_pos hh] at h
    refine ⟨?_, h⟩
    have hno : ∀ p ∈ ps, endOf cfg.resolution p ≠ v := by
      intro p hp he
      have : p ∈ hitsIn cfg.resolution v ps := List.mem_filter.2 ⟨hp, by simp [he]⟩
      rw [hh] at this; simp at this
    unfold passesBeforeHit
    rw [List.takeWhile_eq_self_iff.2 (by intro p hp; simpa using hno p hp)]
  · intro hh
    rw [if_neg hh] at h
    refine ⟨_, h, rfl, ?_, ?_⟩
    · intro c hc
      rw [hc]
      simp only [Option.map_some, Option.getD_some]
      obtain ⟨f1, f2, f3⟩ := fold_hits cfg (hitsIn cfg.resolution v ps)
        { c with prob := (updateProb cfg.miss)^[passesBeforeHit cfg.resolution o v ps] c.prob }
      refine ⟨f1, f2 (hm v c hc).bounded, ?_, ?_⟩
      · rw [f3]; exact (foldl_max_ge _ _).1
      · rw [f3]; exact inten _
    · intro hc
      rw [hc]
      simp only [Option.map_none, Option.getD_none]
      obtain ⟨f1, f2, f3⟩ := fold_hits cfg (hitsIn cfg.resolution v ps) ({} : Cell)
      refine ⟨f1, ?_, ?_⟩
      · have := f2 (by simpa using le_of_lt ha.points)
        simpa using this
      · rw [f3]; exact inten _

/-- C26, direction of the changes: voxels without a new point never gain occupancy and are lowered by
every ray through them (unless at the lower limit already); voxels with new points never lose
occupancy if no ray of the same cloud ran through them before their first point. -/
theorem C26_direction_partial (cfg : MrvmCfg) (ha : Admissible cfg) (m m' : VMap)
    (hm : GoodMap cfg.maxPoints cfg.resolution m) (ps : List (InnerPoint Rat)) (origin : Vec3 Rat)
    (h : insertCloud cfg m (some ps) origin = .ok m') (v : Voxel) (c : Cell) (hc : m v = some c) :
    ∃ c', m' v = some c' ∧
      let o : Vec3 Rat := { origin with z := origin.z + cfg.zOffset }
      (hitsIn cfg.resolution v ps = [] → c'.prob ≤ c.prob ∧ c'.points = c.points ∧
        c'.maxIntensity = c.maxIntensity ∧
        (ps.countP (passes cfg.resolution o v) = 0 → c' = c) ∧
        (0 < ps.countP (passes cfg.resolution o v) → c'.prob < c.prob ∨ c.prob = 25)) ∧
      (hitsIn cfg.resolution v ps ≠ [] → passesBeforeHit cfg.resolution o v ps = 0 → c.prob ≤ c'.prob) := by
  obtain ⟨m1, h1, h2⟩ := C26_effect_partial cfg ha m hm ps origin
  rw [h] at h1
  cases h1
  obtain ⟨e1, e2⟩ := h2 v
  have hr := (hm v c hc).prob_range
  generalize ({ origin with z := origin.z + cfg.zOffset } : Vec3 Rat) = o at *
  by_cases hh : hitsIn cfg.resolution v ps = []
  · obtain ⟨ek, ev⟩ := e1 hh
    rw [hc] at ev
    refine ⟨_, ev, fun _ => ⟨?_, rfl, rfl, ?_, ?_⟩, fun h => absurd hh h⟩
    · exact (iterate_miss ha.miss _ hr).1
    · intro h0
      rw [← ek] at h0
      rw [h0]; rfl
    · intro hpos
      rw [← ek] at hpos
      obtain ⟨j, hj⟩ := Nat.exists_eq_succ_of_ne_zero (Nat.pos_iff_ne_zero.1 hpos)
      simp only
      rw [hj, Function.iterate_succ_apply']
      have i1 := iterate_miss ha.miss j hr
      have := updateProb_miss ha.miss i1.2
      omega
  · obtain ⟨c', hc', -, hs, -⟩ := e2 hh
    refine ⟨c', hc', fun h => absurd h hh, ?_⟩
    intro _ h0
    obtain ⟨hp, -⟩ := hs c hc
    rw [h0] at hp
    rw [hp]
    exact (iterate_hit ha.hit _ hr).1

/-- C26: voxels are created only where points end. -/
theorem C26_created (cfg : MrvmCfg) (ha : Admissible cfg) (m m' : VMap)
    (hm : GoodMap cfg.maxPoints cfg.resolution m) (ps : List (InnerPoint Rat)) (origin : Vec3 Rat)
    (h : insertCloud cfg m (some ps) origin = .ok m') (v : Voxel) :
    m' v ≠ none ↔ m v ≠ none ∨ ∃ p ∈ ps, InVoxel cfg.resolution v p := by
  obtain ⟨m1, h1, h2⟩ := C26_effect_partial cfg ha m hm ps origin
  rw [h] at h1
  cases h1
  obtain ⟨e1, e2⟩ := h2 v
  have hiff : hitsIn cfg.resolution v ps ≠ [] ↔ ∃ p ∈ ps, InVoxel cfg.resolution v p := by
    constructor
    · intro hh
      obtain ⟨p, hp⟩ := List.exists_mem_of_ne_nil _ hh
      obtain ⟨hp1, hp2⟩ := List.mem_filter.1 hp
      have he : endOf cfg.resolution p = v := by simpa using hp2
      exact ⟨p, hp1, by rw [← he]; exact endOf_inVoxel _ ha.res p⟩
    · rintro ⟨p, hp, hin⟩ hn
      have he : endOf cfg.resolution p = v := by
        have key : ∀ (a : Rat) (n : Int), n * cfg.resolution ≤ a ∧ a < (n + 1) * cfg.resolution →
            (a / cfg.resolution).floor = n := by
          intro a n hb
          have h1 : (n : Rat) ≤ a / cfg.resolution := (le_div_iff₀ ha.res).2 hb.1
          have h2 : a / cfg.resolution < n + 1 := (div_lt_iff₀ ha.res).2 hb.2
          exact Int.floor_eq_iff.2 ⟨h1, h2⟩
        exact Vec3.ext' (key _ _ hin.1) (key _ _ hin.2.1) (key _ _ hin.2.2)
      have : p ∈ hitsIn cfg.resolution v ps := List.mem_filter.2 ⟨hp, by simp [he]⟩
      rw [hn] at this
      simp at this
  rw [← hiff]
  by_cases hh : hitsIn cfg.resolution v ps = []
  · rw [(e1 hh).2]
    simp [hh]
  · obtain ⟨c', hc', -⟩ := e2 hh
    rw [hc']
    simp [hh]

/-- Admissible settings with a strong miss. -/
def mrvmStrongMiss : MrvmCfg :=
  { maxPoints := 2, hit := 51 / 100, miss := 1 / 10, resolution := 1, zOffset := 0 }

example : Admissible mrvmStrongMiss := by
  constructor <;> simp [mrvmStrongMiss] <;> norm_num

/-- C26 is false as stated: a voxel that contains a point of the inserted cloud can end up with a
lower occupancy than before, because the ray of an earlier point of the same cloud went through it. -/
theorem C26_hit_lowered_fails : ∃ (first second : List (InnerPoint Rat)) (m1 m2 : VMap) (v : Voxel) (c1 c2 : Cell),
    insertClouds mrvmStrongMiss (fun _ => none) [(some first, ⟨0, 0, 0⟩)] = .ok m1 ∧
    insertCloud mrvmStrongMiss m1 (some second) ⟨0, 0, 0⟩ = .ok m2 ∧
    m1 v = some c1 ∧ m2 v = some c2 ∧ (∃ p ∈ second, InVoxel 1 v p) ∧ c2.prob < c1.prob := by
  obtain ⟨m1, h1, h2⟩ := cellAfter_some mrvmStrongMiss [(some [⟨1, 0, 0, 0, 0⟩], ⟨0, 0, 0⟩)] ⟨1, 0, 0⟩
    ⟨130, true, 0, [⟨1, 0, 0, 0, 0⟩]⟩ (by decide +kernel)
  obtain ⟨m2, h3, h4⟩ := cellAfter_some mrvmStrongMiss [(some [⟨1, 0, 0, 0, 0⟩], ⟨0, 0, 0⟩),
    (some [⟨2, 0, 0, 0, 0⟩, ⟨1, 0, 0, 0, 0⟩], ⟨0, 0, 0⟩)] ⟨1, 0, 0⟩
    ⟨26, true, 0, [⟨1, 0, 0, 0, 0⟩, ⟨1, 0, 0, 0, 0⟩]⟩ (by decide +kernel)
  have h5 : insertCloud mrvmStrongMiss m1 (some [⟨2, 0, 0, 0, 0⟩, ⟨1, 0, 0, 0, 0⟩]) ⟨0, 0, 0⟩ = .ok m2 := by
    simp only [insertClouds, Outcome.bind_eq_ok, Outcome.ok.injEq] at h1 h3
    obtain ⟨a, ha, rfl⟩ := h1
    obtain ⟨a', ha', b, hb, rfl⟩ := h3
    rw [ha] at ha'
    cases ha'
    exact hb
  refine ⟨_, _, m1, m2, _, _, _, h1, h5, h2, h4, ⟨_, List.mem_cons_of_mem _ (List.mem_singleton.2 rfl), ?_⟩, by decide⟩
  simp [InVoxel]

/-! ### C53: output -/

/-- The table lists the map: each stored voxel once. -/
structure Spec.Lists (m : VMap) (table : List (Voxel × Cell)) : Prop where
  once : (table.map Prod.fst).Nodup
  same : ∀ v c, m v = some c ↔ (v, c) ∈ table

/-- The points an exported voxel must contribute: its mean point, or all its points. -/
def Spec.exported (cfg : MrvmCfg) (c : Cell) (out : List (InnerPoint Rat)) : Prop :=
  if cfg.outputAverage then
    ∃ q, out = [q] ∧ q.x = mean (c.points.map (·.x)) ∧ q.y = mean (c.points.map (·.y)) ∧
      q.z = mean (c.points.map (·.z)) ∧ (cfg.useMaxIntensity → q.intensity = c.maxIntensity)
  else out.map (fun p => (p.x, p.y, p.z)) = c.points.map (fun p => (p.x, p.y, p.z)) ∧
    ∀ (i : Nat) q p, out[i]? = some q → c.points[i]? = some p →
      q.intensity = if cfg.useMaxIntensity then (c.maxIntensity : Rat) else p.intensity

theorem outputCell_exported (cfg : MrvmCfg) (c : Cell) : exported cfg c (outputCell cfg c).1 := by
  unfold exported outputCell
  by_cases h : cfg.outputAverage
  · simp only [h, if_true]
    refine ⟨_, rfl, ?_, ?_, ?_, ?_⟩
    · simp [mean]
    · simp [mean]
    · simp [mean]
    · intro hm; simp [hm]
  · simp only [h, if_false, Bool.false_eq_true]
    by_cases hm : cfg.useMaxIntensity
    · simp only [hm, if_true]
      refine ⟨by simp, ?_⟩
      intro i q p hq _
      rw [List.getElem?_map] at hq
      obtain ⟨r, -, rfl⟩ := Option.map_eq_some_iff.1 hq
      rfl
    · simp only [hm, if_false, Bool.false_eq_true]
      refine ⟨by trivial, ?_⟩
      intro i q p hq hp
      rw [hq] at hp; cases hp; rfl

theorem outputCells_eq (cfg : MrvmCfg) (t : Nat) (table : List (Voxel × Cell)) (h : ∀ e ∈ table, e.2.points ≠ []) :
    outputCells cfg t table = .ok
      ((table.filter (fun e => decide (t ≤ e.2.prob))).flatMap (fun e => (outputCell cfg e.2).1),
       table.map (fun e => if t ≤ e.2.prob then (e.1, (outputCell cfg e.2).2) else e)) := by
  induction table with
  | nil => rfl
  | cons e rest ih =>
    obtain ⟨v, c⟩ := e
    have ih := ih (fun e he => h e (by simp [he]))
    simp only [outputCells, ge_iff_le]
    by_cases ht : t ≤ c.prob
    · rw [if_pos ht, Outcome.check_pos (h (v, c) (by simp)), ih]
      simp [ht]
    · rw [if_neg ht, ih]
      simp [ht]

/-- C53: for a threshold in `[0, 1)` and a map as insertion leaves it, exporting never stops the
program; the output is, voxel by voxel in some order, exactly the contribution of the voxels whose
occupancy reaches the threshold (up to the table's resolution of 1/256), and the map keeps the same
voxels, occupancies and point positions and stays in order. -/
theorem C53_output_partial (cfg : MrvmCfg) (m : VMap) (hm : GoodMap cfg.maxPoints cfg.resolution m)
    (table : List (Voxel × Cell)) (hl : Lists m table) (threshold : Rat) (ht : 0 ≤ threshold ∧ threshold < 1) :
    ∃ out table', outputCloud cfg threshold table = .ok (out, table') ∧
      (∃ parts : List (Voxel × List (InnerPoint Rat)), out = parts.flatMap Prod.snd ∧
        (parts.map Prod.fst).Nodup ∧
        (∀ v, v ∈ parts.map Prod.fst ↔ ∃ c, m v = some c ∧ threshold * 256 < c.prob + 1) ∧
        ∀ e ∈ parts, ∃ c, m e.1 = some c ∧ exported cfg c e.2) ∧
      table'.map (fun e => (e.1, e.2.prob, e.2.points.map (fun p => (p.x, p.y, p.z)))) =
        table.map (fun e => (e.1, e.2.prob, e.2.points.map (fun p => (p.x, p.y, p.z)))) ∧
      ∀ e ∈ table', GoodCell cfg.maxPoints cfg.resolution e.1 e.2 := by
  have hgood : ∀ e ∈ table, GoodCell cfg.maxPoints cfg.resolution e.1 e.2 := fun e he =>
    hm e.1 e.2 ((hl.same e.1 e.2).2 he)
  have h0 : 0 ≤ threshold * 256 := mul_nonneg ht.1 (by norm_num)
  have htr : truncInt (threshold * 256) = ⌊threshold * 256⌋ := by unfold truncInt; rw [if_pos h0]
  have hf0 : 0 ≤ ⌊threshold * 256⌋ := Int.floor_nonneg.2 h0
  have hf1 : ⌊threshold * 256⌋ < (256 : Int) := by
    rw [Int.floor_lt]; push_cast; linarith
  have h8 : threshold8 threshold = .ok (⌊threshold * 256⌋).toNat := by
    unfold threshold8
    rw [htr, if_pos ⟨hf0, by omega⟩]
  unfold outputCloud
  rw [h8]
  simp only [Outcome.bind_ok]
  rw [outputCells_eq cfg _ table (fun e he => (hgood e he).some_point)]
  generalize htn : (⌊threshold * 256⌋).toNat = t
  have hcmp : ∀ n : Nat, t ≤ n ↔ threshold * 256 < (n : Rat) + 1 := by
    intro n
    rw [← htn]
    constructor
    · intro h
      have h1 := Int.lt_floor_add_one (threshold * 256)
      have h2 : ⌊threshold * 256⌋ ≤ (n : Int) := by omega
      have h3 : ((⌊threshold * 256⌋ : Int) : Rat) ≤ n := by exact_mod_cast h2
      linarith
    · intro h
      have : ⌊threshold * 256⌋ < (n : Int) + 1 := by rw [Int.floor_lt]; push_cast; exact h
      omega
  refine ⟨_, _, rfl, ⟨(table.filter (fun e => decide (t ≤ e.2.prob))).map (fun e => (e.1, (outputCell cfg e.2).1)), ?_, ?_, ?_, ?_⟩, ?_, ?_⟩
  · rw [List.flatMap_map]
  · rw [List.map_map]
    have : (Prod.fst ∘ fun e : Voxel × Cell => (e.1, (outputCell cfg e.2).1)) = Prod.fst := rfl
    rw [this]
    exact hl.once.sublist ((List.filter_sublist).map _)
  · intro v
    rw [List.map_map, List.mem_map]
    constructor
    · rintro ⟨e, he, rfl⟩
      obtain ⟨h1, h2⟩ := List.mem_filter.1 he
      exact ⟨e.2, (hl.same _ _).2 h1, (hcmp _).1 (by simpa using h2)⟩
    · rintro ⟨c, hc, hp⟩
      exact ⟨(v, c), List.mem_filter.2 ⟨(hl.same _ _).1 hc, by simpa using (hcmp _).2 hp⟩, rfl⟩
  · intro e he
    obtain ⟨e0, h0, rfl⟩ := List.mem_map.1 he
    exact ⟨e0.2, (hl.same _ _).2 (List.mem_filter.1 h0).1, outputCell_exported cfg e0.2⟩
  · rw [List.map_map]
    apply List.map_congr_left
    intro e _
    simp only [Function.comp]
    split
    · simp only [outputCell]
      split
      · rfl
      · split
        · simp
        · rfl
    · rfl
  · intro e he
    obtain ⟨e0, h0, rfl⟩ := List.mem_map.1 he
    have g := hgood e0 h0
    split
    · simp only [outputCell]
      split
      · exact g
      · split
        · refine ⟨g.prob_range, by simpa using g.some_point, by simpa using g.bounded, ?_, ?_, g.free⟩
          · intro p hp
            obtain ⟨q, -, rfl⟩ := List.mem_map.1 hp
            simp
          · intro p hp
            obtain ⟨q, hq, rfl⟩ := List.mem_map.1 hp
            exact g.inside q hq
        · exact g
    · exact g

/-- C53 is false for thresholds of 1 and more (and negative ones): the conversion of the threshold to
a table index is undefined whatever the map holds. -/
theorem C53_threshold_fails (cfg : MrvmCfg) (table : List (Voxel × Cell)) (threshold : Rat) (h : 1 ≤ threshold) :
    outputCloud cfg threshold table = .ub := by
  unfold outputCloud threshold8
  have h0 : 0 ≤ threshold * 256 := by linarith
  have htr : truncInt (threshold * 256) = ⌊threshold * 256⌋ := by unfold truncInt; rw [if_pos h0]
  have h1 : (256 : Int) ≤ ⌊threshold * 256⌋ := by rw [Int.le_floor]; push_cast; linarith
  rw [htr, if_neg (by omega)]
  rfl

-- exporting one voxel with two points as their mean
example : (match outputCloud { mrvmExample with outputAverage := true } (3 / 5)
      [(⟨0, 0, 0⟩, ⟨160, true, 7, [⟨0, 0, 0, 3, 0⟩, ⟨1 / 2, 0, 0, 7, 0⟩]⟩), (⟨1, 0, 0⟩, ⟨100, true, 7, [⟨1, 0, 0, 3, 0⟩]⟩)] with
    | .ok r => r.1
    | _ => []) = [⟨1 / 4, 0, 0, 7, 0⟩] := by decide +kernel

/-- Colours: never above 255, white from 183 on, and below that 1.4 times the intensity rounded down. The factor
1.4 is a `double` a little below 1.4, so at seven intensities the colour is one less than the exact product. -/
theorem C53_grey (m : Nat) : rgbOf m ≤ 255 ∧ (rgbOf m = 255 ↔ 183 ≤ m) ∧
    (m < 183 → rgbOf m = if m ∈ [45, 85, 90, 165, 170, 175, 180] then m * 14 / 10 - 1 else m * 14 / 10) := by
  have small : ∀ n : Fin 183, rgbOf n.val =
      if n.val ∈ [45, 85, 90, 165, 170, 175, 180] then n.val * 14 / 10 - 1 else n.val * 14 / 10 := by decide +kernel
  have small' : m < 183 → rgbOf m = if m ∈ [45, 85, 90, 165, 170, 175, 180] then m * 14 / 10 - 1 else m * 14 / 10 :=
    fun h => small ⟨m, h⟩
  refine ⟨min_le_left _ _, ⟨fun h => ?_, fun h => ?_⟩, small'⟩
  · by_contra hc
    have := small' (by omega)
    rw [h] at this
    split at this <;> omega
  · unfold rgbOf
    apply min_eq_left
    have h1 : toF64 ((183 : ℕ) * toF64 (14 / 10)) ≤ toF64 (m * toF64 (14 / 10)) := by
      apply flRound_mono 53 (by norm_num)
      exact mul_le_mul_of_nonneg_right (by exact_mod_cast h) (flRound_nonneg 53 (by norm_num))
    have h2 : (256 : ℚ) ≤ toF64 ((183 : ℕ) * toF64 (14 / 10)) := by decide +kernel
    have h3 : (256 : Int) ≤ ⌊toF64 (m * toF64 (14 / 10))⌋ := Int.le_floor.2 (by push_cast; linarith)
    omega

/-- Where a point of the cloud with intensities lies, with a colour. -/
def greyAt (g : Nat) (p : InnerPoint Rat) : GreyPoint := ⟨p.x, p.y, p.z, g⟩

/-- The RGB version outputs the same positions as the version with intensities, in the same order; with
`use_max_intensity` (the default) the colours are the intensities scaled; it stops in the same cases. -/
theorem C53_rgb (cfg : MrvmCfg) (hmax : cfg.useMaxIntensity = true) (threshold : Rat) (table : List (Voxel × Cell)) :
    outputCloudRgb cfg threshold table =
      (outputCloud cfg threshold table >>= fun r =>
        .ok (r.1.map fun p => greyAt (rgbOf ⌊p.intensity⌋.toNat) p)) := by
  have cell : ∀ c : Cell, outputCellRgb cfg c =
      (outputCell cfg c).1.map fun p => greyAt (rgbOf ⌊p.intensity⌋.toNat) p := by
    intro c
    unfold outputCellRgb outputCell
    split
    · simp [hmax, greyAt]
    · simp [hmax, greyAt]
  have key : ∀ t, outputCellsRgb cfg t table =
      (outputCells cfg t table >>= fun r => .ok (r.1.map fun p => greyAt (rgbOf ⌊p.intensity⌋.toNat) p)) := by
    intro t
    induction table with
    | nil => rfl
    | cons e rest ih =>
      obtain ⟨v, c⟩ := e
      unfold outputCellsRgb outputCells
      split
      · by_cases hp : c.points ≠ []
        · rw [Outcome.check_pos hp]
          simp only [Outcome.bind_ok, ih]
          cases outputCells cfg t rest with
          | ok r => simp [cell]
          | abort => rfl
          | ub => rfl
        · rw [Outcome.check_neg hp]; rfl
      · rw [ih]
        cases outputCells cfg t rest with
        | ok r => rfl
        | abort => rfl
        | ub => rfl
  unfold outputCloudRgb outputCloud
  cases threshold8 threshold with
  | ok t => simp only [Outcome.bind_ok]; exact key t
  | abort => rfl
  | ub => rfl

example : rgbOf 100 = 140 ∧ rgbOf 45 = 62 ∧ rgbOf 200 = 255 := by decide +kernel

end Verif
