import Verif.Spec.Mrvm
import Verif.Props.VoxelCasting
import Mathlib.Data.List.Nodup
import Mathlib.Data.List.TakeWhile
import Mathlib.Logic.Function.Iterate
import Mathlib.Tactic.FieldSimp
import Mathlib.Tactic.Linarith
namespace Verif
open Spec

/-! ### rays do not visit a voxel twice -/

theorem near_exact (n k : Nat) (a b p : Int) (hb : (b - a).natAbs = n) (h : NearLine n k a p b) :
    n = 0 ∨ p = a + k * (b - a).sign := by
  rcases Nat.eq_zero_or_pos n with h0 | h0
  · exact Or.inl h0
  right
  unfold NearLine at h
  have hs : b - a = (b - a).sign * n := by rw [← hb]; exact (Int.sign_mul_natAbs _).symm
  set s := (b - a).sign with hsdef
  rw [hs] at h
  have e : (n : Int) * (p - a) - k * (s * n) = n * (p - a - k * s) := by ring
  rw [e, abs_mul, abs_of_nonneg (by positivity : (0 : Int) ≤ n)] at h
  have h1 : |p - a - k * s| < 1 := by
    by_contra hc
    have : 1 ≤ |p - a - k * s| := not_lt.1 hc
    have hn : (0 : Int) < n := by exact_mod_cast h0
    nlinarith
  have h2 := Int.abs_lt_one_iff.1 h1
  linarith

theorem isRay_nodup (a b : Voxel) (path : List Voxel) (h : IsRay a b path) : path.Nodup := by
  rw [List.nodup_iff_injective_getElem]
  rintro ⟨i, hi⟩ ⟨j, hj⟩ hij
  simp only at hij
  have hn := h.length
  set n := chebyshev a b with hndef
  rcases Nat.eq_zero_or_pos n with h0 | hpos
  · ext; simp; omega
  have ni := h.near i path[i] (List.getElem?_eq_getElem hi)
  have nj := h.near j path[j] (List.getElem?_eq_getElem hj)
  rw [← hij] at nj
  have key : ∀ (u w p : Int), (w - u).natAbs = n → NearLine n i u p w → NearLine n j u p w → i = j := by
    intro u w p hw h1 h2
    rcases near_exact n i u w p hw h1 with h1 | h1
    · omega
    rcases near_exact n j u w p hw h2 with h2 | h2
    · omega
    have hsgn : (w - u).sign ≠ 0 := by
      intro hz
      have := Int.sign_eq_zero_iff_zero.1 hz
      rw [this] at hw; simp at hw; omega
    have : (i : Int) * (w - u).sign = j * (w - u).sign := by linarith
    have := mul_right_cancel₀ hsgn this
    exact_mod_cast this
  have hmax : (b.x - a.x).natAbs = n ∨ (b.y - a.y).natAbs = n ∨ (b.z - a.z).natAbs = n := by
    rw [hndef]; unfold chebyshev; omega
  ext
  simp only
  rcases hmax with hm | hm | hm
  · exact key _ _ _ hm ni.1 nj.1
  · exact key _ _ _ hm ni.2.1 nj.2.1
  · exact key _ _ _ hm ni.2.2 nj.2.2

/-! ### one probability update -/

theorem clampRat_eq (v lo hi : Rat) (h : lo ≤ hi) : clampRat v lo hi = max lo (min v hi) := by
  unfold clampRat
  by_cases h1 : v > hi
  · rw [if_pos h1, min_eq_right (le_of_lt h1), max_eq_right h]
  · rw [if_neg h1, min_eq_left (not_lt.1 h1)]
    by_cases h2 : v < lo
    · rw [if_pos h2, max_eq_left (le_of_lt h2)]
    · rw [if_neg h2, max_eq_right (not_lt.1 h2)]

theorem bayes_den {p q : Rat} (hp : 0 < p ∧ p < 1) (hq : 0 < q ∧ q < 1) :
    0 < p * q + (1 - p) * (1 - q) := by
  have h1 : 0 < p * q := mul_pos hp.1 hq.1
  have h2 : 0 < (1 - p) * (1 - q) := mul_pos (by linarith) (by linarith)
  linarith

theorem bayes_ge {p q : Rat} (hp : 0 < p ∧ p < 1) (hq : 1 / 2 < q ∧ q < 1) : p < bayes p q := by
  have hd := bayes_den hp ⟨by linarith, hq.2⟩
  unfold bayes
  rw [lt_div_iff₀ hd]
  have h : 0 < p * (1 - p) * (2 * q - 1) := mul_pos (mul_pos hp.1 (by linarith)) (by linarith)
  nlinarith

theorem bayes_le {p q : Rat} (hp : 0 < p ∧ p < 1) (hq : 0 < q ∧ q < 1 / 2) : bayes p q < p := by
  have hd := bayes_den hp ⟨hq.1, by linarith⟩
  unfold bayes
  rw [div_lt_iff₀ hd]
  have h : 0 < p * (1 - p) * (1 - 2 * q) := mul_pos (mul_pos hp.1 (by linarith)) (by linarith)
  nlinarith

theorem updateProb_range (q : Rat) (n : Nat) : 25 ≤ updateProb q n ∧ updateProb q n ≤ 230 := by
  unfold updateProb
  generalize bayes (n / 256) q = x
  rw [clampRat_eq _ _ _ (by norm_num)]
  have h1 : (1 / 10 : Rat) ≤ max (1 / 10) (min x (9 / 10)) := le_max_left _ _
  have h2 : max (1 / 10 : Rat) (min x (9 / 10)) ≤ 9 / 10 := max_le (by norm_num) (min_le_right _ _)
  generalize max (1 / 10 : Rat) (min x (9 / 10)) = y at *
  have h3 : (25 : Int) ≤ ⌊y * 256⌋ := by rw [Int.le_floor]; push_cast; linarith
  have h4 : ⌊y * 256⌋ < (231 : Int) := by rw [Int.floor_lt]; push_cast; linarith
  omega

theorem prob_unit {n : Nat} (h : 25 ≤ n ∧ n ≤ 230) : (0 : Rat) < n / 256 ∧ (n : Rat) / 256 < 1 := by
  have h1 : (25 : Rat) ≤ n := by exact_mod_cast h.1
  have h2 : (n : Rat) ≤ 230 := by exact_mod_cast h.2
  constructor <;> linarith

/-- a hit never lowers -/
theorem updateProb_hit {q : Rat} {n : Nat} (hq : 1 / 2 < q ∧ q ≤ 9 / 10) (hn : 25 ≤ n ∧ n ≤ 230) :
    n ≤ updateProb q n := by
  have h := bayes_ge (prob_unit hn) ⟨hq.1, by linarith⟩
  unfold updateProb
  rw [clampRat_eq _ _ _ (by norm_num)]
  have h2 : (n : Rat) ≤ 230 := by exact_mod_cast hn.2
  have hy : (n : Rat) / 256 ≤ max (1 / 10) (min (bayes (n / 256) q) (9 / 10)) :=
    le_max_of_le_right (le_min (le_of_lt h) (by linarith))
  generalize max (1 / 10 : Rat) (min (bayes (n / 256) q) (9 / 10)) = y at *
  have : (n : Int) ≤ ⌊y * 256⌋ := by rw [Int.le_floor]; push_cast; linarith
  omega

/-- a miss lowers, down to the lower clamp -/
theorem updateProb_miss {q : Rat} {n : Nat} (hq : 1 / 10 ≤ q ∧ q < 1 / 2) (hn : 25 ≤ n ∧ n ≤ 230) :
    updateProb q n < n ∨ (n = 25 ∧ updateProb q n = 25) := by
  have h := bayes_le (prob_unit hn) ⟨by linarith, hq.2⟩
  have hr := (updateProb_range q n).1
  by_cases h25 : n = 25
  · right
    refine ⟨h25, le_antisymm ?_ hr⟩
    unfold updateProb
    rw [clampRat_eq _ _ _ (by norm_num)]
    have hb : bayes (n / 256) q < 1 / 10 := by
      rw [h25] at h ⊢; push_cast at h ⊢; linarith
    have : min (bayes (n / 256) q) (9 / 10) ≤ 1 / 10 := le_trans (min_le_left _ _) (le_of_lt hb)
    rw [max_eq_left this]
    norm_num
  · left
    unfold updateProb
    rw [clampRat_eq _ _ _ (by norm_num)]
    have h1 : (26 : Rat) ≤ n := by
      have : 26 ≤ n := by omega
      exact_mod_cast this
    have hy : max (1 / 10) (min (bayes (n / 256) q) (9 / 10)) < (n : Rat) / 256 :=
      max_lt (by linarith) (lt_of_le_of_lt (min_le_left _ _) h)
    generalize max (1 / 10 : Rat) (min (bayes (n / 256) q) (9 / 10)) = y at *
    have : ⌊y * 256⌋ < (n : Int) := by rw [Int.floor_lt]; push_cast; linarith
    omega

theorem iterate_hit {q : Rat} (hq : 1 / 2 < q ∧ q ≤ 9 / 10) (k : Nat) {n : Nat} (hn : 25 ≤ n ∧ n ≤ 230) :
    n ≤ (updateProb q)^[k] n ∧ 25 ≤ (updateProb q)^[k] n ∧ (updateProb q)^[k] n ≤ 230 := by
  induction k with
  | zero => simpa using ⟨hn.1, hn.2⟩
  | succ k ih =>
    rw [Function.iterate_succ_apply']
    exact ⟨le_trans ih.1 (updateProb_hit hq ih.2), updateProb_range _ _⟩

theorem iterate_miss {q : Rat} (hq : 1 / 10 ≤ q ∧ q < 1 / 2) (k : Nat) {n : Nat} (hn : 25 ≤ n ∧ n ≤ 230) :
    (updateProb q)^[k] n ≤ n ∧ 25 ≤ (updateProb q)^[k] n ∧ (updateProb q)^[k] n ≤ 230 := by
  induction k with
  | zero => simpa using ⟨hn.1, hn.2⟩
  | succ k ih =>
    rw [Function.iterate_succ_apply']
    have := updateProb_miss hq ih.2
    exact ⟨by omega, updateProb_range _ _⟩

/-! ### one point -/

/-- effect of a passing ray on a stored voxel -/
def missCell (cfg : MrvmCfg) (c : Cell) : Cell :=
  if c.needUpdate then { c with prob := updateProb cfg.miss c.prob } else c

theorem missAt_apply (cfg : MrvmCfg) (m : VMap) (v w : Voxel) :
    missAt cfg m v w = if w = v then (m w).map (missCell cfg) else m w := by
  unfold missAt
  cases h : m v with
  | none =>
    simp only
    by_cases hw : w = v
    · subst hw; simp [h]
    · simp [hw]
  | some c =>
    simp only
    by_cases hw : w = v
    · subst hw
      simp only [if_true, h, Option.map_some, missCell]
      split
      · simp [VMap.set]
      · exact h
    · split
      · simp [VMap.set, hw]
      · simp [hw]

theorem missFold_apply (cfg : MrvmCfg) (l : List Voxel) (hl : l.Nodup) (m : VMap) (w : Voxel) :
    l.foldl (missAt cfg) m w = if w ∈ l then (m w).map (missCell cfg) else m w := by
  induction l generalizing m with
  | nil => simp
  | cons v l ih =>
    rw [List.nodup_cons] at hl
    rw [List.foldl_cons, ih hl.2, missAt_apply]
    by_cases hw : w = v
    · subst hw; simp [hl.1]
    · simp [hw]

/-- effect of one point on one voxel -/
def pointEffect (cfg : MrvmCfg) (origin : Vec3 Rat) (v : Voxel) (c : Option Cell) (p : InnerPoint Rat) :
    Option Cell :=
  if endOf cfg.resolution p = v then some (hitCell cfg p (c.getD {}))
  else if passes cfg.resolution origin v p then c.map (missCell cfg) else c

theorem insertPoint_effect (cfg : MrvmCfg) (origin : Vec3 Rat) (s : VMap × List Voxel) (p : InnerPoint Rat) :
    ∃ s', insertPoint cfg origin s p = .ok s' ∧ s'.2 = s.2 ++ [endOf cfg.resolution p] ∧
      ∀ v, s'.1 v = pointEffect cfg origin v (s.1 v) p := by
  obtain ⟨path, hp, hr⟩ := bresenham_isRay (voxelOf origin cfg.resolution) (voxelOf ⟨p.x, p.y, p.z⟩ cfg.resolution)
  have hp' : voxelCastingBresenham origin ⟨p.x, p.y, p.z⟩ cfg.resolution = .ok path := hp
  have hnd := isRay_nodup _ _ _ hr
  have hlast : path.getLast? = some (endOf cfg.resolution p) := hr.ends
  have hne : path ≠ [] := by intro h; rw [h] at hlast; simp at hlast
  have hsplit : path = path.dropLast ++ [endOf cfg.resolution p] := by
    have h1 := List.dropLast_append_getLast hne
    rw [List.getLast?_eq_some_getLast hne] at hlast
    rw [← Option.some.inj hlast]; exact h1.symm
  unfold insertPoint
  rw [hp']
  simp only [Outcome.bind_ok, hlast, Outcome.pure_eq]
  refine ⟨_, rfl, rfl, ?_⟩
  intro v
  have hnd2 : path.dropLast.Nodup ∧ endOf cfg.resolution p ∉ path.dropLast := by
    rw [hsplit, List.nodup_append] at hnd
    refine ⟨hnd.1, ?_⟩
    intro hm
    exact hnd.2.2 _ hm _ (by simp) rfl
  simp only
  rw [missFold_apply cfg _ hnd2.1]
  unfold pointEffect passes
  rw [hp']
  simp only
  by_cases he : endOf cfg.resolution p = v
  · rw [if_pos he]
    subst he
    rw [if_neg hnd2.2]
    simp [VMap.set]
  · rw [if_neg he]
    have hmem : v ∈ path ↔ v ∈ path.dropLast := by
      conv_lhs => rw [hsplit]
      simp only [List.mem_append, List.mem_singleton]
      constructor
      · rintro (h | h)
        · exact h
        · exact absurd h.symm he
      · exact Or.inl
    have hset : ∀ c, (s.1.set (endOf cfg.resolution p) c) v = s.1 v := by
      intro c; simp [VMap.set, Ne.symm he]
    rw [hset]
    by_cases hm : v ∈ path.dropLast
    · simp [hm, hmem.2 hm, he]
    · have : v ∉ path := fun h => hm (hmem.1 h)
      simp [hm, this]

theorem insertPoints_effect (cfg : MrvmCfg) (origin : Vec3 Rat) (s : VMap × List Voxel) (ps : List (InnerPoint Rat)) :
    ∃ s', insertPoints cfg origin s ps = .ok s' ∧ s'.2 = s.2 ++ ps.map (endOf cfg.resolution) ∧
      ∀ v, s'.1 v = ps.foldl (pointEffect cfg origin v) (s.1 v) := by
  induction ps generalizing s with
  | nil => exact ⟨s, rfl, by simp, by simp⟩
  | cons p ps ih =>
    obtain ⟨s1, h1, h2, h3⟩ := insertPoint_effect cfg origin s p
    obtain ⟨s2, h4, h5, h6⟩ := ih s1
    refine ⟨s2, ?_, ?_, ?_⟩
    · simp only [insertPoints]; rw [h1]; exact h4
    · rw [h5, h2]; simp
    · intro v; rw [h6, h3]; rfl

theorem releaseAll_apply (m : VMap) (es : List Voxel) (v : Voxel) :
    releaseAll m es v = if v ∈ es then some { (m v).getD {} with needUpdate := true } else m v := by
  induction es generalizing m with
  | nil => simp [releaseAll]
  | cons e es ih =>
    rw [releaseAll, ih]
    by_cases hv : v = e
    · subst hv; simp [VMap.set]
    · simp [VMap.set, hv]

/-! ### a whole cloud on one voxel -/

/-- before the first hit -/
theorem fold_noHit (cfg : MrvmCfg) (origin : Vec3 Rat) (v : Voxel) (ps : List (InnerPoint Rat))
    (h : ∀ p ∈ ps, endOf cfg.resolution p ≠ v) (c : Option Cell) (hc : ∀ x, c = some x → x.needUpdate = true) :
    ps.foldl (pointEffect cfg origin v) c =
      c.map (fun x => { x with prob := (updateProb cfg.miss)^[ps.countP (passes cfg.resolution origin v)] x.prob }) := by
  induction ps generalizing c with
  | nil => cases c <;> simp
  | cons p ps ih =>
    have hp := h p (by simp)
    have ih' := ih (fun p hp => h p (by simp [hp]))
    rw [List.foldl_cons]
    unfold pointEffect
    rw [if_neg hp]
    by_cases hpass : passes cfg.resolution origin v p = true
    · rw [if_pos hpass]
      change ps.foldl (pointEffect cfg origin v) _ = _
      rw [ih']
      · cases c with
        | none => rfl
        | some x =>
          simp only [Option.map_some, missCell, hc x rfl, if_true, List.countP_cons, hpass]
          rw [Function.iterate_succ_apply]
      · intro x hx
        cases c with
        | none => simp at hx
        | some y =>
          simp only [Option.map_some, missCell, hc y rfl, if_true, Option.some.injEq] at hx
          rw [← hx]
    · rw [if_neg hpass]
      change ps.foldl (pointEffect cfg origin v) _ = _
      rw [ih' c hc]
      simp [hpass]

/-- after the first hit -/
theorem fold_afterHit (cfg : MrvmCfg) (origin : Vec3 Rat) (v : Voxel) (ps : List (InnerPoint Rat)) (c : Cell)
    (hc : c.needUpdate = false) :
    ps.foldl (pointEffect cfg origin v) (some c) =
      some ((hitsIn cfg.resolution v ps).foldl (fun c p => hitCell cfg p c) c) := by
  induction ps generalizing c with
  | nil => rfl
  | cons p ps ih =>
    rw [List.foldl_cons]
    by_cases hp : endOf cfg.resolution p = v
    · have e1 : pointEffect cfg origin v (some c) p = some (hitCell cfg p c) := by
        unfold pointEffect; rw [if_pos hp]; rfl
      rw [e1, ih _ rfl]
      simp [hitsIn, hp]
    · have e1 : pointEffect cfg origin v (some c) p = some c := by
        unfold pointEffect
        rw [if_neg hp]
        split
        · simp [missCell, hc]
        · rfl
      rw [e1, ih _ hc]
      simp [hitsIn, hp]

/-- what a series of hits does -/
theorem fold_hits (cfg : MrvmCfg) (hs : List (InnerPoint Rat)) (c : Cell) :
    let c' := hs.foldl (fun c p => hitCell cfg p c) c
    c'.prob = (updateProb cfg.hit)^[hs.length] c.prob ∧
    ((c.points.length : Int) ≤ cfg.maxPoints → c'.points = (c.points ++ hs).take cfg.maxPoints.toNat) ∧
    c'.maxIntensity = hs.foldl (fun a p => max a (truncInt p.intensity)) c.maxIntensity := by
  induction hs generalizing c with
  | nil =>
    refine ⟨rfl, ?_, rfl⟩
    intro h
    simp only [List.foldl_nil, List.append_nil]
    rw [List.take_of_length_le (by omega)]
  | cons p hs ih =>
    obtain ⟨h1, h2, h3⟩ := ih (hitCell cfg p c)
    simp only [List.foldl_cons]
    refine ⟨?_, ?_, ?_⟩
    · rw [h1, List.length_cons, Function.iterate_succ_apply]; rfl
    · intro hl
      by_cases hlt : (c.points.length : Int) < cfg.maxPoints
      · have e : (hitCell cfg p c).points = c.points ++ [p] := by simp [hitCell, hlt]
        rw [h2 (by rw [e]; simp; omega), e]
        simp
      · have e : (hitCell cfg p c).points = c.points := by simp [hitCell, hlt]
        rw [h2 (by rw [e]; exact hl), e]
        have hlen : cfg.maxPoints.toNat = c.points.length := by omega
        rw [hlen, List.take_left, List.take_left]
    · rw [h3]
      congr 1
      simp only [hitCell]
      rw [max_def]
      split <;> split <;> omega

theorem takeWhile_split (res : Rat) (v : Voxel) (ps : List (InnerPoint Rat)) (h : hitsIn res v ps ≠ []) :
    ∃ pre p post, ps = pre ++ p :: post ∧ endOf res p = v ∧ (∀ q ∈ pre, endOf res q ≠ v) ∧
      ps.takeWhile (fun p => decide (endOf res p ≠ v)) = pre := by
  induction ps with
  | nil => simp [hitsIn] at h
  | cons p ps ih =>
    by_cases hp : endOf res p = v
    · exact ⟨[], p, ps, rfl, hp, by simp, by simp [hp]⟩
    · have : hitsIn res v ps ≠ [] := by simpa [hitsIn, hp] using h
      obtain ⟨pre, q, post, h1, h2, h3, h4⟩ := ih this
      refine ⟨p :: pre, q, post, by simp [h1], h2, ?_, ?_⟩
      · intro r hr
        rcases List.mem_cons.1 hr with rfl | hr
        · exact hp
        · exact h3 r hr
      · rw [List.takeWhile_cons]
        simp only [ne_eq, hp, not_false_eq_true, decide_true, if_true]
        congr 1

/-- the exact effect of a cloud on a voxel -/
theorem insertCloud_effect (cfg : MrvmCfg) (m : VMap) (ps : List (InnerPoint Rat)) (origin : Vec3 Rat)
    (hfree : ∀ v c, m v = some c → c.needUpdate = true) :
    ∃ m', insertCloud cfg m (some ps) origin = .ok m' ∧ ∀ v,
      let o : Vec3 Rat := { origin with z := origin.z + cfg.zOffset }
      let k := passesBeforeHit cfg.resolution o v ps
      let hs := hitsIn cfg.resolution v ps
      let old := (m v).map (fun c => { c with prob := (updateProb cfg.miss)^[k] c.prob })
      m' v = if hs = [] then old
        else some { hs.foldl (fun c p => hitCell cfg p c) (old.getD {}) with needUpdate := true } := by
  by_cases hemp : ps = []
  · subst hemp
    refine ⟨m, by simp [insertCloud], ?_⟩
    intro v
    simp only [hitsIn, List.filter_nil, if_true, passesBeforeHit, List.takeWhile_nil, List.countP_nil,
      Function.iterate_zero, id_eq]
    cases m v <;> rfl
  obtain ⟨s', h1, h2, h3⟩ := insertPoints_effect cfg { origin with z := origin.z + cfg.zOffset } (m, []) ps
  refine ⟨releaseAll s'.1 s'.2, ?_, ?_⟩
  · simp only [insertCloud, List.isEmpty_iff, hemp, if_false]
    rw [h1]; rfl
  intro v
  simp only
  generalize ({ origin with z := origin.z + cfg.zOffset } : Vec3 Rat) = o at *
  rw [releaseAll_apply, h2, h3]
  simp only [List.nil_append, List.mem_map]
  by_cases hh : hitsIn cfg.resolution v ps = []
  · have hno : ∀ p ∈ ps, endOf cfg.resolution p ≠ v := by
      intro p hp he
      have : p ∈ hitsIn cfg.resolution v ps := List.mem_filter.2 ⟨hp, by simp [he]⟩
      rw [hh] at this; simp at this
    rw [if_neg (by rintro ⟨p, hp, he⟩; exact hno p hp he), if_pos hh]
    rw [fold_noHit cfg o v ps hno (m v) (fun x hx => hfree v x hx)]
    unfold passesBeforeHit
    rw [List.takeWhile_eq_self_iff.2 (by intro p hp; simpa using hno p hp)]
  · obtain ⟨pre, p, post, e1, e2, e3, e4⟩ := takeWhile_split cfg.resolution v ps hh
    rw [if_pos ⟨p, by rw [e1]; simp, e2⟩, if_neg hh]
    unfold passesBeforeHit
    rw [e4]
    have ehits : hitsIn cfg.resolution v ps = p :: hitsIn cfg.resolution v post := by
      rw [e1]
      unfold hitsIn
      rw [List.filter_append, List.filter_eq_nil_iff.2 (by intro q hq; simpa using e3 q hq)]
      simp [e2]
    rw [ehits]
    conv_lhs => rw [e1]
    rw [List.foldl_append, List.foldl_cons, fold_noHit cfg o v pre e3 (m v) (fun x hx => hfree v x hx)]
    have ep : ∀ c, pointEffect cfg o v c p = some (hitCell cfg p (c.getD {})) := by
      intro c; unfold pointEffect; rw [if_pos e2]
    rw [ep, fold_afterHit _ _ _ _ _ rfl]
    rfl

end Verif
