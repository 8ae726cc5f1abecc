import Verif.Model.VoxelCasting
import Verif.Spec.VoxelCasting
import Mathlib.Tactic.Linarith
import Mathlib.Tactic.Ring
namespace Verif
open Spec

/-- abstract behaviour of one axis: number of steps `c k` done after `k` rounds -/
structure GoodAxis (d dm : Int) (c : Nat → Int) : Prop where
  zero : c 0 = 0
  step : ∀ k, c (k+1) = c k ∨ c (k+1) = c k + 1
  lo : ∀ k, -dm ≤ 2 * (dm * c k - k * d)
  hi : ∀ k, 2 * (dm * c k - k * d) ≤ dm

def iterN {α} (f : α → α) : Nat → α → α
  | 0, a => a
  | k+1, a => f (iterN f k a)

theorem iterN_comm {α} (f : α → α) (k : Nat) (a : α) : iterN f k (f a) = f (iterN f k a) := by
  induction k with
  | zero => rfl
  | succ k ih => simp [iterN, ih]

theorem bresLoop_eq (d : Voxel) (dm : Int) (s : Voxel) (i : Nat) (ax ay az : Int × Int) :
    (bresLoop d dm s i ax ay az).1 = (List.range (i+1)).map (fun k =>
      (⟨(iterN (bresAxis d.x dm s.x) k ax).2, (iterN (bresAxis d.y dm s.y) k ay).2,
        (iterN (bresAxis d.z dm s.z) k az).2⟩ : Voxel)) ∧
    (bresLoop d dm s i ax ay az).2 =
      ⟨(iterN (bresAxis d.x dm s.x) i ax).2, (iterN (bresAxis d.y dm s.y) i ay).2,
        (iterN (bresAxis d.z dm s.z) i az).2⟩ := by
  induction i generalizing ax ay az with
  | zero => simp [bresLoop, iterN]
  | succ i ih =>
    rw [List.range_succ_eq_map]
    simp only [bresLoop, ih, iterN_comm, List.map_cons, List.map_map]
    exact ⟨rfl, rfl⟩

theorem ddaLoop_eq (d : Voxel) (dm : Int) (s : Voxel) (i : Nat) (ax ay az : Int × Int) :
    (ddaLoop d dm s i ax ay az).1 = (List.range (i+1)).map (fun k =>
      (⟨(iterN (ddaAxis d.x dm s.x) k ax).2, (iterN (ddaAxis d.y dm s.y) k ay).2,
        (iterN (ddaAxis d.z dm s.z) k az).2⟩ : Voxel)) ∧
    (ddaLoop d dm s i ax ay az).2 =
      ⟨(iterN (ddaAxis d.x dm s.x) i ax).2, (iterN (ddaAxis d.y dm s.y) i ay).2,
        (iterN (ddaAxis d.z dm s.z) i az).2⟩ := by
  induction i generalizing ax ay az with
  | zero => simp [ddaLoop, iterN]
  | succ i ih =>
    rw [List.range_succ_eq_map]
    simp only [ddaLoop, ih, iterN_comm, List.map_cons, List.map_map]
    exact ⟨rfl, rfl⟩

theorem bresAxis_good (d dm s x : Int) (h0 : 0 ≤ d) (h1 : d ≤ dm) :
    ∃ c, GoodAxis d dm c ∧ ∀ k, (iterN (bresAxis d dm s) k (dm / 2, x)).2 = x + s * c k := by
  -- the step counter, run in lockstep
  let c : Nat → Int := fun k => (iterN (bresAxis d dm 1) k (dm / 2, 0)).2
  have key : ∀ k, (iterN (bresAxis d dm s) k (dm / 2, x)).1 = dm / 2 - k * d + c k * dm ∧
      (iterN (bresAxis d dm 1) k (dm / 2, 0)).1 = dm / 2 - k * d + c k * dm ∧
      (iterN (bresAxis d dm s) k (dm / 2, x)).2 = x + s * c k ∧
      0 ≤ dm / 2 - k * d + c k * dm ∧ (dm / 2 - k * d + c k * dm < dm ∨ dm = 0 ∧ c k = 0) := by
    intro k
    induction k with
    | zero => simp [iterN, c]; omega
    | succ k ih =>
      obtain ⟨h2, h3, h4, h5, h6⟩ := ih
      have e1 : c (k+1) = if dm / 2 - k * d + c k * dm - d < 0 then c k + 1 else c k := by
        simp only [c, iterN] at *
        unfold bresAxis at *
        simp only [h3]
        split <;> simp
      simp only [iterN, bresAxis, h2, h3, h4, e1]
      push_cast
      split <;> rename_i hneg
      · refine ⟨by ring, by ring, by ring, ?_, ?_⟩
        · linarith
        · rcases h6 with h6 | ⟨h6, h7⟩
          · left; linarith
          · exfalso; rw [h6, h7] at h5 hneg; have : d = 0 := by omega
            subst this; simp at hneg
      · refine ⟨by ring, by ring, rfl, by linarith, ?_⟩
        rcases h6 with h6 | ⟨h6, h7⟩
        · left; linarith
        · right; exact ⟨h6, h7⟩
  refine ⟨c, ⟨rfl, ?_, ?_, ?_⟩, fun k => (key k).2.2.1⟩
  · intro k
    simp only [c, iterN]
    generalize iterN (bresAxis d dm 1) k (dm / 2, 0) = w
    unfold bresAxis; simp only []; split <;> simp
  · intro k
    obtain ⟨_, _, _, h5, h6⟩ := key k
    have : 2 * (dm / 2) ≤ dm := by omega
    linarith
  · intro k
    obtain ⟨_, _, _, h5, h6⟩ := key k
    have : dm - 1 ≤ 2 * (dm / 2) := by omega
    rcases h6 with h6 | ⟨h6, h7⟩
    · linarith
    · subst h6; rw [h7]; have : d = 0 := by omega
      subst this; simp

theorem ddaAxis_good (d dm s x : Int) (h0 : 0 ≤ d) (h1 : d ≤ dm) (hpos : 0 < dm) :
    ∃ c, GoodAxis d dm c ∧ ∀ k, (iterN (ddaAxis d dm s) k (0, x)).2 = x + s * c k := by
  let c : Nat → Int := fun k => (iterN (ddaAxis d dm 1) k (0, 0)).2
  have key : ∀ k, (iterN (ddaAxis d dm s) k (0, x)).1 = k * d - c k * dm ∧
      (iterN (ddaAxis d dm 1) k (0, 0)).1 = k * d - c k * dm ∧
      (iterN (ddaAxis d dm s) k (0, x)).2 = x + s * c k ∧
      -dm ≤ 2 * (k * d - c k * dm) ∧ 2 * (k * d - c k * dm) < dm := by
    intro k
    induction k with
    | zero => simp [iterN, c]; omega
    | succ k ih =>
      obtain ⟨h2, h3, h4, h5, h6⟩ := ih
      have e1 : c (k+1) = if 2 * (k * d - c k * dm + d) ≥ dm then c k + 1 else c k := by
        simp only [c, iterN] at *
        unfold ddaAxis at *
        simp only [h3]
        split <;> simp
      simp only [iterN, ddaAxis, h2, h3, h4, e1]
      push_cast
      split <;> rename_i hneg
      · refine ⟨by ring, by ring, by ring, ?_, ?_⟩ <;> linarith
      · refine ⟨by ring, by ring, rfl, ?_, ?_⟩ <;> linarith
  refine ⟨c, ⟨rfl, ?_, ?_, ?_⟩, fun k => (key k).2.2.1⟩
  · intro k
    simp only [c, iterN]
    generalize iterN (ddaAxis d dm 1) k (0, 0) = w
    unfold ddaAxis; simp only []; split <;> simp
  · intro k
    obtain ⟨_, _, _, h5, h6⟩ := key k
    linarith
  · intro k
    obtain ⟨_, _, _, h5, h6⟩ := key k
    linarith

namespace GoodAxis
variable {d dm : Int} {c : Nat → Int}

theorem mono (g : GoodAxis d dm c) {k l : Nat} (h : k ≤ l) : c k ≤ c l := by
  induction h with
  | refl => exact le_refl _
  | step _ ih => rcases g.step _ with h | h <;> rw [h] <;> omega

theorem at_end (g : GoodAxis d dm c) (n : Nat) (hn : (n : Int) = dm) (h0 : 0 ≤ d) (h1 : d ≤ dm) :
    c n = d := by
  rcases Nat.eq_zero_or_pos n with h | h
  · subst h; rw [g.zero]; omega
  · have hp : 0 < dm := by omega
    have := g.lo n; have := g.hi n
    rw [hn] at *
    have e : 2 * (dm * c n - dm * d) = dm * (2 * (c n - d)) := by ring
    by_contra hne
    rcases lt_or_gt_of_ne hne with h | h <;> nlinarith

theorem diag (g : GoodAxis d dm c) (hd : d = dm) (hp : 0 < dm) (k : Nat) : c k = k := by
  subst hd
  have := g.lo k; have := g.hi k
  by_contra hne
  rcases lt_or_gt_of_ne hne with h | h <;> nlinarith

end GoodAxis

/-- the per-axis part of `IsRay` -/
theorem axis_facts (a b d s : Int) (n : Nat) (c : Nat → Int)
    (hd : d = (b - a).natAbs) (hs : d ≠ 0 → s = (b - a).sign)
    (hdm : d ≤ n) (g : GoodAxis d n c) :
    a + s * c n = b ∧
    (∀ k, k ≤ n → Between a (a + s * c k) b) ∧
    (∀ k, k < n → AxisStep n a b (a + s * c k) (a + s * c (k+1))) ∧
    (∀ k, k ≤ n → NearLine n k a (a + s * c k) b) := by
  have h0 : 0 ≤ d := by omega
  have hend := g.at_end n rfl h0 hdm
  have hc0 : ∀ k, 0 ≤ c k := fun k => by have := g.mono (Nat.zero_le k); rw [g.zero] at this; exact this
  have hcd : ∀ k, k ≤ n → c k ≤ d := fun k hk => by have := g.mono hk; rw [hend] at this; exact this
  by_cases hz : d = 0
  · have hba : b - a = 0 := by omega
    have hab : b = a := by omega
    have hck : ∀ k, k ≤ n → c k = 0 := fun k hk => by have := hc0 k; have := hcd k hk; omega
    subst hab
    refine ⟨by rw [hend, hz]; simp, ?_, ?_, ?_⟩
    · intro k hk; rw [hck k hk]; left; simp
    · intro k hk; rw [hck k (by omega), hck (k+1) (by omega)]
      unfold AxisStep; simp
    · intro k hk; rw [hck k hk]; unfold NearLine; simp
  · have hs' := hs hz
    rcases lt_or_gt_of_ne (show b - a ≠ 0 by omega) with hneg | hpos
    · have hs1 : s = -1 := by rw [hs']; exact Int.sign_eq_neg_one_of_neg hneg
      have hdba : d = a - b := by omega
      refine ⟨by rw [hend, hs1]; omega, ?_, ?_, ?_⟩
      · intro k hk; have := hc0 k; have := hcd k hk; right; rw [hs1]; constructor <;> omega
      · intro k hk
        unfold AxisStep
        rw [← hs', hs1]
        refine ⟨?_, ?_⟩
        · rcases g.step k with h | h <;> rw [h] <;> omega
        · intro hn
          have := g.diag (by omega) (by omega) k
          have := g.diag (by omega) (by omega) (k+1)
          omega
      · intro k hk
        unfold NearLine
        have e : (n : Int) * (a + s * c k - a) - k * (b - a) = -(n * c k - k * d) := by
          rw [hs1, hdba]; ring
        have h1 := g.lo k
        have h2 := g.hi k
        rw [e, abs_neg]
        rcases abs_cases ((n : Int) * c k - k * d) with h | h <;> linarith
    · have hs1 : s = 1 := by rw [hs']; exact Int.sign_eq_one_of_pos hpos
      have hdba : d = b - a := by omega
      refine ⟨by rw [hend, hs1]; omega, ?_, ?_, ?_⟩
      · intro k hk; have := hc0 k; have := hcd k hk; left; rw [hs1]; constructor <;> omega
      · intro k hk
        unfold AxisStep
        rw [← hs', hs1]
        refine ⟨?_, ?_⟩
        · rcases g.step k with h | h <;> rw [h] <;> omega
        · intro hn
          have := g.diag (by omega) (by omega) k
          have := g.diag (by omega) (by omega) (k+1)
          omega
      · intro k hk
        unfold NearLine
        have e : (n : Int) * (a + s * c k - a) - k * (b - a) = (n * c k - k * d) := by
          rw [hs1, hdba]; ring
        have h1 := g.lo k
        have h2 := g.hi k
        rw [e]
        rcases abs_cases ((n : Int) * c k - k * d) with h | h <;> linarith

theorem isRay_of_axes (a b s : Voxel) (cx cy cz : Nat → Int)
    (hsx : (b.x - a.x) ≠ 0 → s.x = (b.x - a.x).sign)
    (hsy : (b.y - a.y) ≠ 0 → s.y = (b.y - a.y).sign)
    (hsz : (b.z - a.z) ≠ 0 → s.z = (b.z - a.z).sign)
    (gx : GoodAxis (b.x - a.x).natAbs (chebyshev a b) cx)
    (gy : GoodAxis (b.y - a.y).natAbs (chebyshev a b) cy)
    (gz : GoodAxis (b.z - a.z).natAbs (chebyshev a b) cz) :
    IsRay a b ((List.range (chebyshev a b + 1)).map (fun k =>
      (⟨a.x + s.x * cx k, a.y + s.y * cy k, a.z + s.z * cz k⟩ : Voxel))) ∧
    (⟨a.x + s.x * cx (chebyshev a b), a.y + s.y * cy (chebyshev a b),
      a.z + s.z * cz (chebyshev a b)⟩ : Voxel) = b := by
  have mx : (b.x - a.x).natAbs ≤ chebyshev a b := by unfold chebyshev; omega
  have my : (b.y - a.y).natAbs ≤ chebyshev a b := by unfold chebyshev; omega
  have mz : (b.z - a.z).natAbs ≤ chebyshev a b := by unfold chebyshev; omega
  obtain ⟨x1, x2, x3, x4⟩ := axis_facts a.x b.x _ s.x (chebyshev a b) cx rfl
    (fun h => hsx (by omega)) (by omega) gx
  obtain ⟨y1, y2, y3, y4⟩ := axis_facts a.y b.y _ s.y (chebyshev a b) cy rfl
    (fun h => hsy (by omega)) (by omega) gy
  obtain ⟨z1, z2, z3, z4⟩ := axis_facts a.z b.z _ s.z (chebyshev a b) cz rfl
    (fun h => hsz (by omega)) (by omega) gz
  have hb : (⟨a.x + s.x * cx (chebyshev a b), a.y + s.y * cy (chebyshev a b),
      a.z + s.z * cz (chebyshev a b)⟩ : Voxel) = b := by
    rw [x1, y1, z1]
  refine ⟨⟨?_, ?_, by simp, ?_, ?_, ?_⟩, hb⟩
  · rw [List.range_succ_eq_map]
    simp [gx.zero, gy.zero, gz.zero]
  · rw [List.range_succ]
    simp [hb]
  · rw [List.isChain_iff_getElem]
    intro i hi
    simp only [List.length_map, List.length_range] at hi
    simp only [List.getElem_map, List.getElem_range]
    exact ⟨x3 i (by omega), y3 i (by omega), z3 i (by omega)⟩
  · intro p hp
    simp only [List.mem_map, List.mem_range] at hp
    obtain ⟨k, hk, rfl⟩ := hp
    exact ⟨x2 k (by omega), y2 k (by omega), z2 k (by omega)⟩
  · intro k p hp
    rw [List.getElem?_map] at hp
    simp only [Option.map_eq_some_iff] at hp
    obtain ⟨k', hk', rfl⟩ := hp
    obtain ⟨h1, h2⟩ := List.getElem?_eq_some_iff.mp hk'
    simp only [List.getElem_range] at h2
    subst h2
    simp only [List.length_range] at h1
    exact ⟨x4 k (by omega), y4 k (by omega), z4 k (by omega)⟩

theorem voxel_bounds {step : Rat} (hs : 0 < step) (t : Rat) :
    ((t / step).floor : Rat) * step ≤ t ∧ t < ((t / step).floor + 1) * step := by
  have h1 : ((t / step).floor : Rat) ≤ t / step := by
    rw [← Rat.le_floor_iff]
  have h2 : t / step < (t / step).floor + 1 := Int.lt_floor_add_one (t / step)
  rw [le_div_iff₀ hs] at h1
  rw [div_lt_iff₀ hs] at h2
  exact ⟨h1, h2⟩

theorem bresenham_isRay (v0 v1 : Voxel) : ∃ p, bresenham v0 v1 = .ok p ∧ IsRay v0 v1 p := by
  unfold bresenham
  simp only []
  have hdm : max (max ((v1.x - v0.x).natAbs : Int) (v1.y - v0.y).natAbs) (v1.z - v0.z).natAbs
      = (chebyshev v0 v1 : Int) := by unfold chebyshev; omega
  have mx : (v1.x - v0.x).natAbs ≤ chebyshev v0 v1 := by unfold chebyshev; omega
  have my : (v1.y - v0.y).natAbs ≤ chebyshev v0 v1 := by unfold chebyshev; omega
  have mz : (v1.z - v0.z).natAbs ≤ chebyshev v0 v1 := by unfold chebyshev; omega
  rw [hdm, Int.toNat_natCast]
  obtain ⟨cx, gx, ex⟩ := bresAxis_good (v1.x - v0.x).natAbs (chebyshev v0 v1)
    (if v0.x < v1.x then 1 else -1) v0.x (by omega) (by omega)
  obtain ⟨cy, gy, ey⟩ := bresAxis_good (v1.y - v0.y).natAbs (chebyshev v0 v1)
    (if v0.y < v1.y then 1 else -1) v0.y (by omega) (by omega)
  obtain ⟨cz, gz, ez⟩ := bresAxis_good (v1.z - v0.z).natAbs (chebyshev v0 v1)
    (if v0.z < v1.z then 1 else -1) v0.z (by omega) (by omega)
  obtain ⟨hr, he⟩ := isRay_of_axes v0 v1 ⟨if v0.x < v1.x then 1 else -1,
    if v0.y < v1.y then 1 else -1, if v0.z < v1.z then 1 else -1⟩ cx cy cz
    (fun h => by
      simp only []; split
      · exact (Int.sign_eq_one_of_pos (by omega)).symm
      · exact (Int.sign_eq_neg_one_of_neg (by omega)).symm)
    (fun h => by
      simp only []; split
      · exact (Int.sign_eq_one_of_pos (by omega)).symm
      · exact (Int.sign_eq_neg_one_of_neg (by omega)).symm)
    (fun h => by
      simp only []; split
      · exact (Int.sign_eq_one_of_pos (by omega)).symm
      · exact (Int.sign_eq_neg_one_of_neg (by omega)).symm) gx gy gz
  have hl := bresLoop_eq ⟨(v1.x - v0.x).natAbs, (v1.y - v0.y).natAbs, (v1.z - v0.z).natAbs⟩
    (chebyshev v0 v1) ⟨if v0.x < v1.x then 1 else -1,
    if v0.y < v1.y then 1 else -1, if v0.z < v1.z then 1 else -1⟩ (chebyshev v0 v1)
    ((chebyshev v0 v1 : Int) / 2, v0.x) ((chebyshev v0 v1 : Int) / 2, v0.y)
    ((chebyshev v0 v1 : Int) / 2, v0.z)
  simp only [ex, ey, ez, he] at hl
  refine ⟨_, ?_, hr⟩
  rw [hl.1, hl.2]
  simp [Outcome.check]

theorem dda_isRay (v0 v1 : Voxel) : ∃ p, dda v0 v1 = .ok p ∧ IsRay v0 v1 p := by
  unfold dda
  simp only []
  have eabs : ∀ t : Int, (if t < 0 then -t else t) = (t.natAbs : Int) := by
    intro t; split <;> omega
  simp only [eabs]
  have hdm : (if (if ((v1.x - v0.x).natAbs : Int) > (v1.y - v0.y).natAbs
        then ((v1.x - v0.x).natAbs : Int) else (v1.y - v0.y).natAbs) > (v1.z - v0.z).natAbs
      then (if ((v1.x - v0.x).natAbs : Int) > (v1.y - v0.y).natAbs
        then ((v1.x - v0.x).natAbs : Int) else (v1.y - v0.y).natAbs)
      else ((v1.z - v0.z).natAbs : Int)) = (chebyshev v0 v1 : Int) := by
    unfold chebyshev
    split <;> split <;> omega
  have mx : (v1.x - v0.x).natAbs ≤ chebyshev v0 v1 := by unfold chebyshev; omega
  have my : (v1.y - v0.y).natAbs ≤ chebyshev v0 v1 := by unfold chebyshev; omega
  have mz : (v1.z - v0.z).natAbs ≤ chebyshev v0 v1 := by unfold chebyshev; omega
  rw [hdm, Int.toNat_natCast]
  rcases Nat.eq_zero_or_pos (chebyshev v0 v1) with h0 | hpos
  · -- start and end voxel coincide
    have hv : v0 = v1 := by
      unfold chebyshev at h0
      ext <;> omega
    subst hv
    rw [h0]
    refine ⟨[v0], by simp [ddaLoop, Outcome.check], ?_⟩
    refine ⟨rfl, rfl, by simp [h0], by simp, ?_, ?_⟩
    · intro p hp; simp at hp; subst hp; simp [Between]
    · intro k p hp
      obtain ⟨hk, rfl⟩ := List.getElem?_eq_some_iff.mp hp
      simp [NearLine]
  · obtain ⟨cx, gx, ex⟩ := ddaAxis_good (v1.x - v0.x).natAbs (chebyshev v0 v1)
      (if v1.x - v0.x ≥ 0 then 1 else -1) v0.x (by omega) (by omega) (by omega)
    obtain ⟨cy, gy, ey⟩ := ddaAxis_good (v1.y - v0.y).natAbs (chebyshev v0 v1)
      (if v1.y - v0.y ≥ 0 then 1 else -1) v0.y (by omega) (by omega) (by omega)
    obtain ⟨cz, gz, ez⟩ := ddaAxis_good (v1.z - v0.z).natAbs (chebyshev v0 v1)
      (if v1.z - v0.z ≥ 0 then 1 else -1) v0.z (by omega) (by omega) (by omega)
    obtain ⟨hr, he⟩ := isRay_of_axes v0 v1 ⟨if v1.x - v0.x ≥ 0 then 1 else -1,
      if v1.y - v0.y ≥ 0 then 1 else -1, if v1.z - v0.z ≥ 0 then 1 else -1⟩ cx cy cz
      (fun h => by
        simp only []; split
        · exact (Int.sign_eq_one_of_pos (by omega)).symm
        · exact (Int.sign_eq_neg_one_of_neg (by omega)).symm)
      (fun h => by
        simp only []; split
        · exact (Int.sign_eq_one_of_pos (by omega)).symm
        · exact (Int.sign_eq_neg_one_of_neg (by omega)).symm)
      (fun h => by
        simp only []; split
        · exact (Int.sign_eq_one_of_pos (by omega)).symm
        · exact (Int.sign_eq_neg_one_of_neg (by omega)).symm) gx gy gz
    have hl := ddaLoop_eq ⟨(v1.x - v0.x).natAbs, (v1.y - v0.y).natAbs, (v1.z - v0.z).natAbs⟩
      (chebyshev v0 v1) ⟨if v1.x - v0.x ≥ 0 then 1 else -1,
      if v1.y - v0.y ≥ 0 then 1 else -1, if v1.z - v0.z ≥ 0 then 1 else -1⟩ (chebyshev v0 v1)
      (0, v0.x) (0, v0.y) (0, v0.z)
    simp only [ex, ey, ez, he] at hl
    refine ⟨_, ?_, hr⟩
    rw [hl.1, hl.2]
    simp [Outcome.check]

end Verif
