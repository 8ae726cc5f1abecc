import Verif.Spec.StaticKeep
import Verif.Props.Mrvm
import Mathlib.Tactic.IntervalCases
namespace Verif
open Spec

theorem bayes_mono {p q p' q' : Rat} (hp : 0 < p) (hp' : p' < 1) (hq : 0 < q) (hq' : q' < 1)
    (h1 : p ≤ p') (h2 : q ≤ q') : bayes p q ≤ bayes p' q' := by
  have d := bayes_den (p := p) (q := q) ⟨hp, by linarith⟩ ⟨hq, by linarith⟩
  have d' := bayes_den (p := p') (q := q') ⟨by linarith, hp'⟩ ⟨by linarith, hq'⟩
  unfold bayes
  rw [div_le_div_iff₀ d d']
  have k1 : p * q ≤ p' * q' := mul_le_mul h1 h2 hq.le (by linarith)
  have k2 : (1 - p') * (1 - q') ≤ (1 - p) * (1 - q) :=
    mul_le_mul (by linarith) (by linarith) (by linarith) (by linarith)
  have k3 : 0 ≤ p * q := mul_nonneg hp.le hq.le
  have k4 : 0 ≤ (1 - p') * (1 - q') := mul_nonneg (by linarith) (by linarith)
  have : p * q * ((1 - p') * (1 - q')) ≤ p' * q' * ((1 - p) * (1 - q)) :=
    mul_le_mul k1 k2 k4 (by linarith)
  linarith

theorem updateProb_mono {q q' : Rat} {n n' : Nat} (hn : 25 ≤ n) (hn' : n' ≤ 230) (hq : 0 < q)
    (hq' : q' < 1) (h1 : n ≤ n') (h2 : q ≤ q') : updateProb q n ≤ updateProb q' n' := by
  have hb : bayes (n / 256) q ≤ bayes (n' / 256) q' := by
    have a1 := prob_unit (n := n) ⟨hn, by omega⟩
    have a2 := prob_unit (n := n') ⟨by omega, hn'⟩
    have a3 : (n : Rat) ≤ n' := by exact_mod_cast h1
    exact bayes_mono a1.1 a2.2 hq hq' (by linarith) h2
  unfold updateProb
  rw [clampRat_eq _ _ _ (by norm_num), clampRat_eq _ _ _ (by norm_num)]
  apply Int.toNat_le_toNat
  apply Int.floor_le_floor
  have : max (1 / 10 : Rat) (min (bayes (n / 256) q) (9 / 10)) ≤
      max (1 / 10) (min (bayes (n' / 256) q') (9 / 10)) :=
    max_le_max le_rfl (min_le_min hb le_rfl)
  linarith

theorem iterate_range (q : Rat) (k : Nat) {n : Nat} (hn : 25 ≤ n ∧ n ≤ 230) :
    25 ≤ (updateProb q)^[k] n ∧ (updateProb q)^[k] n ≤ 230 := by
  cases k with
  | zero => exact hn
  | succ k => rw [Function.iterate_succ_apply']; exact updateProb_range _ _

theorem iterate_mono {q q' : Rat} (hq : 0 < q) (hq' : q' < 1) (h2 : q ≤ q') (k : Nat) {n n' : Nat}
    (hn : 25 ≤ n ∧ n ≤ 230) (hn' : 25 ≤ n' ∧ n' ≤ 230) (h1 : n ≤ n') :
    (updateProb q)^[k] n ≤ (updateProb q')^[k] n' := by
  induction k with
  | zero => exact h1
  | succ k ih =>
    rw [Function.iterate_succ_apply', Function.iterate_succ_apply']
    exact updateProb_mono (iterate_range q k hn).1 (iterate_range q' k hn').2 hq hq' ih h2

/-- More misses lower the value further. -/
theorem iterate_miss_le {q : Rat} (hq : 1 / 10 ≤ q ∧ q < 1 / 2) {k l : Nat} (h : k ≤ l) {n : Nat}
    (hn : 25 ≤ n ∧ n ≤ 230) : (updateProb q)^[l] n ≤ (updateProb q)^[k] n := by
  obtain ⟨d, rfl⟩ := Nat.exists_eq_add_of_le h
  rw [Nat.add_comm, Function.iterate_add_apply]
  exact (iterate_miss hq d (iterate_range q k hn)).1

theorem iterate_hit_le {q : Rat} (hq : 1 / 2 < q ∧ q ≤ 9 / 10) {k l : Nat} (h : k ≤ l) {n : Nat}
    (hn : 25 ≤ n ∧ n ≤ 230) : (updateProb q)^[k] n ≤ (updateProb q)^[l] n := by
  obtain ⟨d, rfl⟩ := Nat.exists_eq_add_of_le h
  rw [Nat.add_comm, Function.iterate_add_apply]
  exact (iterate_hit hq d (iterate_range q k hn)).1

/-- Each miss takes away at least one step, down to the lowest value. -/
theorem iterate_miss_down {q : Rat} (hq : 1 / 10 ≤ q ∧ q < 1 / 2) (k : Nat) {n : Nat}
    (hn : 25 ≤ n ∧ n ≤ 230) : (updateProb q)^[k] n ≤ max 25 (n - k) := by
  induction k with
  | zero => exact le_max_right _ _
  | succ k ih =>
    rw [Function.iterate_succ_apply']
    have hr := iterate_range q k hn
    rcases updateProb_miss hq hr with h | ⟨h1, h2⟩
    · omega
    · omega

/-- If the probability of a hit is at least 0.511, every hit adds at least one step. -/
theorem updateProb_hit_up {q : Rat} (hq : 511 / 1000 ≤ q ∧ q ≤ 9 / 10) {n : Nat}
    (hn : 25 ≤ n ∧ n < 230) : n + 1 ≤ updateProb q n := by
  have h1 : ∀ m : Fin 230, 25 ≤ m.val → m.val + 1 ≤ updateProb (511 / 1000) m.val := by decide +kernel
  refine le_trans (h1 ⟨n, hn.2⟩ hn.1) ?_
  exact updateProb_mono hn.1 (by omega) (by norm_num) (by linarith) le_rfl hq.1

theorem iterate_hit_up {q : Rat} (hq : 511 / 1000 ≤ q ∧ q ≤ 9 / 10) (k : Nat) {n : Nat}
    (hn : 25 ≤ n ∧ n ≤ 230) : min 230 (n + k) ≤ (updateProb q)^[k] n := by
  induction k with
  | zero => exact min_le_right _ _
  | succ k ih =>
    rw [Function.iterate_succ_apply']
    have hr := iterate_range q k hn
    by_cases h : (updateProb q)^[k] n = 230
    · have := updateProb_hit (q := q) ⟨by linarith [hq.1], hq.2⟩ hr
      omega
    · have := updateProb_hit_up hq (n := (updateProb q)^[k] n) ⟨hr.1, by omega⟩
      omega

/-! ### scans -/

theorem insertClouds_append (cfg : MrvmCfg) (m : VMap) (a b : List MapScan) :
    insertClouds cfg m (a ++ b) = (insertClouds cfg m a >>= fun m => insertClouds cfg m b) := by
  induction a generalizing m with
  | nil => rfl
  | cons s a ih =>
    simp only [List.cons_append, insertClouds]
    cases insertCloud cfg m s.1 s.2 with
    | ok m1 => simp only [Outcome.bind_ok]; exact ih m1
    | abort => rfl
    | ub => rfl

theorem goodMap_empty (n : Int) (r : Rat) : GoodMap n r (fun _ => none) := fun _ _ h => by cases h

/-- One scan, seen from one voxel. -/
theorem scan_step (cfg : MrvmCfg) (ha : Admissible cfg) (m m' : VMap)
    (hm : GoodMap cfg.maxPoints cfg.resolution m) (s : MapScan)
    (h : insertCloud cfg m s.1 s.2 = .ok m') (v : Voxel) :
    GoodMap cfg.maxPoints cfg.resolution m' ∧ ∃ k, k ≤ scanPasses cfg v s ∧
      (scanHits cfg v s = 0 → k = scanPasses cfg v s ∧
        m' v = (m v).map (fun c => { c with prob := (updateProb cfg.miss)^[k] c.prob })) ∧
      (scanHits cfg v s ≠ 0 → ∃ c', m' v = some c' ∧
        c'.prob = (updateProb cfg.hit)^[scanHits cfg v s]
          (((m v).map (fun c => (updateProb cfg.miss)^[k] c.prob)).getD 128)) := by
  obtain ⟨m1, g1, g2⟩ := insertCloud_good cfg ha m hm s.1 s.2
  rw [h] at g1
  cases g1
  refine ⟨g2, ?_⟩
  obtain ⟨c, o⟩ := s
  cases c with
  | none =>
    refine ⟨0, Nat.zero_le _, ?_, ?_⟩
    · intro _
      simp only [insertCloud, Outcome.ok.injEq] at h
      subst h
      refine ⟨rfl, ?_⟩
      cases m v <;> rfl
    · intro hc; exact absurd rfl hc
  | some ps =>
    obtain ⟨m1, e1, e2⟩ := insertCloud_effect cfg m ps o (fun v c h => (hm v c h).free)
    dsimp only at h
    rw [h] at e1
    cases e1
    have e := e2 v
    dsimp only at e
    have hsh : scanHits cfg v (some ps, o) = (hitsIn cfg.resolution v ps).length := rfl
    have hsp : scanPasses cfg v (some ps, o) =
        ps.countP (passes cfg.resolution { o with z := o.z + cfg.zOffset } v) := rfl
    refine ⟨passesBeforeHit cfg.resolution { o with z := o.z + cfg.zOffset } v ps, ?_, ?_, ?_⟩
    · rw [hsp]
      exact (List.takeWhile_sublist _).countP_le
    · intro h0
      rw [hsh] at h0
      have h0' := List.eq_nil_of_length_eq_zero h0
      rw [if_pos h0'] at e
      refine ⟨?_, e⟩
      rw [hsp]
      unfold passesBeforeHit
      rw [List.takeWhile_eq_self_iff.2]
      intro p hp
      by_contra hc
      have : p ∈ hitsIn cfg.resolution v ps := List.mem_filter.2 ⟨hp, by simpa using hc⟩
      rw [h0'] at this
      exact absurd this (by simp)
    · intro h0
      rw [hsh] at h0
      have h0' : hitsIn cfg.resolution v ps ≠ [] := fun hc => h0 (by rw [hc]; rfl)
      rw [if_neg h0'] at e
      refine ⟨_, e, ?_⟩
      dsimp only
      rw [(fold_hits cfg (hitsIn cfg.resolution v ps) _).1, hsh]
      congr 1
      cases m v <;> rfl

/-- Scans that do not hit the voxel: only the number of rays through it counts. -/
theorem scans_through (cfg : MrvmCfg) (ha : Admissible cfg) (v : Voxel) (later : List MapScan)
    (hno : ∀ s ∈ later, scanHits cfg v s = 0) (m m' : VMap)
    (hm : GoodMap cfg.maxPoints cfg.resolution m) (h : insertClouds cfg m later = .ok m') :
    GoodMap cfg.maxPoints cfg.resolution m' ∧
      m' v = (m v).map (fun c => { c with
        prob := (updateProb cfg.miss)^[(later.map (scanPasses cfg v)).sum] c.prob }) := by
  induction later generalizing m with
  | nil =>
    simp only [insertClouds, Outcome.ok.injEq] at h
    subst h
    refine ⟨hm, ?_⟩
    cases m v <;> rfl
  | cons s later ih =>
    simp only [insertClouds] at h
    obtain ⟨m1, h1, h2⟩ := (Outcome.bind_eq_ok _ _ _).mp h
    obtain ⟨g, k, -, hk, -⟩ := scan_step cfg ha m m1 hm s h1 v
    obtain ⟨rfl, hk⟩ := hk (hno s (by simp))
    obtain ⟨g', e⟩ := ih (fun s hs => hno s (by simp [hs])) m1 g h2
    refine ⟨g', ?_⟩
    rw [e, hk]
    cases m v with
    | none => rfl
    | some c =>
      simp only [Option.map_some, List.map_cons, List.sum_cons]
      rw [Nat.add_comm, Function.iterate_add_apply]

/-- The value of the voxel, that of a new one if it is not stored. -/
def probOf (m : VMap) (v : Voxel) : Nat := ((m v).map (fun c => c.prob)).getD 128

theorem probOf_range {cfg : MrvmCfg} {m : VMap} (hm : GoodMap cfg.maxPoints cfg.resolution m)
    (v : Voxel) : 25 ≤ probOf m v ∧ probOf m v ≤ 230 := by
  unfold probOf
  cases h : m v with
  | none => decide
  | some c => exact (hm v c h).prob_range

/-- Scans none of whose rays go through the voxel: only the number of hits counts. -/
theorem scans_hit (cfg : MrvmCfg) (ha : Admissible cfg) (v : Voxel) (later : List MapScan)
    (hno : ∀ s ∈ later, scanPasses cfg v s = 0) (m m' : VMap)
    (hm : GoodMap cfg.maxPoints cfg.resolution m) (h : insertClouds cfg m later = .ok m') :
    GoodMap cfg.maxPoints cfg.resolution m' ∧
      probOf m' v = (updateProb cfg.hit)^[(later.map (scanHits cfg v)).sum] (probOf m v) ∧
      ((later.map (scanHits cfg v)).sum ≠ 0 ∨ m v ≠ none → m' v ≠ none) := by
  induction later generalizing m with
  | nil =>
    simp only [insertClouds, Outcome.ok.injEq] at h
    subst h
    exact ⟨hm, rfl, by simp⟩
  | cons s later ih =>
    simp only [insertClouds] at h
    obtain ⟨m1, h1, h2⟩ := (Outcome.bind_eq_ok _ _ _).mp h
    obtain ⟨g, k, hk0, hk1, hk2⟩ := scan_step cfg ha m m1 hm s h1 v
    obtain ⟨g', e, e'⟩ := ih (fun s hs => hno s (by simp [hs])) m1 g h2
    rw [hno s (by simp)] at hk0 hk1
    obtain rfl : k = 0 := by omega
    refine ⟨g', ?_, ?_⟩
    · rw [e, List.map_cons, List.sum_cons, Nat.add_comm, Function.iterate_add_apply]
      congr 1
      by_cases h0 : scanHits cfg v s = 0
      · rw [h0]
        obtain ⟨-, hk⟩ := hk1 h0
        unfold probOf
        rw [hk]
        cases m v <;> rfl
      · obtain ⟨c', hc, hp⟩ := hk2 h0
        unfold probOf
        rw [hc]
        simp only [Option.map_some, Option.getD_some]
        rw [hp]
        congr 1
    · intro hh
      apply e'
      by_cases h0 : scanHits cfg v s = 0
      · rcases hh with hh | hh
        · left
          simpa [h0] using hh
        · right
          rw [(hk1 h0).2]
          cases hmv : m v with
          | none => exact absurd hmv hh
          | some c => simp
      · obtain ⟨c', hc, -⟩ := hk2 h0
        right
        rw [hc]; simp

/-! ### the exported cloud -/

theorem mean_bounds {l : List Rat} (h0 : l ≠ []) {a b : Rat} (h : ∀ x ∈ l, a ≤ x ∧ x < b) :
    a ≤ mean l ∧ mean l < b := by
  have key : ∀ l : List Rat, (∀ x ∈ l, a ≤ x ∧ x < b) →
      a * l.length ≤ l.sum ∧ (l ≠ [] → l.sum < b * l.length) ∧ l.sum ≤ b * l.length := by
    intro l
    induction l with
    | nil => intro _; simp
    | cons x l ih =>
      intro hl
      obtain ⟨h1, h2, h3⟩ := ih (fun y hy => hl y (by simp [hy]))
      have hx := hl x (by simp)
      simp only [List.sum_cons, List.length_cons]
      push_cast
      refine ⟨by linarith, fun _ => by linarith, by linarith⟩
  obtain ⟨h1, h2, -⟩ := key l h
  have hl : (0 : Rat) < l.length := by
    exact_mod_cast List.length_pos_iff.2 h0
  unfold mean
  exact ⟨by rw [le_div_iff₀ hl]; exact h1, by rw [div_lt_iff₀ hl]; exact h2 h0⟩

theorem inVoxel_unique {res : Rat} (hr : 0 < res) {v w : Voxel} {p : InnerPoint Rat}
    (h1 : InVoxel res v p) (h2 : InVoxel res w p) : v = w := by
  have key : ∀ (a b : Int) (x : Rat), a * res ≤ x → x < (a + 1) * res → b * res ≤ x →
      x < (b + 1) * res → a = b := by
    intro a b x k1 k2 k3 k4
    have l1 : (a : Rat) < b + 1 := lt_of_mul_lt_mul_right (by linarith) hr.le
    have l2 : (b : Rat) < a + 1 := lt_of_mul_lt_mul_right (by linarith) hr.le
    have l1' : a < b + 1 := by exact_mod_cast l1
    have l2' : b < a + 1 := by exact_mod_cast l2
    omega
  obtain ⟨⟨a1, a2⟩, ⟨a3, a4⟩, a5, a6⟩ := h1
  obtain ⟨⟨b1, b2⟩, ⟨b3, b4⟩, b5, b6⟩ := h2
  cases v; cases w
  congr 1
  · exact key _ _ _ a1 a2 b1 b2
  · exact key _ _ _ a3 a4 b3 b4
  · exact key _ _ _ a5 a6 b5 b6

/-- What a voxel contributes lies in the voxel. -/
theorem exported_inVoxel {cfg : MrvmCfg} {v : Voxel} {c : Cell}
    (hg : GoodCell cfg.maxPoints cfg.resolution v c) {out : List (InnerPoint Rat)}
    (h : exported cfg c out) : (∀ p ∈ out, InVoxel cfg.resolution v p) ∧ out ≠ [] := by
  unfold exported at h
  split at h
  · obtain ⟨q, rfl, hx, hy, hz, -⟩ := h
    refine ⟨?_, by simp⟩
    intro p hp
    obtain rfl := List.mem_singleton.1 hp
    have hne : ∀ f : InnerPoint Rat → Rat, c.points.map f ≠ [] := by
      intro f hc; exact hg.some_point (List.map_eq_nil_iff.1 hc)
    unfold InVoxel
    rw [hx, hy, hz]
    refine ⟨mean_bounds (hne _) ?_, mean_bounds (hne _) ?_, mean_bounds (hne _) ?_⟩
    all_goals
      intro x hx'
      obtain ⟨p', hp', rfl⟩ := List.mem_map.1 hx'
      have := hg.inside p' hp'
      first
        | exact this.1
        | exact this.2.1
        | exact this.2.2
  · obtain ⟨h1, -⟩ := h
    constructor
    · intro p hp
      have : (p.x, p.y, p.z) ∈ c.points.map (fun p => (p.x, p.y, p.z)) := by
        rw [← h1]; exact List.mem_map.2 ⟨p, hp, rfl⟩
      obtain ⟨p', hp', e⟩ := List.mem_map.1 this
      have hi := hg.inside p' hp'
      simp only [Prod.mk.injEq] at e
      unfold InVoxel at hi ⊢
      rw [e.1, e.2.1, e.2.2] at hi
      exact hi
    · intro hc
      rw [hc] at h1
      exact hg.some_point (List.map_eq_nil_iff.1 h1.symm)

theorem output_iff (cfg : MrvmCfg) (ha : Admissible cfg) (m : VMap)
    (hm : GoodMap cfg.maxPoints cfg.resolution m) (table : List (Voxel × Cell)) (hl : Lists m table)
    (t : Rat) (ht : 0 ≤ t ∧ t < 1) :
    ∃ out table', outputCloud cfg t table = .ok (out, table') ∧
      ∀ v, HasPointIn cfg v out ↔ ∃ c, m v = some c ∧ t * 256 < c.prob + 1 := by
  obtain ⟨out, table', h, ⟨parts, rfl, hn, h1, h2⟩, -, -⟩ := C53_output_partial cfg m hm table hl t ht
  refine ⟨_, table', h, ?_⟩
  intro v
  rw [← h1]
  constructor
  · rintro ⟨p, hp, hv⟩
    obtain ⟨e, he, hpe⟩ := List.mem_flatMap.1 hp
    obtain ⟨c, hc, hx⟩ := h2 e he
    have hi := (exported_inVoxel (hm _ _ hc) hx).1 p hpe
    rw [inVoxel_unique ha.res hv hi]
    exact List.mem_map.2 ⟨e, he, rfl⟩
  · intro hv
    obtain ⟨e, he, rfl⟩ := List.mem_map.1 hv
    obtain ⟨c, hc, hx⟩ := h2 e he
    obtain ⟨h3, h4⟩ := exported_inVoxel (hm _ _ hc) hx
    obtain ⟨p, hp⟩ := List.exists_mem_of_ne_nil _ h4
    exact ⟨p, List.mem_flatMap.2 ⟨e, he, hp⟩, h3 p hp⟩

end Verif
