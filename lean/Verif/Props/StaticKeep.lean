import Verif.Proofs.StaticKeep
/-
C90: the static map keeps what stays and drops what moves.
-/
namespace Verif
open Spec

/-- Splitting a history of scans. -/
theorem history_split (cfg : MrvmCfg) (ha : Admissible cfg) (earlier later : List MapScan) :
    ∃ m0 m, insertClouds cfg (fun _ => none) (earlier ++ later) = .ok m ∧
      insertClouds cfg m0 later = .ok m ∧ GoodMap cfg.maxPoints cfg.resolution m0 ∧
      (earlier = [] → m0 = fun _ => none) := by
  obtain ⟨m0, h0, g0⟩ := C25_invariant_partial cfg ha earlier
  obtain ⟨m, h, -⟩ := C25_invariant_partial cfg ha (earlier ++ later)
  refine ⟨m0, m, h, ?_, g0, ?_⟩
  · rw [insertClouds_append, h0] at h
    exact h
  · rintro rfl
    simp only [insertClouds, Outcome.ok.injEq] at h0
    exact h0.symm

theorem removed_of_bound (cfg : MrvmCfg) (ha : Admissible cfg) (earlier later : List MapScan) (v : Voxel)
    (hno : ∀ s ∈ later, scanHits cfg v s = 0) (t : Rat) (ht : 0 ≤ t ∧ t < 1) (b : Nat)
    (hb : ∀ n, 25 ≤ n ∧ n ≤ 230 →
      (updateProb cfg.miss)^[(later.map (scanPasses cfg v)).sum] n ≤ b) (hbt : (b : Rat) + 1 ≤ t * 256) :
    ∃ m, insertClouds cfg (fun _ => none) (earlier ++ later) = .ok m ∧
      ∀ table, Lists m table → ∃ out table', outputCloud cfg t table = .ok (out, table') ∧
        ¬ HasPointIn cfg v out := by
  obtain ⟨m0, m, h, h', g0, -⟩ := history_split cfg ha earlier later
  refine ⟨m, h, ?_⟩
  intro table hl
  obtain ⟨g, e⟩ := scans_through cfg ha v later hno m0 m g0 h'
  obtain ⟨out, table', ho, hiff⟩ := output_iff cfg ha m g table hl t ht
  refine ⟨out, table', ho, ?_⟩
  rw [hiff]
  rintro ⟨c, hc, hp⟩
  rw [e] at hc
  cases hmv : m0 v with
  | none => rw [hmv] at hc; exact absurd hc (by simp)
  | some c0 =>
    rw [hmv] at hc
    simp only [Option.map_some, Option.some.injEq] at hc
    subst hc
    dsimp only at hp
    have := hb c0.prob (g0 v c0 hmv).prob_range
    have h2 : (((updateProb cfg.miss)^[(later.map (scanPasses cfg v)).sum] c0.prob : Nat) : Rat) ≤ b := by
      exact_mod_cast this
    linarith

theorem kept_of_bound (cfg : MrvmCfg) (m : VMap) (ha : Admissible cfg)
    (g : GoodMap cfg.maxPoints cfg.resolution m) (v : Voxel) (t : Rat) (ht : 0 ≤ t ∧ t < 1)
    (hs : m v ≠ none) (hp : t * 256 < (probOf m v : Rat) + 1) (table : List (Voxel × Cell))
    (hl : Lists m table) : ∃ out table', outputCloud cfg t table = .ok (out, table') ∧
        HasPointIn cfg v out := by
  obtain ⟨out, table', ho, hiff⟩ := output_iff cfg ha m g table hl t ht
  refine ⟨out, table', ho, (hiff v).2 ?_⟩
  cases hmv : m v with
  | none => exact absurd hmv hs
  | some c =>
    unfold probOf at hp
    rw [hmv] at hp
    exact ⟨c, rfl, hp⟩

/-- Something that has moved away is dropped: whatever was seen earlier, if later scans have no
point in a voxel and at least 205 of their rays go through it, the exported map has no point there.
For every admissible setting and every threshold of at least 26/256. -/
theorem C90_removed (cfg : MrvmCfg) (ha : Admissible cfg) (earlier later : List MapScan) (v : Voxel)
    (hno : ∀ s ∈ later, scanHits cfg v s = 0)
    (hmany : 205 ≤ (later.map (scanPasses cfg v)).sum) (t : Rat) (ht : 26 / 256 ≤ t ∧ t < 1) :
    ∃ m, insertClouds cfg (fun _ => none) (earlier ++ later) = .ok m ∧
      ∀ table, Lists m table → ∃ out table', outputCloud cfg t table = .ok (out, table') ∧
        ¬ HasPointIn cfg v out := by
  refine removed_of_bound cfg ha earlier later v hno t ⟨by linarith [ht.1], ht.2⟩ 25 ?_
    (by norm_num; linarith [ht.1])
  intro n hn
  have := iterate_miss_down ha.miss (later.map (scanPasses cfg v)).sum hn
  omega

/-- With the probability of a miss of the supplied configurations (0.48) and their threshold (0.57)
22 rays are enough. -/
theorem C90_removed_default (cfg : MrvmCfg) (ha : Admissible cfg) (hmiss : cfg.miss ≤ 48 / 100)
    (earlier later : List MapScan) (v : Voxel) (hno : ∀ s ∈ later, scanHits cfg v s = 0)
    (hmany : 22 ≤ (later.map (scanPasses cfg v)).sum) (t : Rat) (ht : 57 / 100 ≤ t ∧ t < 1) :
    ∃ m, insertClouds cfg (fun _ => none) (earlier ++ later) = .ok m ∧
      ∀ table, Lists m table → ∃ out table', outputCloud cfg t table = .ok (out, table') ∧
        ¬ HasPointIn cfg v out := by
  refine removed_of_bound cfg ha earlier later v hno t ⟨by linarith [ht.1], ht.2⟩ 140 ?_
    (by norm_num; linarith [ht.1])
  intro n hn
  refine le_trans (iterate_miss_le ha.miss hmany hn) ?_
  refine le_trans (iterate_mono (by linarith [ha.miss.1]) (by norm_num) hmiss 22 hn
    (n' := 230) (by norm_num) hn.2) ?_
  decide +kernel

/-- Something that stays is kept: whatever was seen earlier, if at least 205 points of later scans
are in a voxel and none of their rays goes through it, the exported map has a point there.  For every
probability of a hit of at least 0.511 and every threshold up to 0.9. -/
theorem C90_kept_partial (cfg : MrvmCfg) (ha : Admissible cfg) (hhit : 511 / 1000 ≤ cfg.hit)
    (earlier later : List MapScan) (v : Voxel) (hno : ∀ s ∈ later, scanPasses cfg v s = 0)
    (hmany : 205 ≤ (later.map (scanHits cfg v)).sum) (t : Rat) (ht : 0 ≤ t ∧ t ≤ 9 / 10) :
    ∃ m, insertClouds cfg (fun _ => none) (earlier ++ later) = .ok m ∧
      ∀ table, Lists m table → ∃ out table', outputCloud cfg t table = .ok (out, table') ∧
        HasPointIn cfg v out := by
  obtain ⟨m0, m, h, h', g0, -⟩ := history_split cfg ha earlier later
  refine ⟨m, h, ?_⟩
  obtain ⟨g, e, e'⟩ := scans_hit cfg ha v later hno m0 m g0 h'
  refine kept_of_bound cfg m ha g v t ⟨ht.1, by linarith [ht.2]⟩ (e' (Or.inl (by omega))) ?_
  have := iterate_hit_up ⟨hhit, ha.hit.2⟩ (later.map (scanHits cfg v)).sum (probOf_range g0 v)
  have h2 : 230 ≤ probOf m v := by
    rw [e]
    have := (probOf_range g0 v).1
    omega
  have h3 : (230 : Rat) ≤ probOf m v := by exact_mod_cast h2
  linarith [ht.2]

/-- With the probability of a hit of the supplied configurations (0.55) and thresholds up to 0.6
fourteen points are enough after any history, and three for a voxel that was never seen. -/
theorem C90_kept_default (cfg : MrvmCfg) (ha : Admissible cfg) (hhit : 55 / 100 ≤ cfg.hit)
    (earlier later : List MapScan) (v : Voxel) (hno : ∀ s ∈ later, scanPasses cfg v s = 0)
    (hmany : 14 ≤ (later.map (scanHits cfg v)).sum ∨
      (earlier = [] ∧ 3 ≤ (later.map (scanHits cfg v)).sum)) (t : Rat) (ht : 0 ≤ t ∧ t ≤ 6 / 10) :
    ∃ m, insertClouds cfg (fun _ => none) (earlier ++ later) = .ok m ∧
      ∀ table, Lists m table → ∃ out table', outputCloud cfg t table = .ok (out, table') ∧
        HasPointIn cfg v out := by
  obtain ⟨m0, m, h, h', g0, hnil⟩ := history_split cfg ha earlier later
  refine ⟨m, h, ?_⟩
  obtain ⟨g, e, e'⟩ := scans_hit cfg ha v later hno m0 m g0 h'
  refine kept_of_bound cfg m ha g v t ⟨ht.1, by linarith [ht.2]⟩
    (e' (Or.inl (by rcases hmany with h | ⟨-, h⟩ <;> omega))) ?_
  have hr := probOf_range g0 v
  have h2 : 153 ≤ probOf m v := by
    rw [e]
    rcases hmany with hk | ⟨he, hk⟩
    · refine le_trans ?_ (iterate_hit_le ha.hit hk hr)
      refine le_trans ?_ (iterate_mono (by norm_num) (by linarith [ha.hit.2]) hhit 14
        (n := 25) (by norm_num) hr hr.1)
      decide +kernel
    · rw [show probOf m0 v = 128 from by rw [hnil he]; rfl]
      refine le_trans ?_ (iterate_hit_le ha.hit hk (by norm_num))
      refine le_trans ?_ (iterate_mono (by norm_num) (by linarith [ha.hit.2]) hhit 3
        (n := 128) (by norm_num) (by norm_num) le_rfl)
      decide +kernel
  have h3 : (153 : Rat) ≤ probOf m v := by exact_mod_cast h2
  linarith [ht.2]

/-- A scan with a point in the voxel and at most one ray through it. -/
theorem graze_step (cfg : MrvmCfg) (ha : Admissible cfg) (hhit : 55 / 100 ≤ cfg.hit)
    (hmiss : 48 / 100 ≤ cfg.miss) (v : Voxel) (later : List MapScan)
    (hl : ∀ s ∈ later, scanPasses cfg v s ≤ 1 ∧ 1 ≤ scanHits cfg v s) (m m' : VMap)
    (hm : GoodMap cfg.maxPoints cfg.resolution m) (h : insertClouds cfg m later = .ok m') :
    GoodMap cfg.maxPoints cfg.resolution m' ∧
      (fun n => updateProb (55 / 100) (updateProb (48 / 100) n))^[later.length] 25 ≤ probOf m' v ∧
      (later ≠ [] → m' v ≠ none) := by
  suffices H : ∀ b, 25 ≤ b ∧ b ≤ 230 → b ≤ probOf m v → GoodMap cfg.maxPoints cfg.resolution m' ∧
      (fun n => updateProb (55 / 100) (updateProb (48 / 100) n))^[later.length] b ≤ probOf m' v ∧
      (later ≠ [] ∨ m v ≠ none → m' v ≠ none) by
    obtain ⟨h1, h2, h3⟩ := H 25 (by norm_num) (probOf_range hm v).1
    exact ⟨h1, h2, fun h => h3 (Or.inl h)⟩
  induction later generalizing m with
  | nil =>
    intro b _ hb
    simp only [insertClouds, Outcome.ok.injEq] at h
    subst h
    exact ⟨hm, hb, by simp⟩
  | cons s later ih =>
    intro b hbr hb
    simp only [insertClouds] at h
    obtain ⟨m1, h1, h2⟩ := (Outcome.bind_eq_ok _ _ _).mp h
    obtain ⟨g, k, hk0, -, hk2⟩ := scan_step cfg ha m m1 hm s h1 v
    obtain ⟨hs1, hs2⟩ := hl s (by simp)
    obtain ⟨c', hc, hp⟩ := hk2 (by omega)
    have hr := probOf_range hm v
    have hmiss' : ((m v).map (fun c => (updateProb cfg.miss)^[k] c.prob)).getD 128 ≥
        updateProb (48 / 100) b ∧ 25 ≤ ((m v).map (fun c => (updateProb cfg.miss)^[k] c.prob)).getD 128 ∧
        ((m v).map (fun c => (updateProb cfg.miss)^[k] c.prob)).getD 128 ≤ 230 := by
      unfold probOf at hb hr
      cases hmv : m v with
      | none =>
        rw [hmv] at hb
        simp only [Option.map_none, Option.getD_none] at hb ⊢
        refine ⟨?_, by norm_num, by norm_num⟩
        rcases updateProb_miss (q := 48 / 100) (by norm_num) hbr with h | ⟨h, h'⟩ <;> omega
      | some c =>
        rw [hmv] at hb hr
        simp only [Option.map_some, Option.getD_some] at hb hr ⊢
        refine ⟨?_, iterate_range _ _ hr⟩
        refine le_trans ?_ (iterate_miss_le ha.miss (show k ≤ 1 by omega) hr)
        exact updateProb_mono hbr.1 hr.2 (by norm_num) (by linarith [ha.miss.2]) hb hmiss
    have hb1 : updateProb (55 / 100) (updateProb (48 / 100) b) ≤ probOf m1 v := by
      unfold probOf
      rw [hc]
      simp only [Option.map_some, Option.getD_some]
      rw [hp]
      refine le_trans ?_ (iterate_hit_le ha.hit (show 1 ≤ scanHits cfg v s by omega) hmiss'.2)
      exact updateProb_mono (updateProb_range _ _).1 hmiss'.2.2 (by norm_num)
        (by linarith [ha.hit.2]) hmiss'.1 hhit
    obtain ⟨i1, i2, i3⟩ := ih (fun s hs => hl s (by simp [hs])) m1 g h2 _ (updateProb_range _ _) hb1
    refine ⟨i1, ?_, fun _ => i3 (Or.inr (by rw [hc]; simp))⟩
    rw [List.length_cons, Function.iterate_succ_apply]
    exact i2

/-- A surface is kept although rays graze it: with the supplied probabilities, if each of the last 26
scans has a point in the voxel and at most one ray through it, the map has a point there. -/
theorem C90_grazed (cfg : MrvmCfg) (ha : Admissible cfg) (hhit : 55 / 100 ≤ cfg.hit)
    (hmiss : 48 / 100 ≤ cfg.miss) (earlier later : List MapScan) (v : Voxel)
    (hl : ∀ s ∈ later, scanPasses cfg v s ≤ 1 ∧ 1 ≤ scanHits cfg v s) (hmany : later.length = 26)
    (t : Rat) (ht : 0 ≤ t ∧ t ≤ 6 / 10) :
    ∃ m, insertClouds cfg (fun _ => none) (earlier ++ later) = .ok m ∧
      ∀ table, Lists m table → ∃ out table', outputCloud cfg t table = .ok (out, table') ∧
        HasPointIn cfg v out := by
  obtain ⟨m0, m, h, h', g0, -⟩ := history_split cfg ha earlier later
  refine ⟨m, h, ?_⟩
  obtain ⟨g, e, e'⟩ := graze_step cfg ha hhit hmiss v later hl m0 m g0 h'
  refine kept_of_bound cfg m ha g v t ⟨ht.1, by linarith [ht.2]⟩
    (e' (by intro hc; rw [hc] at hmany; simp at hmany)) ?_
  rw [hmany] at e
  have h2 : 153 ≤ probOf m v := le_trans (by decide +kernel) e
  have h3 : (153 : Rat) ≤ probOf m v := by exact_mod_cast h2
  linarith [ht.2]

/-- The supplied probabilities: the table index does not depend on the rounding of the logarithms,
as long as the computed probability is off by less than 1e-5. -/
theorem C90_rounding (n : Nat) (hn : 25 ≤ n ∧ n ≤ 230) (y : Rat) :
    (|y - bayes (n / 256) (55 / 100)| ≤ 1 / 10 ^ 5 →
      (⌊clampRat y (1 / 10) (9 / 10) * 256⌋).toNat = updateProb (55 / 100) n) ∧
    (|y - bayes (n / 256) (48 / 100)| ≤ 1 / 10 ^ 5 →
      (⌊clampRat y (1 / 10) (9 / 10) * 256⌋).toNat = updateProb (48 / 100) n) := by
  have key : ∀ q : Rat, (⌊clampRat (bayes (n / 256) q - 1 / 10 ^ 5) (1 / 10) (9 / 10) * 256⌋ =
      ⌊clampRat (bayes (n / 256) q + 1 / 10 ^ 5) (1 / 10) (9 / 10) * 256⌋) →
      |y - bayes (n / 256) q| ≤ 1 / 10 ^ 5 →
      (⌊clampRat y (1 / 10) (9 / 10) * 256⌋).toNat = updateProb q n := by
    intro q he hy
    have mono : ∀ a b : Rat, a ≤ b → ⌊clampRat a (1 / 10) (9 / 10) * 256⌋ ≤
        ⌊clampRat b (1 / 10) (9 / 10) * 256⌋ := by
      intro a b hab
      rw [clampRat_eq _ _ _ (by norm_num), clampRat_eq _ _ _ (by norm_num)]
      apply Int.floor_le_floor
      have : max (1 / 10 : Rat) (min a (9 / 10)) ≤ max (1 / 10) (min b (9 / 10)) :=
        max_le_max le_rfl (min_le_min hab le_rfl)
      linarith
    rw [abs_le] at hy
    have m1 := mono (bayes (n / 256) q - 1 / 10 ^ 5) y (by linarith)
    have m2 := mono y (bayes (n / 256) q + 1 / 10 ^ 5) (by linarith)
    have m3 := mono (bayes (n / 256) q - 1 / 10 ^ 5) (bayes (n / 256) q) (by norm_num)
    have m4 := mono (bayes (n / 256) q) (bayes (n / 256) q + 1 / 10 ^ 5) (by norm_num)
    unfold updateProb
    congr 1
    omega
  have h1 : ∀ m : Fin 231, 25 ≤ m.val →
      ⌊clampRat (bayes (m.val / 256) (55 / 100) - 1 / 10 ^ 5) (1 / 10) (9 / 10) * 256⌋ =
      ⌊clampRat (bayes (m.val / 256) (55 / 100) + 1 / 10 ^ 5) (1 / 10) (9 / 10) * 256⌋ ∧
      ⌊clampRat (bayes (m.val / 256) (48 / 100) - 1 / 10 ^ 5) (1 / 10) (9 / 10) * 256⌋ =
      ⌊clampRat (bayes (m.val / 256) (48 / 100) + 1 / 10 ^ 5) (1 / 10) (9 / 10) * 256⌋ := by
    decide +kernel
  have := h1 ⟨n, by omega⟩ hn.1
  exact ⟨key _ this.1, key _ this.2⟩

/-- The settings of the supplied configuration (hit 0.55, miss 0.48). -/
def suppliedMrvm : MrvmCfg :=
  { maxPoints := 10, hit := 55 / 100, miss := 48 / 100, resolution := 1 / 10, zOffset := 0 }

/-- The hypotheses can be met: three scans that see a point 3 m away, then 22 that look through. -/
example : Admissible suppliedMrvm ∧
    ((List.replicate 3 ((some [⟨3, 0, 0, 5, 0⟩], ⟨0, 0, 0⟩) : MapScan)).map
      (scanHits suppliedMrvm ⟨30, 0, 0⟩)).sum = 3 ∧
    (∀ s ∈ List.replicate 3 ((some [⟨3, 0, 0, 5, 0⟩], ⟨0, 0, 0⟩) : MapScan),
      scanPasses suppliedMrvm ⟨30, 0, 0⟩ s = 0) ∧
    ((List.replicate 22 ((some [⟨4, 0, 0, 5, 0⟩], ⟨0, 0, 0⟩) : MapScan)).map
      (scanPasses suppliedMrvm ⟨30, 0, 0⟩)).sum = 22 := by
  refine ⟨?_, by decide +kernel, by decide +kernel, by decide +kernel⟩
  constructor <;> simp [suppliedMrvm] <;> norm_num

/-- A probability of a hit of 0.503, which is accepted: a point seen in every scan, however many there
are, never gets into the map (threshold 0.57). -/
theorem C90_weak_hits_fails (n : Nat) :
    ∃ m, insertClouds { suppliedMrvm with hit := 503 / 1000 } (fun _ => none)
        (List.replicate n (some [⟨3, 0, 0, 5, 0⟩], ⟨0, 0, 0⟩)) = .ok m ∧
      mrvmInit { suppliedMrvm with hit := 503 / 1000 } = .ok { suppliedMrvm with hit := 503 / 1000 } ∧
      ∀ table, Lists m table → ∃ out table',
        outputCloud { suppliedMrvm with hit := 503 / 1000 } (57 / 100) table = .ok (out, table') ∧
        ¬ HasPointIn { suppliedMrvm with hit := 503 / 1000 } ⟨30, 0, 0⟩ out := by
  have ha : Admissible { suppliedMrvm with hit := 503 / 1000 } := by
    constructor <;> simp [suppliedMrvm] <;> norm_num
  obtain ⟨m0, m, h, h', g0, hnil⟩ := history_split _ ha []
    (List.replicate n ((some [⟨3, 0, 0, 5, 0⟩], ⟨0, 0, 0⟩) : MapScan))
  have hp : scanPasses { suppliedMrvm with hit := 503 / 1000 } ⟨30, 0, 0⟩
      ((some [⟨3, 0, 0, 5, 0⟩], ⟨0, 0, 0⟩) : MapScan) = 0 := by decide +kernel
  obtain ⟨g, e, -⟩ := scans_hit _ ha ⟨30, 0, 0⟩ _
    (fun s hs => by rw [List.eq_of_mem_replicate hs]; exact hp) m0 m g0 h'
  refine ⟨m, h, by simp [mrvmInit, suppliedMrvm, Outcome.check, clampRat]; norm_num, ?_⟩
  intro table hl
  obtain ⟨out, table', ho, hiff⟩ := output_iff _ ha m g table hl (57 / 100) (by norm_num)
  refine ⟨out, table', ho, ?_⟩
  rw [hiff]
  rintro ⟨c, hc, hcp⟩
  have h128 : ∀ k, (updateProb (503 / 1000))^[k] 128 = 128 := by
    intro k
    exact Function.iterate_fixed (by decide +kernel) k
  have he : probOf m ⟨30, 0, 0⟩ = 128 := by
    rw [e, hnil rfl]
    exact h128 _
  unfold probOf at he
  rw [hc] at he
  simp only [Option.map_some, Option.getD_some] at he
  rw [he] at hcp
  norm_num at hcp

/-- Two rays of every scan go through the voxel before the point in it is inserted. -/
def crossedScan : MapScan :=
  (some [⟨4, 0, 0, 5, 0⟩, ⟨4, 0, 0, 5, 0⟩, ⟨3, 0, 0, 5, 0⟩], ⟨0, 0, 0⟩)

theorem crossed_prob (n : Nat) (m : VMap)
    (h : insertClouds suppliedMrvm (fun _ => none) (List.replicate (n + 1) crossedScan) = .ok m) :
    ∃ c, m ⟨30, 0, 0⟩ = some c ∧ c.prob = 140 := by
  have ha : Admissible suppliedMrvm := by constructor <;> simp [suppliedMrvm] <;> norm_num
  have hk : passesBeforeHit suppliedMrvm.resolution
      { (⟨0, 0, 0⟩ : Vec3 Rat) with z := (⟨0, 0, 0⟩ : Vec3 Rat).z + suppliedMrvm.zOffset } ⟨30, 0, 0⟩
      [⟨4, 0, 0, 5, 0⟩, ⟨4, 0, 0, 5, 0⟩, ⟨3, 0, 0, 5, 0⟩] = 2 := by decide +kernel
  have hh : hitsIn suppliedMrvm.resolution ⟨30, 0, 0⟩
      [⟨4, 0, 0, 5, 0⟩, ⟨4, 0, 0, 5, 0⟩, ⟨3, 0, 0, 5, 0⟩] = [⟨3, 0, 0, 5, 0⟩] := by decide +kernel
  have step : ∀ m m' : VMap, GoodMap suppliedMrvm.maxPoints suppliedMrvm.resolution m →
      insertCloud suppliedMrvm m crossedScan.1 crossedScan.2 = .ok m' →
      (m ⟨30, 0, 0⟩ = none ∨ ∃ c, m ⟨30, 0, 0⟩ = some c ∧ c.prob = 140) →
      ∃ c, m' ⟨30, 0, 0⟩ = some c ∧ c.prob = 140 := by
    intro m m' hm h1 h2
    obtain ⟨m1, e1, e2⟩ := insertCloud_effect suppliedMrvm m _ ⟨0, 0, 0⟩ (fun v c h => (hm v c h).free)
    unfold crossedScan at h1
    dsimp only at h1
    rw [h1] at e1
    cases e1
    have e := e2 ⟨30, 0, 0⟩
    dsimp only at e
    dsimp only at hk
    rw [hh, if_neg (by simp), hk] at e
    refine ⟨_, e, ?_⟩
    rcases h2 with h2 | ⟨c, h2, hc⟩
    · rw [h2]; decide +kernel
    · rw [h2]
      simp only [Option.map_some, Option.getD_some, List.foldl_cons, List.foldl_nil, hitCell, hc]
      decide +kernel
  induction n generalizing m with
  | zero =>
    simp only [Nat.zero_add, List.replicate_one, insertClouds] at h
    obtain ⟨m1, h1, h2⟩ := (Outcome.bind_eq_ok _ _ _).mp h
    cases h2
    exact step _ _ (goodMap_empty _ _) h1 (Or.inl rfl)
  | succ n ih =>
    rw [List.replicate_succ' (n := n + 1), insertClouds_append] at h
    obtain ⟨m1, h1, h2⟩ := (Outcome.bind_eq_ok _ _ _).mp h
    simp only [insertClouds] at h2
    obtain ⟨m2, h3, h4⟩ := (Outcome.bind_eq_ok _ _ _).mp h2
    cases h4
    obtain ⟨m1', h1', g1⟩ := C25_invariant_partial suppliedMrvm ha (List.replicate (n + 1) crossedScan)
    rw [h1] at h1'
    cases h1'
    exact step _ _ g1 h3 (Or.inr (ih m1 h1))

/-- With the supplied settings and two rays through the voxel in every scan, a point that is seen in
every scan, however many there are, never gets into the map. -/
theorem C90_crossed_fails (n : Nat) :
    ∃ m, insertClouds suppliedMrvm (fun _ => none) (List.replicate (n + 1) crossedScan) = .ok m ∧
      scanHits suppliedMrvm ⟨30, 0, 0⟩ crossedScan = 1 ∧
      scanPasses suppliedMrvm ⟨30, 0, 0⟩ crossedScan = 2 ∧
      ∀ table, Lists m table → ∃ out table',
        outputCloud suppliedMrvm (57 / 100) table = .ok (out, table') ∧
        ¬ HasPointIn suppliedMrvm ⟨30, 0, 0⟩ out := by
  have ha : Admissible suppliedMrvm := by constructor <;> simp [suppliedMrvm] <;> norm_num
  obtain ⟨m, h, g⟩ := C25_invariant_partial suppliedMrvm ha (List.replicate (n + 1) crossedScan)
  refine ⟨m, h, by decide +kernel, by decide +kernel, ?_⟩
  intro table hl
  obtain ⟨out, table', ho, hiff⟩ := output_iff _ ha m g table hl (57 / 100) (by norm_num)
  refine ⟨out, table', ho, ?_⟩
  rw [hiff]
  rintro ⟨c, hc, hcp⟩
  obtain ⟨c', hc', hp⟩ := crossed_prob n m h
  rw [hc] at hc'
  cases hc'
  rw [hp] at hcp
  norm_num at hcp

end Verif
