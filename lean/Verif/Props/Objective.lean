import Mathlib.Analysis.InnerProductSpace.EuclideanDist
import Verif.Proofs.Objective
/-!
C112: what the optimised map looks like.
English: for every sequence of submaps there is exactly one best map, and it depends on the
measurements as a user expects: exact measurements are reproduced exactly, the first submap stays
where it is, the error a loop reports is spread evenly over the submaps between its ends (so hardly
any of it is left at the seam), and exact GPS data give the exact place of the map.

The best map is the one with the least sum of errors as the optimiser weighs them (`mapCost`); that
the optimiser finds it is not proved.  The quantitative theorems are about vehicles that do not turn
(`V` is the space of shifts); `C112_exact_turning` is about any poses.

False of the code: a wrong loop is believed whatever its size (`C112_wrong_loop_fails`: loop
constraints are not robust and count as much as the match of two neighbours), and the GPS frame is
pulled towards the identity (`C112_gps_exact_fails`).
-/
namespace Verif
open Spec
variable {V E : Type} [NormedAddCommGroup V] [InnerProductSpace ℝ V]

/-- Without GPS and odometry all constraints are constraints on poses, and there is exactly one best
place for every submap. -/
theorem C112_best [FiniteDimensional ℝ V] (o : IsamOpts) (ho : LidarOnly o)
    (fs : List (IsamFrame V E)) (hv : EdgesValid 0 fs) :
    ∃ l, GivenTo o fs l ∧ (∀ f ∈ l, IsPoseFactor f) ∧
      ∃ x, BestMap l x ∧ ∀ y, BestMap l y ↔ ∀ i < fs.length, y i = x i := by
  obtain ⟨st, h, hd, hp⟩ := isamRun_pose ho fs hv
  have hg : GivenTo o fs st.doneF := ⟨st, h, hd.inv.pendF, rfl⟩
  obtain ⟨x, hx⟩ := ls_best_exists (termsOf st.doneF) (fun t ht => (termsOf_pos _ t ht).le)
  have hb : BestMap st.doneF x := fun y => by rw [mapCost_eq, mapCost_eq]; exact hx y
  exact ⟨_, hg, hp, x, hb, fun y => best_unique hv hg hb⟩

/-- The best map: the first submap stays, and at every submap the errors of the constraints that
arrive and that leave cancel.  Loops and neighbours count alike. -/
theorem C112_balance (o : IsamOpts) (fs : List (IsamFrame V E)) (hv : EdgesValid 0 fs)
    (f : IsamFrame V E) (hf : fs.head? = some f) (l : List (IsamFactor V E)) (hg : GivenTo o fs l)
    (x : Nat → V) :
    BestMap l x ↔ x 0 = f.pose ∧ ∀ i < fs.length, pullAt l x i = 0 := by
  rw [← head_prior fs f hf]
  exact best_balance hv hg (by intro h; rw [h] at hf; simp at hf) x

/-- Exact measurements are reproduced: if the first pose, the steps and the loops are those of a
vehicle at the places `x`, the best map is `x`. -/
theorem C112_exact (o : IsamOpts) (fs : List (IsamFrame V E)) (hv : EdgesValid 0 fs)
    (l : List (IsamFactor V E)) (hg : GivenTo o fs l) (x : Nat → V)
    (h0 : ∀ f, fs.head? = some f → f.pose = x 0)
    (hs : ∀ i f, fs[i + 1]? = some f → f.fromLast = x (i + 1) - x i)
    (hl : ∀ e ∈ loopEdges fs, e.2.2 = x e.2.1 - x e.1) (y : Nat → V) :
    BestMap l y ↔ ∀ i < fs.length, y i = x i := by
  refine best_unique hv hg ?_
  have hz : mapCost l x = 0 := by
    rw [cost_split hv hg]
    have e1 : (if fs = [] then 0 else priorW * ‖x 0 - chained fs 0‖ ^ 2) = 0 := by
      cases fs with
      | nil => simp
      | cons f fs =>
        rw [head_prior (f :: fs) f rfl, h0 f rfl]
        simp
    have e2 : ((List.range (fs.length - 1)).map fun i =>
        ‖x (i + 1) - x i - stepInto fs (i + 1)‖ ^ 2).sum = 0 := by
      apply List.sum_eq_zero
      intro a ha
      rw [List.mem_map] at ha
      obtain ⟨i, hi, rfl⟩ := ha
      rw [List.mem_range] at hi
      have hlt : i + 1 < fs.length := by omega
      have := hs i fs[i + 1] (List.getElem?_eq_getElem hlt)
      simp only [stepInto, List.getElem?_eq_getElem hlt, this, sub_self, norm_zero]
      norm_num
    have e3 : ((loopEdges fs).map fun e => ‖x e.2.1 - x e.1 - e.2.2‖ ^ 2).sum = 0 := by
      apply List.sum_eq_zero
      intro a ha
      rw [List.mem_map] at ha
      obtain ⟨e, he, rfl⟩ := ha
      rw [hl e he]
      simp
    rw [e1, e2, e3]
    simp
  intro z
  rw [hz, mapCost_eq]
  unfold lsCost
  apply List.sum_nonneg
  intro a ha
  rw [List.mem_map] at ha
  obtain ⟨t, ht, rfl⟩ := ha
  exact mul_nonneg (termsOf_pos l t ht).le (sq_nonneg _)

/-- The same for any poses: at the true poses of a vehicle all constraints on poses hold exactly,
and they hold exactly at no others. -/
theorem C112_exact_turning {G : Type} [Group G] (o : IsamOpts) (fs : List (IsamFrame G E))
    (hv : EdgesValid 0 fs) (x : Nat → G)
    (h0 : ∀ f, fs.head? = some f → f.pose = x 0)
    (hs : ∀ i f, fs[i + 1]? = some f → f.fromLast = (x i)⁻¹ * x (i + 1))
    (hl : ∀ f ∈ fs, ∀ e ∈ f.edges, e.2.2 = (x e.1)⁻¹ * x e.2.1) :
    ∃ l, GivenTo o fs l ∧ ∀ y : Nat → G,
      ((∀ i p, .prior i p ∈ l → y i = p) ∧ (∀ i t, .step i t ∈ l → (y (i - 1))⁻¹ * y i = t) ∧
        ∀ a b t, .loop a b t ∈ l → (y a)⁻¹ * y b = t) ↔ ∀ i < fs.length, y i = x i := by
  obtain ⟨l, hg⟩ := givenTo_exists o fs hv
  obtain ⟨g1, g2, g3⟩ := givenTo_facts hv hg
  refine ⟨l, hg, fun y => ⟨?_, ?_⟩⟩
  · rintro ⟨hp, hst, -⟩ i
    induction i with
    | zero =>
      intro hi
      cases fs with
      | nil => simp at hi
      | cons f fs =>
        rw [hp 0 f.pose (mem_of_priorFactors (by rw [g1]; simp)), h0 f rfl]
    | succ i ih =>
      intro hi
      have h1 := ih (by omega)
      have hm : (i + 1, fs[i + 1].fromLast) ∈ stepsOf 0 fs := by
        have := objSteps_mem 0 fs (i + 1) fs[i + 1] (List.getElem?_eq_getElem hi) (by omega)
        rwa [Nat.zero_add] at this
      have h2 := hst (i + 1) _ (mem_of_stepFactors (by rw [g2]; exact hm))
      rw [Nat.add_sub_cancel, hs i _ (List.getElem?_eq_getElem hi), h1] at h2
      exact mul_left_cancel h2
  · intro h
    refine ⟨fun i p hm => ?_, fun i t hm => ?_, fun a b t hm => ?_⟩
    · have : (i, p) ∈ priorFactors l := by
        unfold priorFactors
        rw [List.mem_filterMap]
        exact ⟨_, hm, rfl⟩
      rw [g1] at this
      cases fs with
      | nil => simp at this
      | cons f fs =>
        simp only [List.head?_cons, Option.map_some, Option.toList_some, List.mem_singleton,
          Prod.mk.injEq] at this
        obtain ⟨rfl, rfl⟩ := this
        rw [h 0 (by simp), h0 f rfl]
    · have : (i, t) ∈ stepFactors l := by
        unfold stepFactors
        rw [List.mem_filterMap]
        exact ⟨_, hm, rfl⟩
      rw [g2] at this
      obtain ⟨j, f, hj, rfl, rfl⟩ := stepsOf_shape fs i t this
      have hlt : j + 1 < fs.length := (List.getElem?_eq_some_iff.1 hj).1
      rw [Nat.add_sub_cancel, h j (by omega), h (j + 1) hlt, hs j f hj]
    · have : (a, b, t) ∈ loopFactors l := by
        unfold loopFactors
        rw [List.mem_filterMap]
        exact ⟨_, hm, rfl⟩
      rw [g3] at this
      have hr := edgesValid_mem 0 fs hv _ this
      rw [List.mem_flatMap] at this
      obtain ⟨f, hf, he⟩ := this
      simp only [Nat.zero_add] at hr
      rw [h a (by omega), h b hr.2]
      exact (hl f hf _ he).symm

/-- One loop edge, from submap `b` back to `a`, that reports an error `e`: every step between them
takes an equal share, `e / (b - a + 1)`; submaps before `a` stay and those after `b` move with it;
the share left open at the loop is the same. -/
theorem C112_even (o : IsamOpts) (fs : List (IsamFrame V E)) (hv : EdgesValid 0 fs)
    (l : List (IsamFactor V E)) (hg : GivenTo o fs l) (a b : Nat) (t : V)
    (hl : loopEdges fs = [(a, b, t)]) (x : Nat → V) :
    BestMap l x ↔ ∀ i < fs.length, x i = chained fs i +
      (if i ≤ a then 0 else if i ≤ b then ((i : ℝ) - a) / ((b : ℝ) - a + 1)
        else ((b : ℝ) - a) / ((b : ℝ) - a + 1)) • loopError fs (a, b, t) := by
  have hm := edgesValid_mem 0 fs hv (a, b, t) (by
    show _ ∈ loopEdges fs
    rw [hl]; simp)
  have hab : a < b := hm.1
  rw [best_unique hv hg (even_best hv hg a b t hl)]
  have : ∀ i, shared fs a b (1 / ((b : ℝ) - a + 1)) (loopError fs (a, b, t)) i = chained fs i +
      (if i ≤ a then 0 else if i ≤ b then ((i : ℝ) - a) / ((b : ℝ) - a + 1)
        else ((b : ℝ) - a) / ((b : ℝ) - a + 1)) • loopError fs (a, b, t) := by
    intro i
    unfold shared along
    congr 2
    by_cases h1 : i ≤ a
    · rw [if_pos h1, show min i b - min i a = 0 by omega]; simp
    · rw [if_neg h1]
      by_cases h2 : i ≤ b
      · rw [if_pos h2, show min i b - min i a = i - a by omega, Nat.cast_sub (by omega)]; ring
      · rw [if_neg h2, show min i b - min i a = b - a by omega, Nat.cast_sub (by omega)]; ring
  simp only [this]

/-- Several edges from submap `b` back to submaps up to `A` that all report the error `e` (an
accepted loop has at least two, which agree up to 25 cm): of the squared error at most the part
`k / (1 + k (b - A))` is left in all constraints together, and so at most `1 / (b - A)`. -/
theorem C112_seam (o : IsamOpts) (fs : List (IsamFrame V E)) (hv : EdgesValid 0 fs)
    (l : List (IsamFactor V E)) (hg : GivenTo o fs l) (A b : Nat) (e : V) (hAb : A < b)
    (hb : b < fs.length)
    (hl : ∀ g ∈ loopEdges fs, g.1 ≤ A ∧ g.2.1 = b ∧ loopError fs g = e) (x : Nat → V)
    (hx : BestMap l x) :
    ((loopEdges fs).map fun g => ‖x g.2.1 - x g.1 - g.2.2‖ ^ 2).sum ≤
        (loopEdges fs).length / (1 + (loopEdges fs).length * ((b : ℝ) - A)) * ‖e‖ ^ 2 ∧
      ∀ g ∈ loopEdges fs, ‖x g.2.1 - x g.1 - g.2.2‖ ^ 2 ≤ ‖e‖ ^ 2 / ((b : ℝ) - A) := by
  have h := share_bound hv hg A b e hAb hb hl x hx
  have h0 : 0 ≤ ((List.range (fs.length - 1)).map fun i =>
      ‖x (i + 1) - x i - stepInto fs (i + 1)‖ ^ 2).sum := by
    apply List.sum_nonneg
    intro a ha
    rw [List.mem_map] at ha
    obtain ⟨i, -, rfl⟩ := ha
    exact sq_nonneg _
  have h1 : ((loopEdges fs).map fun g => ‖x g.2.1 - x g.1 - g.2.2‖ ^ 2).sum ≤
      (loopEdges fs).length / (1 + (loopEdges fs).length * ((b : ℝ) - A)) * ‖e‖ ^ 2 := by linarith
  refine ⟨h1, fun g hgm => ?_⟩
  have h2 : ‖x g.2.1 - x g.1 - g.2.2‖ ^ 2 ≤
      ((loopEdges fs).map fun g => ‖x g.2.1 - x g.1 - g.2.2‖ ^ 2).sum := by
    refine List.single_le_sum ?_ _ (List.mem_map_of_mem (f := fun g : Nat × Nat × V =>
      ‖x g.2.1 - x g.1 - g.2.2‖ ^ 2) hgm)
    intro a ha
    rw [List.mem_map] at ha
    obtain ⟨i, -, rfl⟩ := ha
    exact sq_nonneg _
  refine h2.trans (h1.trans ?_)
  have hm : (0 : ℝ) < (b : ℝ) - A := by
    have : (A : ℝ) < b := Nat.cast_lt.2 hAb
    linarith
  have hk : (0 : ℝ) ≤ ((loopEdges fs).length : ℝ) := Nat.cast_nonneg _
  have : ((loopEdges fs).length : ℝ) / (1 + (loopEdges fs).length * ((b : ℝ) - A)) ≤
      1 / ((b : ℝ) - A) := by
    rw [div_le_div_iff₀ (by positivity) hm]
    linarith
  calc _ ≤ 1 / ((b : ℝ) - A) * ‖e‖ ^ 2 := mul_le_mul_of_nonneg_right this (sq_nonneg _)
    _ = _ := by ring

/-- A loop is believed whatever it says: if the steps are true but the edges of a loop (over at
least two submaps) are all wrong by `e`, the submaps at the ends of the loop are moved against each
other by at least a quarter of `e`, for every `e`. -/
theorem C112_wrong_loop_fails (o : IsamOpts) (fs : List (IsamFrame V E)) (hv : EdgesValid 0 fs)
    (l : List (IsamFactor V E)) (hg : GivenTo o fs l) (A b : Nat) (e : V) (hAb : A + 2 ≤ b)
    (hb : b < fs.length)
    (hl : ∀ g ∈ loopEdges fs, g.1 ≤ A ∧ g.2.1 = b ∧ loopError fs g = e) (x : Nat → V)
    (hx : BestMap l x) : ∀ g ∈ loopEdges fs,
      ‖e‖ / 4 ≤ ‖(x b - x g.1) - (chained fs b - chained fs g.1)‖ := by
  intro g hgm
  have h := (C112_seam o fs hv l hg A b e (by omega) hb hl x hx).2 g hgm
  obtain ⟨-, h2, h3⟩ := hl g hgm
  have hm : (2 : ℝ) ≤ (b : ℝ) - A := by
    have : ((A + 2 : Nat) : ℝ) ≤ b := Nat.cast_le.2 hAb
    push_cast at this
    linarith
  have hle : ‖x g.2.1 - x g.1 - g.2.2‖ ^ 2 ≤ (3 / 4 * ‖e‖) ^ 2 := by
    refine h.trans ?_
    have : ‖e‖ ^ 2 / ((b : ℝ) - A) ≤ ‖e‖ ^ 2 / 2 :=
      div_le_div_of_nonneg_left (sq_nonneg _) (by norm_num) hm
    nlinarith [sq_nonneg ‖e‖]
  have hle2 : ‖x g.2.1 - x g.1 - g.2.2‖ ≤ 3 / 4 * ‖e‖ :=
    abs_le_of_sq_le_sq' hle (by positivity) |>.2
  have heq : (x b - x g.1) - (chained fs b - chained fs g.1) =
      e + (x g.2.1 - x g.1 - g.2.2) := by
    rw [← h3, h2]; unfold loopError; rw [h2]; abel
  rw [heq]
  have := norm_sub_norm_le e (-(x g.2.1 - x g.1 - g.2.2))
  rw [norm_neg, sub_neg_eq_add] at this
  linarith

/-- Starting GPS with exact data: if every cached position is that of the antenna on a vehicle at its
estimated place, seen in an ENU frame shifted by `c0`, the shift found is `n / (n + 0.0000565)` times
`c0`, `n` being the number of positions. -/
theorem C112_gps_start (arm c0 : V) (est : Nat → V) (cached : List (Nat × V))
    (he : ∀ g ∈ cached, g.2 = c0 + est g.1 + arm) (c : V) :
    BestGpsStart arm est cached c ↔
      c = ((cached.length : ℝ) / (cached.length + 565 / 10000000)) • c0 := by
  rw [gpsStart_best arm c0 est cached he c]
  rw [show gpsLeft = 565 / 10000000 by unfold gpsLeft; norm_num]

/-- So the error is below one part in 17000. -/
theorem C112_gps_start_partial (arm c0 : V) (est : Nat → V) (cached : List (Nat × V))
    (he : ∀ g ∈ cached, g.2 = c0 + est g.1 + arm) (hn : cached ≠ []) (c : V)
    (hc : BestGpsStart arm est cached c) : ‖c - c0‖ ≤ ‖c0‖ / 17000 := by
  rw [C112_gps_start arm c0 est cached he] at hc
  subst hc
  have h1 : (1 : ℝ) ≤ cached.length := by
    have : 1 ≤ cached.length := List.length_pos_iff.2 hn
    exact_mod_cast this
  set n : ℝ := (cached.length : ℝ)
  have : (n / (n + 565 / 10000000)) • c0 - c0 = (-(565 / 10000000 / (n + 565 / 10000000))) • c0 := by
    have h2 : n / (n + 565 / 10000000) - 1 = -(565 / 10000000 / (n + 565 / 10000000)) := by
      field_simp; ring
    rw [← h2, sub_smul, one_smul]
  rw [this, norm_smul, Real.norm_eq_abs, abs_neg, abs_of_nonneg (by positivity)]
  have h3 : 565 / 10000000 / (n + 565 / 10000000) ≤ 1 / 17000 := by
    rw [div_le_div_iff₀ (by positivity) (by norm_num)]
    linarith
  calc _ ≤ 1 / 17000 * ‖c0‖ := mul_le_mul_of_nonneg_right h3 (norm_nonneg _)
    _ = _ := by ring

/-- Exact data never give the exact shift, except zero. -/
theorem C112_gps_exact_fails (arm c0 : V) (est : Nat → V) (cached : List (Nat × V))
    (he : ∀ g ∈ cached, g.2 = c0 + est g.1 + arm) (h0 : c0 ≠ 0) :
    ¬ BestGpsStart arm est cached c0 := by
  intro h
  rw [C112_gps_start arm c0 est cached he] at h
  have hn : (0 : ℝ) ≤ (cached.length : ℝ) := Nat.cast_nonneg _
  have h2 : ((1 : ℝ) - cached.length / (cached.length + 565 / 10000000)) • c0 = 0 := by
    rw [sub_smul, one_smul, ← h, sub_self]
  rcases smul_eq_zero.1 h2 with h2 | h2
  · have : (cached.length : ℝ) / (cached.length + 565 / 10000000) < 1 := by
      rw [div_lt_one (by positivity)]
      linarith
    linarith
  · exact h0 h2

/-- Instance: four submaps one metre apart on a line; the loop from the fourth to the first measures
2.6 m instead of 3 m: each of the three steps takes 10 cm and 10 cm are left. -/
example :
    let f : ℝ → List (Nat × Nat × ℝ) → IsamFrame ℝ Unit := fun t es => ⟨0, t, none, none, es, 0, fun _ => 0⟩
    let fs := [f 0 [], f 1 [], f 1 [], f 1 [(0, 3, 26 / 10)]]
    let o : IsamOpts := ⟨false, false, false, 0, 0, 0⟩
    LidarOnly o ∧ EdgesValid 0 fs ∧ loopEdges fs = [(0, 3, 26 / 10)] ∧
      ∀ l, GivenTo o fs l → ∀ x, BestMap l x → x 3 = 27 / 10 ∧ x 1 = 9 / 10 := by
  intro f fs o
  have hv : EdgesValid 0 fs := by simp [fs, f, EdgesValid]
  have hl : loopEdges fs = [(0, 3, 26 / 10)] := by simp [fs, f, loopEdges]
  refine ⟨⟨rfl, rfl⟩, hv, hl, fun l hg x hx => ?_⟩
  have h := (C112_even o fs hv l hg 0 3 (26 / 10) hl x).1 hx
  have c3 : chained fs 3 = 3 := by simp [chained, fs, f]; norm_num
  have c1 : chained fs 1 = 1 := by simp [chained, fs, f]
  have c0 : chained fs 0 = 0 := by simp [chained, fs, f]
  have he : loopError fs (0, 3, 26 / 10) = -(4 / 10) := by
    simp only [loopError, c3, c0]; norm_num
  rw [he] at h
  have h3 := h 3 (by simp [fs])
  have h1 := h 1 (by simp [fs])
  rw [c3] at h3
  rw [c1] at h1
  constructor
  · rw [h3]; norm_num
  · rw [h1]; norm_num

/-- Instance of `C112_exact_turning` with poses that do not commute. -/
example :
    let p : Nat → Equiv.Perm (Fin 3) := fun i => if i = 0 then 1 else if i = 1 then Equiv.swap 0 1
      else Equiv.swap 0 1 * Equiv.swap 1 2
    let f : Equiv.Perm (Fin 3) → List (Nat × Nat × Equiv.Perm (Fin 3)) →
      IsamFrame (Equiv.Perm (Fin 3)) Unit := fun t es => ⟨1, t, none, none, es, 0, fun _ => 1⟩
    let fs := [f 1 [], f (Equiv.swap 0 1) [], f (Equiv.swap 1 2)
      [(0, 2, Equiv.swap 0 1 * Equiv.swap 1 2)]]
    EdgesValid 0 fs ∧ (∀ i f, fs[i + 1]? = some f → f.fromLast = (p i)⁻¹ * p (i + 1)) ∧
      ∀ f ∈ fs, ∀ e ∈ f.edges, e.2.2 = (p e.1)⁻¹ * p e.2.1 := by
  intro p f fs
  refine ⟨by simp [fs, f, EdgesValid], fun i g hg => ?_, fun g hg e he => ?_⟩
  · match i, hg with
    | 0, hg =>
      simp only [fs, List.getElem?_cons_succ, List.getElem?_cons_zero, Option.some.injEq] at hg
      subst hg
      simp [f, p]
    | 1, hg =>
      simp only [fs, List.getElem?_cons_succ, List.getElem?_cons_zero, Option.some.injEq] at hg
      subst hg
      simp [f, p]
    | n + 2, hg => simp [fs] at hg
  · simp only [fs, List.mem_cons, List.not_mem_nil, or_false] at hg
    rcases hg with rfl | rfl | rfl <;> simp only [f, List.not_mem_nil, List.mem_singleton] at he
    subst he
    simp [p]

/-- Instance of `C112_seam` and `C112_wrong_loop_fails`: two edges back to the first two of five
submaps, both wrong by 100 m. -/
example :
    let f : ℝ → List (Nat × Nat × ℝ) → IsamFrame ℝ Unit := fun t es => ⟨0, t, none, none, es, 0, fun _ => 0⟩
    let fs := [f 0 [], f 1 [], f 1 [], f 1 [], f 1 [(0, 4, 104), (1, 4, 103)]]
    EdgesValid 0 fs ∧ ∀ g ∈ loopEdges fs, g.1 ≤ 1 ∧ g.2.1 = 4 ∧ loopError fs g = 100 := by
  intro f fs
  refine ⟨by simp [fs, f, EdgesValid], fun g hg => ?_⟩
  simp only [fs, f, loopEdges, List.flatMap_cons, List.flatMap_nil, List.nil_append, List.append_nil,
    List.mem_cons, List.not_mem_nil, or_false] at hg
  rcases hg with rfl | rfl
  · refine ⟨by norm_num, rfl, ?_⟩
    simp [loopError, chained, fs, f]; norm_num
  · refine ⟨by norm_num, rfl, ?_⟩
    simp [loopError, chained, fs, f]; norm_num

/-- Instance of `C112_gps_start`: two positions, ENU shifted by 10 m. -/
example : ∀ g ∈ [(0, (11 : ℝ)), (5, 14)],
    g.2 = 10 + (fun i : Nat => if i = 0 then (0 : ℝ) else 3) g.1 + 1 := by
  intro g hg
  simp only [List.mem_cons, List.not_mem_nil, or_false] at hg
  rcases hg with rfl | rfl <;> norm_num

end Verif
