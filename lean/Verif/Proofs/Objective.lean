import Mathlib.Tactic.Abel
import Mathlib.Tactic.Module
import Verif.Proofs.Isam
import Verif.Proofs.LeastSquares
import Verif.Spec.Objective
namespace Verif
open Spec
noncomputable section

section
variable {T E : Type}

theorem mem_of_stepFactors {l : List (IsamFactor T E)} {i : Nat} {t : T}
    (h : (i, t) ∈ stepFactors l) : IsamFactor.step i t ∈ l := by
  unfold stepFactors at h
  rw [List.mem_filterMap] at h
  obtain ⟨f, hf, he⟩ := h
  cases f <;> simp at he
  obtain ⟨rfl, rfl⟩ := he
  exact hf

theorem mem_of_priorFactors {l : List (IsamFactor T E)} {i : Nat} {t : T}
    (h : (i, t) ∈ priorFactors l) : IsamFactor.prior i t ∈ l := by
  unfold priorFactors at h
  rw [List.mem_filterMap] at h
  obtain ⟨f, hf, he⟩ := h
  cases f <;> simp at he
  obtain ⟨rfl, rfl⟩ := he
  exact hf

theorem mem_of_loopFactors {l : List (IsamFactor T E)} {e : Nat × Nat × T}
    (h : e ∈ loopFactors l) : IsamFactor.loop e.1 e.2.1 e.2.2 ∈ l := by
  unfold loopFactors at h
  rw [List.mem_filterMap] at h
  obtain ⟨f, hf, he⟩ := h
  cases f <;> simp at he
  subst he
  exact hf

/-- The steps by index. -/
theorem objSteps_mem (k : Nat) (fs : List (IsamFrame T E)) (i : Nat) (f : IsamFrame T E)
    (h : fs[i]? = some f) (hk : 0 < k + i) : (k + i, f.fromLast) ∈ stepsOf k fs := by
  induction fs generalizing k i with
  | nil => simp at h
  | cons g fs ih =>
    cases i with
    | zero =>
      simp only [List.getElem?_cons_zero, Option.some.injEq] at h
      subst h
      simp only [stepsOf]
      rw [if_neg (by omega)]
      simp
    | succ i =>
      simp only [List.getElem?_cons_succ] at h
      have := ih (k + 1) i h (by omega)
      simp only [stepsOf]
      rw [show k + (i + 1) = k + 1 + i by omega]
      exact List.mem_append_right _ this

theorem stepsOf_pos (k : Nat) (hk : 0 < k) (fs : List (IsamFrame T E)) :
    stepsOf k fs = fs.zipIdx.map fun p => (k + p.2, p.1.fromLast) := by
  induction fs generalizing k with
  | nil => rfl
  | cons g fs ih =>
    simp only [stepsOf, if_neg (show ¬ k = 0 by omega), ih (k + 1) (by omega), List.zipIdx_cons,
      List.map_cons, List.singleton_append, Nat.add_zero]
    congr 1
    rw [List.zipIdx_succ]
    simp only [List.map_map]
    refine List.map_congr_left fun p _ => ?_
    simp only [Function.comp]
    rw [show k + 1 + p.2 = k + (p.2 + 1) by omega]

theorem stepsOf_shape (fs : List (IsamFrame T E)) (i : Nat) (t : T) (h : (i, t) ∈ stepsOf 0 fs) :
    ∃ j f, fs[j + 1]? = some f ∧ i = j + 1 ∧ t = f.fromLast := by
  cases fs with
  | nil => simp [stepsOf] at h
  | cons g fs =>
    simp only [stepsOf, if_true, List.nil_append, Nat.zero_add] at h
    rw [stepsOf_pos 1 (by omega), List.mem_map] at h
    obtain ⟨p, hp, he⟩ := h
    rw [List.mk_mem_zipIdx_iff_getElem? (x := p.1) (i := p.2)] at hp
    rw [Prod.mk.injEq] at he
    exact ⟨p.2, p.1, by simpa using hp, by omega, he.2.symm⟩

theorem frameFactors_pose {o : IsamOpts} (ho : LidarOnly o) (n : Nat) (f : IsamFrame T E)
    (ca : List (Nat × E)) (so : Bool) : ∀ g ∈ frameFactors o n f ca so, IsPoseFactor g := by
  intro g hg
  unfold frameFactors at hg
  rw [List.mem_append, List.mem_append, List.mem_append] at hg
  rcases hg with ((hg | hg) | hg) | hg
  · unfold vertexFactors at hg
    split at hg <;> simp [ho.2] at hg <;> subst hg <;> exact trivial
  · unfold odomFactors at hg
    split at hg <;> simp [ho.2] at hg
  · rw [List.mem_map] at hg
    obtain ⟨e, _, rfl⟩ := hg
    exact trivial
  · unfold gpsStep at hg
    split at hg <;> simp [ho.1] at hg

theorem isamRun_pose {o : IsamOpts} (ho : LidarOnly o) (fs : List (IsamFrame T E))
    (hv : EdgesValid 0 fs) : ∃ st, isamRun o fs (isamInit T E) = .ok st ∧ IsamDone o fs st ∧
      ∀ g ∈ st.doneF, IsPoseFactor g := by
  induction fs using List.reverseRecOn with
  | nil =>
    obtain ⟨st, h, hd⟩ := isamRun_done o ([] : List (IsamFrame T E)) hv
    refine ⟨st, h, hd, ?_⟩
    simp only [isamRun, Outcome.ok.injEq] at h
    subst h
    intro g hg
    simp [isamInit] at hg
  | append_singleton l f ih =>
    obtain ⟨hvl, hvf⟩ := (edgesValid_append 0 l f).mp hv
    obtain ⟨st, h1, hd, hp⟩ := ih hvl
    obtain ⟨st2, h2, hd2⟩ := isamRun_done o (l ++ [f]) hv
    refine ⟨st2, h2, hd2, ?_⟩
    rw [isamRun_snoc, h1, Outcome.bind_ok] at h2
    simp only [Nat.zero_add] at hvf
    obtain ⟨st', e1, e2, e3, e4, _⟩ := isamAddFrame_ok (f := f) hd.inv
      (fun e he => by rw [hd.frames]; exact hvf e he)
    rw [e1, Outcome.ok.injEq] at h2
    subst h2
    rw [e4]
    intro g hg
    rcases List.mem_append.1 hg with hg | hg
    · exact hp g hg
    · exact frameFactors_pose ho _ _ _ _ g hg

theorem givenTo_facts {o : IsamOpts} {fs : List (IsamFrame T E)} (hv : EdgesValid 0 fs)
    {l : List (IsamFactor T E)} (h : GivenTo o fs l) :
    priorFactors l = (fs.head?.map fun f => (0, f.pose)).toList ∧
      stepFactors l = stepsOf 0 fs ∧ loopFactors l = fs.flatMap (fun f => f.edges) := by
  obtain ⟨st, h1, _, rfl⟩ := h
  obtain ⟨st', h1', hd⟩ := isamRun_done o fs hv
  rw [h1, Outcome.ok.injEq] at h1'
  subst h1'
  exact ⟨hd.priors, hd.steps, hd.loops⟩

theorem givenTo_exists (o : IsamOpts) (fs : List (IsamFrame T E)) (hv : EdgesValid 0 fs) :
    ∃ l, GivenTo o fs l := by
  obtain ⟨st, h, hd⟩ := isamRun_done o fs hv
  exact ⟨_, st, h, hd.inv.pendF, rfl⟩

theorem edgesValid_mem (k : Nat) (fs : List (IsamFrame T E)) (hv : EdgesValid k fs)
    (e : Nat × Nat × T) (he : e ∈ fs.flatMap fun f => f.edges) : e.1 < e.2.1 ∧ e.2.1 < k + fs.length := by
  induction fs generalizing k with
  | nil => simp at he
  | cons f fs ih =>
    rw [List.flatMap_cons, List.mem_append] at he
    rcases he with he | he
    · have := hv.1 e he
      rw [List.length_cons]
      omega
    · have := ih (k + 1) hv.2 he
      rw [List.length_cons]
      omega

end

variable {V E : Type} [NormedAddCommGroup V] [InnerProductSpace ℝ V]

/-- The pose of submap `i`. -/
def atI (i : Nat) : (Nat → V) →ₗ[ℝ] V := LinearMap.proj i

def priorW : ℝ := 1 / (2 * priorSigma ^ 2)
def linkW : ℝ := 1 / (2 * matchSigma ^ 2)

theorem priorW_pos : 0 < priorW := by unfold priorW priorSigma; norm_num
theorem linkW_pos : 0 < linkW := by unfold linkW matchSigma; norm_num

/-- The terms of the sum. -/
def termsOf (l : List (IsamFactor V E)) : List (LsTerm (Nat → V) V) :=
  (priorFactors l).map (fun p => (priorW, atI p.1, p.2)) ++
  (stepFactors l).map (fun p => (linkW, atI p.1 - atI (p.1 - 1), p.2)) ++
  (loopFactors l).map (fun e => (linkW, atI e.2.1 - atI e.1, e.2.2))

theorem termsOf_pos (l : List (IsamFactor V E)) : ∀ t ∈ termsOf l, 0 < t.1 := by
  intro t ht
  unfold termsOf at ht
  simp only [List.mem_append, List.mem_map] at ht
  rcases ht with (⟨_, _, rfl⟩ | ⟨_, _, rfl⟩) | ⟨_, _, rfl⟩
  · exact priorW_pos
  · exact linkW_pos
  · exact linkW_pos

theorem mapCost_eq (l : List (IsamFactor V E)) (x : Nat → V) : mapCost l x = lsCost (termsOf l) x := by
  unfold mapCost lsCost termsOf
  induction l with
  | nil => simp [priorFactors, stepFactors, loopFactors]
  | cons f l ih =>
    rw [List.map_cons, List.sum_cons, add_div, ih]
    simp only [List.map_append, List.sum_append, List.map_map]
    cases f with
    | prior i p =>
      simp only [priorFactors, stepFactors, loopFactors, List.filterMap_cons, List.map_cons,
        List.sum_cons, factorCost, Function.comp, priorW, atI, LinearMap.proj_apply]
      rw [div_pow]; ring
    | step i t =>
      simp only [priorFactors, stepFactors, loopFactors, List.filterMap_cons, List.map_cons,
        List.sum_cons, factorCost, Function.comp, linkW, atI, LinearMap.proj_apply,
        LinearMap.sub_apply]
      rw [div_pow]; ring
    | loop a b t =>
      simp only [priorFactors, stepFactors, loopFactors, List.filterMap_cons, List.map_cons,
        List.sum_cons, factorCost, Function.comp, linkW, atI, LinearMap.proj_apply,
        LinearMap.sub_apply]
      rw [show loopSigma = matchSigma from rfl, div_pow]; ring
    | _ =>
      simp only [priorFactors, stepFactors, loopFactors, List.filterMap_cons, factorCost]
      ring

theorem bestMap_iff (l : List (IsamFactor V E)) (x : Nat → V) :
    BestMap l x ↔ ∀ h, lsCross (termsOf l) x h = 0 := by
  unfold BestMap
  simp only [mapCost_eq]
  exact ls_best_iff _ (fun t ht => (termsOf_pos l t ht).le) x

/-- The balance in the three kinds of constraints. -/
theorem cross_eq (l : List (IsamFactor V E)) (x h : Nat → V) :
    lsCross (termsOf l) x h =
      priorW * ((priorFactors l).map fun p => inner ℝ (x p.1 - p.2) (h p.1)).sum +
      linkW * (((stepFactors l).map fun p =>
          inner ℝ (x p.1 - x (p.1 - 1) - p.2) (h p.1 - h (p.1 - 1))).sum +
        ((loopFactors l).map fun e =>
          inner ℝ (x e.2.1 - x e.1 - e.2.2) (h e.2.1 - h e.1)).sum) := by
  unfold lsCross termsOf
  simp only [List.map_append, List.sum_append, List.map_map, Function.comp_def, atI,
    LinearMap.proj_apply, LinearMap.sub_apply, List.sum_map_mul_left]
  ring

/-- The step into submap `i`. -/
def stepInto (fs : List (IsamFrame V E)) (i : Nat) : V :=
  match fs[i]? with | some f => f.fromLast | none => 0

theorem chained_succ (fs : List (IsamFrame V E)) (i : Nat) :
    chained fs (i + 1) = chained fs i + stepInto fs (i + 1) := rfl

theorem stepsOf_range (fs : List (IsamFrame V E)) :
    stepsOf 0 fs = (List.range (fs.length - 1)).map fun i => (i + 1, stepInto fs (i + 1)) := by
  cases fs with
  | nil => rfl
  | cons f fs =>
    simp only [stepsOf, if_true, List.nil_append, Nat.zero_add]
    rw [stepsOf_pos 1 (by omega)]
    apply List.ext_getElem
    · simp
    · intro i h1 h2
      simp only [List.length_map, List.length_zipIdx] at h1
      simp [stepInto, List.getElem?_eq_getElem h1, Nat.add_comm]

theorem head_prior (fs : List (IsamFrame V E)) (f : IsamFrame V E) (hf : fs.head? = some f) :
    chained fs 0 = f.pose := by
  simp [chained, hf]

/-- Two assignments that agree in the first place and in all steps. -/
theorem agree_of_steps {n : Nat} {x y : Nat → V} (h0 : 0 < n → x 0 = y 0)
    (hs : ∀ i, i + 1 < n → x (i + 1) - x i = y (i + 1) - y i) : ∀ i < n, x i = y i := by
  intro i
  induction i with
  | zero => exact fun h => h0 h
  | succ i ih =>
    intro hi
    have h1 := ih (by omega)
    have h2 := hs i hi
    rw [h1] at h2
    exact sub_left_injective h2

/-- The sum of errors depends on the submaps' places only. -/
theorem mapCost_congr {o : IsamOpts} {fs : List (IsamFrame V E)} (hv : EdgesValid 0 fs)
    {l : List (IsamFactor V E)} (hg : GivenTo o fs l) {x y : Nat → V}
    (h : ∀ i < fs.length, x i = y i) : mapCost l x = mapCost l y := by
  obtain ⟨g1, g2, g3⟩ := givenTo_facts hv hg
  rw [mapCost_eq, mapCost_eq]
  unfold lsCost termsOf
  rw [g1, g2, g3, stepsOf_range]
  congr 1
  refine List.map_congr_left fun t ht => ?_
  simp only [List.mem_append, List.mem_map, List.mem_range] at ht
  rcases ht with (⟨p, hp, rfl⟩ | ⟨p, ⟨i, hi, rfl⟩, rfl⟩) | ⟨e, he, rfl⟩
  · cases fs with
    | nil => simp at hp
    | cons f fs =>
      simp only [List.head?_cons, Option.map_some, Option.toList_some, List.mem_singleton] at hp
      subst hp
      simp only [atI, LinearMap.proj_apply]
      rw [h 0 (by simp)]
  · simp only [atI, LinearMap.proj_apply, LinearMap.sub_apply, Nat.add_sub_cancel]
    rw [h (i + 1) (by omega), h i (by omega)]
  · have := edgesValid_mem 0 fs hv e he
    simp only [atI, LinearMap.proj_apply, LinearMap.sub_apply]
    rw [h e.2.1 (by omega), h e.1 (by omega)]

theorem best_unique {o : IsamOpts} {fs : List (IsamFrame V E)} (hv : EdgesValid 0 fs)
    {l : List (IsamFactor V E)} (hg : GivenTo o fs l) {x y : Nat → V} (hx : BestMap l x) :
    BestMap l y ↔ ∀ i < fs.length, y i = x i := by
  constructor
  · intro hy
    obtain ⟨g1, g2, g3⟩ := givenTo_facts hv hg
    unfold BestMap at hx hy
    simp only [mapCost_eq] at hx hy
    have hu := ls_best_unique (termsOf l) (termsOf_pos l) hy hx
    apply agree_of_steps
    · intro hn
      cases fs with
      | nil => simp at hn
      | cons f fs =>
        have := hu (priorW, atI 0, f.pose) (by
          unfold termsOf
          rw [g1]
          simp)
        simpa [atI] using this
    · intro i hi
      have := hu (linkW, atI (i + 1) - atI i, stepInto fs (i + 1)) (by
        unfold termsOf
        rw [g2, stepsOf_range]
        simp only [List.mem_append, List.mem_map, List.mem_range]
        exact Or.inl (Or.inr ⟨_, ⟨i, by omega, rfl⟩, rfl⟩))
      simpa [atI] using this
  · intro h z
    rw [mapCost_congr hv hg h]
    exact hx z

theorem sum_steps (g : Nat → ℝ) (N : Nat) :
    ((List.range N).map fun i => g (i + 1) - g i).sum = g N - g 0 := by
  induction N with
  | zero => simp
  | succ N ih =>
    rw [List.range_succ, List.map_append, List.sum_append, ih]
    simp

/-- A telescoping sum over a part of the chain. -/
theorem sum_part (f : Nat → ℝ) (N a b : Nat) (hab : a ≤ b) (hb : b ≤ N) :
    ((List.range N).map fun i => if a ≤ i ∧ i < b then f (i + 1) - f i else 0).sum = f b - f a := by
  have h : ∀ i, (if a ≤ i ∧ i < b then f (i + 1) - f i else 0) =
      f (max a (min (i + 1) b)) - f (max a (min i b)) := by
    intro i
    by_cases h1 : a ≤ i
    · by_cases h2 : i < b
      · rw [if_pos ⟨h1, h2⟩, show max a (min (i + 1) b) = i + 1 by omega,
          show max a (min i b) = i by omega]
      · rw [if_neg (by omega), show max a (min (i + 1) b) = max a (min i b) by omega, sub_self]
    · rw [if_neg (by omega), show max a (min (i + 1) b) = max a (min i b) by omega, sub_self]
  simp only [h]
  rw [sum_steps (fun i => f (max a (min i b))), show max a (min N b) = b by omega,
    show max a (min 0 b) = a by omega]

/-- How far submap `i` is along the part from `a` to `b`. -/
def along (a b i : Nat) : ℝ := ((min i b - min i a : Nat) : ℝ)

theorem along_succ (a b i : Nat) (hab : a ≤ b) :
    along a b (i + 1) - along a b i = if a ≤ i ∧ i < b then 1 else 0 := by
  unfold along
  by_cases h1 : a ≤ i
  · by_cases h2 : i < b
    · rw [if_pos ⟨h1, h2⟩, show min (i + 1) b - min (i + 1) a = (min i b - min i a) + 1 by omega]
      push_cast
      ring
    · rw [if_neg (by omega), show min (i + 1) b - min (i + 1) a = (min i b - min i a) by omega,
        sub_self]
  · rw [if_neg (by omega), show min (i + 1) b - min (i + 1) a = (min i b - min i a) by omega,
      sub_self]

theorem along_le (a b i : Nat) (h : i ≤ a) (hab : a ≤ b) : along a b i = 0 := by
  unfold along
  rw [show min i b - min i a = 0 by omega, Nat.cast_zero]

theorem along_end (a b : Nat) (hab : a ≤ b) : along a b b = (b : ℝ) - a := by
  unfold along
  rw [show min b b - min b a = b - a by omega, Nat.cast_sub hab]

/-- The chained places with a share of `e` on every step from `a` to `b`. -/
def shared (fs : List (IsamFrame V E)) (a b : Nat) (c : ℝ) (e : V) (i : Nat) : V :=
  chained fs i + (c * along a b i) • e

theorem shared_step (fs : List (IsamFrame V E)) (a b : Nat) (c : ℝ) (e : V) (i : Nat) (hab : a ≤ b) :
    shared fs a b c e (i + 1) - shared fs a b c e i - stepInto fs (i + 1) =
      (if a ≤ i ∧ i < b then c else 0) • e := by
  unfold shared
  rw [chained_succ]
  have h := along_succ a b i hab
  have h2 : (if a ≤ i ∧ i < b then c else 0) = c * (along a b (i + 1) - along a b i) := by
    rw [h]; split <;> simp
  rw [h2]
  module

theorem shared_loop (fs : List (IsamFrame V E)) (A b : Nat) (c : ℝ) (e : V) (g : Nat × Nat × V)
    (hA : A ≤ b) (h1 : g.1 ≤ A) (h2 : g.2.1 = b) (he : loopError fs g = e) :
    shared fs A b c e g.2.1 - shared fs A b c e g.1 - g.2.2 = (c * ((b : ℝ) - A) - 1) • e := by
  unfold shared
  rw [along_le A b g.1 h1 hA, h2, along_end A b hA]
  have : g.2.2 = e + (chained fs b - chained fs g.1) := by
    rw [← he, ← h2]; unfold loopError; abel
  rw [this]
  module

theorem shared_zero (fs : List (IsamFrame V E)) (a b : Nat) (c : ℝ) (e : V) (hab : a ≤ b) :
    shared fs a b c e 0 = chained fs 0 := by
  unfold shared
  rw [along_le a b 0 (Nat.zero_le _) hab]
  simp

theorem prior_cross {o : IsamOpts} {fs : List (IsamFrame V E)} (hv : EdgesValid 0 fs)
    {l : List (IsamFactor V E)} (hg : GivenTo o fs l) (x h : Nat → V) :
    ((priorFactors l).map fun p => inner ℝ (x p.1 - p.2) (h p.1)).sum =
      if fs = [] then 0 else inner ℝ (x 0 - chained fs 0) (h 0) := by
  obtain ⟨g1, -, -⟩ := givenTo_facts hv hg
  rw [g1]
  cases fs with
  | nil => simp
  | cons f fs => simp [chained]

theorem step_cross {o : IsamOpts} {fs : List (IsamFrame V E)} (hv : EdgesValid 0 fs)
    {l : List (IsamFactor V E)} (hg : GivenTo o fs l) (x h : Nat → V) :
    ((stepFactors l).map fun p => inner ℝ (x p.1 - x (p.1 - 1) - p.2) (h p.1 - h (p.1 - 1))).sum =
      ((List.range (fs.length - 1)).map fun i =>
        inner ℝ (x (i + 1) - x i - stepInto fs (i + 1)) (h (i + 1) - h i)).sum := by
  obtain ⟨-, g2, -⟩ := givenTo_facts hv hg
  rw [g2, stepsOf_range, List.map_map]
  rfl

/-- The best map with one loop edge. -/
theorem even_best {o : IsamOpts} {fs : List (IsamFrame V E)} (hv : EdgesValid 0 fs)
    {l : List (IsamFactor V E)} (hg : GivenTo o fs l) (a b : Nat) (t : V)
    (hl : loopEdges fs = [(a, b, t)]) :
    BestMap l (shared fs a b (1 / ((b : ℝ) - a + 1)) (loopError fs (a, b, t))) := by
  obtain ⟨g1, g2, g3⟩ := givenTo_facts hv hg
  have hm := edgesValid_mem 0 fs hv (a, b, t) (by
    show _ ∈ loopEdges fs
    rw [hl]; simp)
  have hab : a < b := hm.1
  have hbn : b < fs.length := by simpa using hm.2
  rw [bestMap_iff]
  intro h
  have hr : (0 : ℝ) < (b : ℝ) - a + 1 := by
    have : (a : ℝ) < b := Nat.cast_lt.2 hab
    linarith
  set c : ℝ := 1 / ((b : ℝ) - a + 1) with hc
  set e := loopError fs (a, b, t) with he
  rw [cross_eq, prior_cross hv hg, step_cross hv hg, g3]
  change _ + linkW * (_ + ((loopEdges fs).map _).sum) = 0
  rw [hl, shared_zero _ _ _ _ _ hab.le]
  simp only [List.map_cons, List.map_nil, List.sum_cons, List.sum_nil, add_zero, sub_self,
    inner_zero_left, ite_self, mul_zero, zero_add, shared_step fs a b c e _ hab.le]
  have hloop := shared_loop fs a b c e (a, b, t) hab.le le_rfl rfl rfl
  simp only at hloop
  rw [hloop]
  have hs : ∀ i, inner ℝ ((if a ≤ i ∧ i < b then c else 0) • e) (h (i + 1) - h i) =
      if a ≤ i ∧ i < b then c * inner ℝ e (h (i + 1)) - c * inner ℝ e (h i) else 0 := by
    intro i
    split
    · rw [inner_smul_left, inner_sub_right]; simp; ring
    · simp
  simp only [hs]
  rw [sum_part (fun i => c * inner ℝ e (h i)) _ a b hab.le (by omega), inner_smul_left,
    inner_sub_right]
  have : c * ((b : ℝ) - a) - 1 = -c := by
    rw [hc]; field_simp; ring
  rw [this]
  simp
  right
  ring

/-- The sum of errors, split up. -/
theorem cost_split {o : IsamOpts} {fs : List (IsamFrame V E)} (hv : EdgesValid 0 fs)
    {l : List (IsamFactor V E)} (hg : GivenTo o fs l) (x : Nat → V) :
    mapCost l x = (if fs = [] then 0 else priorW * ‖x 0 - chained fs 0‖ ^ 2) +
      linkW * (((List.range (fs.length - 1)).map fun i =>
          ‖x (i + 1) - x i - stepInto fs (i + 1)‖ ^ 2).sum +
        ((loopEdges fs).map fun e => ‖x e.2.1 - x e.1 - e.2.2‖ ^ 2).sum) := by
  obtain ⟨g1, g2, g3⟩ := givenTo_facts hv hg
  rw [mapCost_eq]
  unfold lsCost termsOf
  rw [g1, g2, g3, stepsOf_range]
  simp only [List.map_append, List.sum_append, List.map_map, Function.comp_def, atI,
    LinearMap.proj_apply, LinearMap.sub_apply, List.sum_map_mul_left, Nat.add_sub_cancel]
  have : priorW * (List.map (fun b : Nat × V => ‖x b.1 - b.2‖ ^ 2)
      (fs.head?.map fun f => (0, f.pose)).toList).sum =
      if fs = [] then 0 else priorW * ‖x 0 - chained fs 0‖ ^ 2 := by
    cases fs with
    | nil => simp
    | cons f fs => simp [chained]
  rw [this]
  unfold loopEdges
  ring

/-- The errors left by the best map when all loop edges report the same error. -/
theorem share_bound {o : IsamOpts} {fs : List (IsamFrame V E)} (hv : EdgesValid 0 fs)
    {l : List (IsamFactor V E)} (hg : GivenTo o fs l) (A b : Nat) (e : V) (hAb : A < b)
    (hb : b < fs.length)
    (hl : ∀ g ∈ loopEdges fs, g.1 ≤ A ∧ g.2.1 = b ∧ loopError fs g = e) (x : Nat → V)
    (hx : BestMap l x) :
    ((List.range (fs.length - 1)).map fun i =>
          ‖x (i + 1) - x i - stepInto fs (i + 1)‖ ^ 2).sum +
        ((loopEdges fs).map fun g => ‖x g.2.1 - x g.1 - g.2.2‖ ^ 2).sum ≤
      (loopEdges fs).length / (1 + (loopEdges fs).length * ((b : ℝ) - A)) * ‖e‖ ^ 2 := by
  have hm : (0 : ℝ) < (b : ℝ) - A := by
    have : (A : ℝ) < b := Nat.cast_lt.2 hAb
    linarith
  set k : ℝ := ((loopEdges fs).length : ℝ) with hk
  have hk0 : 0 ≤ k := Nat.cast_nonneg _
  have hden : 0 < 1 + k * ((b : ℝ) - A) := by positivity
  set c : ℝ := k / (1 + k * ((b : ℝ) - A)) with hc
  have h1 := hx (shared fs A b c e)
  rw [cost_split hv hg, cost_split hv hg, shared_zero _ _ _ _ _ hAb.le] at h1
  simp only [shared_step fs A b c e _ hAb.le, sub_self, norm_zero] at h1
  have hloops : ((loopEdges fs).map fun g =>
      ‖shared fs A b c e g.2.1 - shared fs A b c e g.1 - g.2.2‖ ^ 2).sum =
      k * (c * ((b : ℝ) - A) - 1) ^ 2 * ‖e‖ ^ 2 := by
    have : ((loopEdges fs).map fun g =>
        ‖shared fs A b c e g.2.1 - shared fs A b c e g.1 - g.2.2‖ ^ 2) =
        (loopEdges fs).map fun _ => (c * ((b : ℝ) - A) - 1) ^ 2 * ‖e‖ ^ 2 := by
      refine List.map_congr_left fun g hgm => ?_
      obtain ⟨a1, a2, a3⟩ := hl g hgm
      rw [shared_loop fs A b c e g hAb.le a1 a2 a3, norm_smul, mul_pow, Real.norm_eq_abs, sq_abs]
    rw [this, List.map_const', List.sum_replicate, nsmul_eq_mul, ← hk, mul_assoc]
  have hsteps : ((List.range (fs.length - 1)).map fun i =>
      ‖(if A ≤ i ∧ i < b then c else 0) • e‖ ^ 2).sum = ((b : ℝ) - A) * c ^ 2 * ‖e‖ ^ 2 := by
    have : ∀ i, ‖(if A ≤ i ∧ i < b then c else 0) • e‖ ^ 2 =
        if A ≤ i ∧ i < b then ((i + 1 : Nat) : ℝ) * (c ^ 2 * ‖e‖ ^ 2) - (i : ℝ) * (c ^ 2 * ‖e‖ ^ 2)
        else 0 := by
      intro i
      split
      · rw [norm_smul, mul_pow, Real.norm_eq_abs, sq_abs]; push_cast; ring
      · simp
    simp only [this]
    rw [sum_part (fun i => (i : ℝ) * (c ^ 2 * ‖e‖ ^ 2)) _ A b hAb.le (by omega)]
    ring
  rw [hloops, hsteps] at h1
  have hn : ¬ fs = [] := by
    intro h; rw [h] at hb; simp at hb
  rw [if_neg hn, if_neg hn] at h1
  have hp : 0 ≤ priorW * ‖x 0 - chained fs 0‖ ^ 2 := mul_nonneg priorW_pos.le (sq_nonneg _)
  have h2 : ((b : ℝ) - A) * c ^ 2 * ‖e‖ ^ 2 + k * (c * ((b : ℝ) - A) - 1) ^ 2 * ‖e‖ ^ 2 =
      c * ‖e‖ ^ 2 := by
    have : ((b : ℝ) - A) * c ^ 2 + k * (c * ((b : ℝ) - A) - 1) ^ 2 = c := by
      rw [hc]; field_simp; ring
    rw [← add_mul, this]
  rw [h2] at h1
  have h3 : linkW * _ ≤ linkW * (c * ‖e‖ ^ 2) := le_trans (le_add_of_nonneg_left hp)
    (h1.trans (le_of_eq (by ring)))
  exact le_of_mul_le_mul_left h3 linkW_pos

/-- The pulls of all submaps together. -/
theorem pull_sum (l : List (IsamFactor V E)) (n : Nat) (x h : Nat → V)
    (hs : ∀ p ∈ stepFactors l, p.1 < n) (hl : ∀ e ∈ loopFactors l, e.1 < n ∧ e.2.1 < n) :
    (∑ i ∈ Finset.range n, inner ℝ (pullAt l x i) (h i)) =
      ((stepFactors l).map fun p =>
          inner ℝ (x p.1 - x (p.1 - 1) - p.2) (h p.1 - h (p.1 - 1))).sum +
        ((loopFactors l).map fun e =>
          inner ℝ (x e.2.1 - x e.1 - e.2.2) (h e.2.1 - h e.1)).sum := by
  have hone : ∀ (j k : Nat) (r : V), j < n → k < n →
      (∑ i ∈ Finset.range n, inner ℝ ((if j = i then r else 0) - (if k = i then r else 0)) (h i)) =
        inner ℝ r (h j - h k) := by
    intro j k r hj hk
    have : ∀ i, inner ℝ ((if j = i then r else 0) - (if k = i then r else 0)) (h i) =
        (if j = i then inner ℝ r (h i) else 0) - (if k = i then inner ℝ r (h i) else 0) := by
      intro i
      rw [inner_sub_left]
      congr 1 <;> split <;> simp
    simp only [this, Finset.sum_sub_distrib, Finset.sum_ite_eq, Finset.mem_range, hj, hk, if_true,
      inner_sub_right]
  induction l with
  | nil => simp [pullAt, stepFactors, loopFactors]
  | cons f l ih =>
    have hs' : ∀ p ∈ stepFactors l, p.1 < n := fun p hp => hs p (by
      unfold stepFactors at hp ⊢
      rw [List.filterMap_cons]
      split
      · exact hp
      · exact List.mem_cons_of_mem _ hp)
    have hl' : ∀ e ∈ loopFactors l, e.1 < n ∧ e.2.1 < n := fun e he => hl e (by
      unfold loopFactors at he ⊢
      rw [List.filterMap_cons]
      split
      · exact he
      · exact List.mem_cons_of_mem _ he)
    have ih' := ih hs' hl'
    cases f with
    | step j t =>
      have hj : j < n := hs (j, t) (by simp [stepFactors])
      have := hone j (j - 1) (x j - x (j - 1) - t) hj (by omega)
      have hp : ∀ i, pullAt (IsamFactor.step j t :: l) x i =
          ((if j = i then x j - x (j - 1) - t else 0) - (if j - 1 = i then x j - x (j - 1) - t else 0)) +
            pullAt l x i := fun i => by simp [pullAt]
      simp only [hp, inner_add_left, Finset.sum_add_distrib, this, ih', stepFactors, loopFactors,
        List.filterMap_cons, List.map_cons, List.sum_cons]
      ring
    | loop a b t =>
      have hj := hl (a, b, t) (by simp [loopFactors])
      have := hone b a (x b - x a - t) hj.2 hj.1
      have hp : ∀ i, pullAt (IsamFactor.loop a b t :: l) x i =
          ((if b = i then x b - x a - t else 0) - (if a = i then x b - x a - t else 0)) +
            pullAt l x i := fun i => by simp [pullAt]
      simp only [hp, inner_add_left, Finset.sum_add_distrib, this, ih', stepFactors, loopFactors,
        List.filterMap_cons, List.map_cons, List.sum_cons]
      ring
    | _ =>
      simp only [pullAt, List.map_cons, List.sum_cons, zero_add] at ih' ⊢
      rw [ih']
      simp [stepFactors, loopFactors]

theorem best_first {o : IsamOpts} {fs : List (IsamFrame V E)} (hv : EdgesValid 0 fs)
    {l : List (IsamFactor V E)} (hg : GivenTo o fs l) (hn : fs ≠ []) (x : Nat → V)
    (hx : BestMap l x) : x 0 = chained fs 0 := by
  have h := (bestMap_iff l x).1 hx (fun _ => x 0 - chained fs 0)
  have hp := prior_cross hv hg x (fun _ => x 0 - chained fs 0)
  rw [if_neg hn] at hp
  rw [cross_eq, hp] at h
  simp only [sub_self, inner_zero_right, List.map_const', List.sum_replicate, smul_zero, add_zero,
    mul_zero] at h
  rcases mul_eq_zero.1 h with h | h
  · exact absurd h priorW_pos.ne'
  · exact sub_eq_zero.1 (inner_self_eq_zero.1 h)

theorem best_balance {o : IsamOpts} {fs : List (IsamFrame V E)} (hv : EdgesValid 0 fs)
    {l : List (IsamFactor V E)} (hg : GivenTo o fs l) (hn : fs ≠ []) (x : Nat → V) :
    BestMap l x ↔ x 0 = chained fs 0 ∧ ∀ i < fs.length, pullAt l x i = 0 := by
  obtain ⟨g1, g2, g3⟩ := givenTo_facts hv hg
  have hsum := fun h => pull_sum l fs.length x h (by
      rw [g2, stepsOf_range]
      intro p hp
      rw [List.mem_map] at hp
      obtain ⟨i, hi, rfl⟩ := hp
      rw [List.mem_range] at hi
      simp only
      omega) (by
      rw [g3]
      intro e he
      have := edgesValid_mem 0 fs hv e he
      omega)
  constructor
  · intro hx
    have h0 := best_first hv hg hn x hx
    refine ⟨h0, ?_⟩
    have h := (bestMap_iff l x).1 hx (pullAt l x)
    rw [cross_eq, prior_cross hv hg, if_neg hn, h0, ← hsum] at h
    simp only [sub_self, inner_zero_left, mul_zero, zero_add] at h
    rcases mul_eq_zero.1 h with h | h
    · exact absurd h linkW_pos.ne'
    · intro i hi
      rw [Finset.sum_eq_zero_iff_of_nonneg (fun i _ => real_inner_self_nonneg)] at h
      exact inner_self_eq_zero.1 (h i (Finset.mem_range.2 hi))
  · rintro ⟨h0, hp⟩
    rw [bestMap_iff]
    intro h
    rw [cross_eq, prior_cross hv hg, if_neg hn, h0, ← hsum, Finset.sum_eq_zero]
    · simp
    · intro i hi
      rw [hp i (Finset.mem_range.1 hi), inner_zero_left]

/-! Starting GPS. -/

def gpsTerms (arm : V) (est : Nat → V) (cached : List (Nat × V)) : List (LsTerm (V × (Nat → V)) V) :=
  (1 / 800, LinearMap.fst ℝ V (Nat → V), 0) :: cached.flatMap fun g =>
    [(5000, atI g.1 ∘ₗ LinearMap.snd ℝ V (Nat → V), est g.1),
     (200 / 9, LinearMap.fst ℝ V (Nat → V) + atI g.1 ∘ₗ LinearMap.snd ℝ V (Nat → V), g.2 - arm)]

theorem gpsStart_eq (arm : V) (est : Nat → V) (cached : List (Nat × V)) (c : V) (p : Nat → V) :
    gpsStartCost arm est cached c p = lsCost (gpsTerms arm est cached) (c, p) := by
  unfold gpsStartCost lsCost gpsTerms
  rw [List.map_cons, List.sum_cons, add_div]
  congr 1
  · simp only [LinearMap.fst_apply, sub_zero]; ring
  · induction cached with
    | nil => simp
    | cons g l ih =>
      rw [List.map_cons, List.sum_cons, add_div, ih]
      simp only [List.flatMap_cons, List.map_append, List.sum_append, List.map_cons, List.map_nil,
        List.sum_cons, List.sum_nil, LinearMap.add_apply, LinearMap.comp_apply, LinearMap.fst_apply,
        LinearMap.snd_apply, atI, LinearMap.proj_apply]
      rw [show c + p g.1 + arm - g.2 = c + p g.1 - (g.2 - arm) by abel]
      ring

theorem gpsTerms_pos (arm : V) (est : Nat → V) (cached : List (Nat × V)) :
    ∀ t ∈ gpsTerms arm est cached, 0 < t.1 := by
  intro t ht
  unfold gpsTerms at ht
  simp only [List.mem_cons, List.mem_flatMap, List.not_mem_nil, or_false] at ht
  rcases ht with rfl | ⟨g, _, rfl | rfl⟩ <;> norm_num

/-- What remains of the first guess. -/
def gpsLeft : ℝ := 113 / 2000000

theorem gpsStart_best (arm c0 : V) (est : Nat → V) (cached : List (Nat × V))
    (he : ∀ g ∈ cached, g.2 = c0 + est g.1 + arm) (c : V) :
    BestGpsStart arm est cached c ↔
      c = ((cached.length : ℝ) / (cached.length + gpsLeft)) • c0 := by
  set n : ℝ := (cached.length : ℝ) with hn
  have hn0 : 0 ≤ n := Nat.cast_nonneg _
  have hk : 0 < gpsLeft := by unfold gpsLeft; norm_num
  have hd : 0 < n + gpsLeft := by linarith
  set s : ℝ := n / (n + gpsLeft) with hs
  -- the common error of the GPS positions, and the shift of the poses
  set r : V := ((s - 1) * (225 / 226)) • c0 with hr
  set q : V := (-(1 / 225 : ℝ)) • r with hq
  have hbest : ∀ z, lsCost (gpsTerms arm est cached) (s • c0, fun i => est i + q) ≤
      lsCost (gpsTerms arm est cached) z := by
    rw [ls_best_iff _ fun t ht => (gpsTerms_pos arm est cached t ht).le]
    intro h
    unfold lsCross gpsTerms
    rw [List.map_cons, List.sum_cons]
    have hrest : ∀ l : List (Nat × V), (∀ g ∈ l, g.2 = c0 + est g.1 + arm) →
        ((l.flatMap fun g =>
          [((5000 : ℝ), atI g.1 ∘ₗ LinearMap.snd ℝ V (Nat → V), est g.1),
           (200 / 9, LinearMap.fst ℝ V (Nat → V) + atI g.1 ∘ₗ LinearMap.snd ℝ V (Nat → V),
             g.2 - arm)]).map fun t =>
          t.1 * inner ℝ (t.2.1 (s • c0, fun i => est i + q) - t.2.2) (t.2.1 h)).sum =
        l.length * (200 / 9) * inner ℝ r h.1 := by
      intro l hl
      induction l with
      | nil => simp
      | cons g l ih =>
        rw [List.flatMap_cons, List.map_append, List.sum_append,
          ih fun g hg => hl g (List.mem_cons_of_mem _ hg)]
        have hg := hl g List.mem_cons_self
        simp only [List.map_cons, List.map_nil, List.sum_cons, List.sum_nil, LinearMap.add_apply,
          LinearMap.comp_apply, LinearMap.fst_apply, LinearMap.snd_apply, atI, LinearMap.proj_apply,
          List.length_cons, Nat.cast_add, Nat.cast_one]
        have h1 : est g.1 + q - est g.1 = q := by abel
        have h2 : s • c0 + (est g.1 + q) - (g.2 - arm) = r := by
          rw [hg, hq, hr]; module
        rw [h1, h2, hq, inner_smul_left, inner_add_right]
        simp
        ring
    rw [hrest cached he]
    simp only [LinearMap.fst_apply, sub_zero, ← hn]
    rw [hr, inner_smul_left, inner_smul_left]
    simp only [conj_trivial]
    have : 1 / 800 * s + n * (200 / 9) * ((s - 1) * (225 / 226)) = 0 := by
      rw [hs]; unfold gpsLeft at *; field_simp; ring
    linear_combination this * inner ℝ c0 h.1
  constructor
  · rintro ⟨p, hp⟩
    have hp' : ∀ z, lsCost (gpsTerms arm est cached) (c, p) ≤ lsCost (gpsTerms arm est cached) z := by
      intro z
      have := hp z.1 z.2
      rwa [gpsStart_eq, gpsStart_eq] at this
    have := ls_best_unique _ (gpsTerms_pos arm est cached) hp' hbest
      (1 / 800, LinearMap.fst ℝ V (Nat → V), 0) (by unfold gpsTerms; simp)
    simpa using this
  · rintro rfl
    refine ⟨fun i => est i + q, fun c' p' => ?_⟩
    rw [gpsStart_eq, gpsStart_eq]
    exact hbest _

end
end Verif
