import Verif.Model.MrvmParallel
import Verif.Props.Mrvm
/-! Property theorems C25 for the multi-threaded loop. -/
namespace Verif
open Spec

theorem VMap.modify_apply (m : VMap) (v : Voxel) (f : Cell → Cell) (w : Voxel) :
    m.modify v f w = if w = v then (m w).map f else m w := by
  unfold VMap.modify
  cases h : m v with
  | none =>
    by_cases hw : w = v
    · subst hw; simp [h]
    · simp [hw]
  | some c =>
    by_cases hw : w = v
    · subst hw; simp [h, VMap.set]
    · simp [VMap.set, hw]

/-- what one action can do to a voxel -/
theorem act_cell (cfg : MrvmCfg) (m : VMap) (l : Local) (a : Act) (v : Voxel) :
    (m v = none ∧ ((act cfg m l a).1 v = none ∨ (a = .mark v ∧ (act cfg m l a).1 v = some { needUpdate := false }))) ∨
    (∃ c c', m v = some c ∧ (act cfg m l a).1 v = some c' ∧
      (c'.prob = c.prob ∨ (25 ≤ c'.prob ∧ c'.prob ≤ 230)) ∧
      (c'.points = c.points ∨ ∃ p, a = .push v p ∧ l.flag = true ∧ c'.points = c.points ++ [p]) ∧
      (∀ p, a = .push v p → l.flag = true → c'.points = c.points ++ [p])) := by
  have same : (act cfg m l a).1 = m → (∀ p, a = .push v p → l.flag = false) →
      (m v = none ∧ ((act cfg m l a).1 v = none ∨ (a = .mark v ∧ (act cfg m l a).1 v = some { needUpdate := false }))) ∨
      (∃ c c', m v = some c ∧ (act cfg m l a).1 v = some c' ∧
        (c'.prob = c.prob ∨ (25 ≤ c'.prob ∧ c'.prob ≤ 230)) ∧
        (c'.points = c.points ∨ ∃ p, a = .push v p ∧ l.flag = true ∧ c'.points = c.points ++ [p]) ∧
        (∀ p, a = .push v p → l.flag = true → c'.points = c.points ++ [p])) := by
    intro h hp
    rw [h]
    cases hm : m v with
    | none => exact Or.inl ⟨rfl, Or.inl rfl⟩
    | some c =>
      refine Or.inr ⟨c, c, rfl, rfl, Or.inl rfl, Or.inl rfl, ?_⟩
      intro p ha hf
      rw [hp p ha] at hf; cases hf
  have mod : ∀ e f, (act cfg m l a).1 = m.modify e f →
      (∀ c, (f c).prob = c.prob ∨ (25 ≤ (f c).prob ∧ (f c).prob ≤ 230)) →
      (∀ c, (f c).points = c.points ∨ ∃ p, a = .push e p ∧ l.flag = true ∧ (f c).points = c.points ++ [p]) →
      (∀ w c p, a = .push w p → l.flag = true → w = e ∧ (f c).points = c.points ++ [p]) →
      (m v = none ∧ ((act cfg m l a).1 v = none ∨ (a = .mark v ∧ (act cfg m l a).1 v = some { needUpdate := false }))) ∨
      (∃ c c', m v = some c ∧ (act cfg m l a).1 v = some c' ∧
        (c'.prob = c.prob ∨ (25 ≤ c'.prob ∧ c'.prob ≤ 230)) ∧
        (c'.points = c.points ∨ ∃ p, a = .push v p ∧ l.flag = true ∧ c'.points = c.points ++ [p]) ∧
        (∀ p, a = .push v p → l.flag = true → c'.points = c.points ++ [p])) := by
    intro e f h h1 h2 h3
    rw [h, VMap.modify_apply]
    cases hm : m v with
    | none => left; simp
    | some c =>
      right
      by_cases hv : v = e
      · subst hv
        rw [if_pos rfl]
        exact ⟨c, f c, rfl, rfl, h1 c, h2 c, fun p ha hf => (h3 v c p ha hf).2⟩
      · rw [if_neg hv]
        refine ⟨c, c, rfl, rfl, Or.inl rfl, Or.inl rfl, ?_⟩
        intro p ha hf
        exact absurd (h3 v c p ha hf).1 hv
  cases a with
  | mark e =>
    simp only [act, VMap.set]
    by_cases hv : v = e
    · subst hv
      cases hm : m v with
      | none => left; simp
      | some c => right; exact ⟨c, { c with needUpdate := false }, by simp, by simp, Or.inl rfl, Or.inl rfl, by intro p h; cases h⟩
    · cases hm : m v with
      | none => left; simp [hv, hm]
      | some c => right; exact ⟨c, c, by simp, by simp [hv, hm], Or.inl rfl, Or.inl rfl, by intro p h; cases h⟩
  | compare e p => exact same rfl (by intro p h; cases h)
  | brighten e p =>
    by_cases hf : l.flag = true
    · apply mod e (fun c => { c with maxIntensity := truncInt p.intensity })
      · simp only [act]; rw [if_pos hf]
      · intro c; exact Or.inl rfl
      · intro c; exact Or.inl rfl
      · intro w c p h; cases h
    · apply same
      · simp only [act]; rw [if_neg hf]
      · intro p h; cases h
  | readProb e => exact same rfl (by intro p h; cases h)
  | writeProb e =>
    apply mod e _ rfl
    · intro c; exact Or.inr (updateProb_range _ _)
    · intro c; exact Or.inl rfl
    · intro w c p h; cases h
  | checkSize e => exact same rfl (by intro p h; cases h)
  | push e p =>
    by_cases hf : l.flag = true
    · apply mod e (fun c => { c with points := c.points ++ [p] })
      · simp only [act]; rw [if_pos hf]
      · intro c; exact Or.inl rfl
      · intro c; exact Or.inr ⟨p, rfl, hf, rfl⟩
      · intro w c q h _
        cases h
        exact ⟨rfl, rfl⟩
    · apply same
      · simp only [act]; rw [if_neg hf]
      · intro q h; simpa using hf
  | look w => exact same rfl (by intro p h; cases h)
  | readMiss w => exact same rfl (by intro p h; cases h)
  | writeMiss w =>
    by_cases hf : l.flag = true
    · apply mod w (fun c => { c with prob := updateProb cfg.miss l.reg })
      · simp only [act]; rw [if_pos hf]
      · intro c; exact Or.inr (updateProb_range _ _)
      · intro c; exact Or.inl rfl
      · intro w c p h; cases h
    · apply same
      · simp only [act]; rw [if_neg hf]
      · intro p h; cases h

/-- The thread still has to make sure that `e` holds a point. -/
def Pending (m : VMap) (e : Voxel) (t : Local × List Act) : Prop :=
  (∃ pre p rest, t.2 = pre ++ Act.checkSize e :: Act.push e p :: rest) ∨
  (∃ p rest, t.2 = Act.push e p :: rest ∧ (t.1.flag = true ∨ ∃ c, m e = some c ∧ c.points ≠ []))

/-- Every voxel a thread is going to mark it will also fill. -/
def WellFormed (as : List Act) : Prop :=
  ∀ pre e rest, as = pre ++ Act.mark e :: rest →
    ∃ pre' p rest', rest = pre' ++ Act.checkSize e :: Act.push e p :: rest'

structure ParInv (cfg : MrvmCfg) (s : ParState) : Prop where
  prob : ∀ v c, s.map v = some c → 25 ≤ c.prob ∧ c.prob ≤ 230
  inside : ∀ v c, s.map v = some c → ∀ p ∈ c.points, InVoxel cfg.resolution v p
  owed : ∀ v c, s.map v = some c → c.points ≠ [] ∨ ∃ t ∈ s.threads, Pending s.map v t
  wf : ∀ t ∈ s.threads, WellFormed t.2
  pushes : ∀ t ∈ s.threads, ∀ e p, Act.push e p ∈ t.2 → InVoxel cfg.resolution e p

theorem mem_set_cases {α : Type} {l : List α} {i : Nat} {x t : α} (h : t ∈ l.set i x) : t = x ∨ t ∈ l := by
  rcases List.mem_or_eq_of_mem_set h with h | h
  · exact Or.inr h
  · exact Or.inl h

theorem step_inv (cfg : MrvmCfg) (hmax : 0 < cfg.maxPoints) (s : ParState) (i : Nat) (h : ParInv cfg s) :
    ParInv cfg (s.step cfg i) := by
  unfold ParState.step
  split
  · rename_i l a as hi
    have hmem : (l, a :: as) ∈ s.threads := List.mem_of_getElem? hi
    have hlt : i < s.threads.length := (List.getElem?_eq_some_iff.1 hi).1
    have hself : ((act cfg s.map l a).2, as) ∈ s.threads.set i ((act cfg s.map l a).2, as) :=
      List.mem_set hlt _
    refine ⟨?_, ?_, ?_, ?_, ?_⟩
    · intro v c' hc'
      simp only at hc'
      rcases act_cell cfg s.map l a v with ⟨-, h2 | ⟨-, h2⟩⟩ | ⟨c, c'', h1, h2, hp, -, -⟩
      · rw [hc'] at h2; cases h2
      · rw [hc'] at h2; cases h2; decide
      · rw [hc'] at h2; cases h2
        rcases hp with hp | hp
        · rw [hp]; exact h.prob v c h1
        · exact hp
    · intro v c' hc' p hpm
      simp only at hc'
      rcases act_cell cfg s.map l a v with ⟨-, h2 | ⟨-, h2⟩⟩ | ⟨c, c'', h1, h2, -, hpts, -⟩
      · rw [hc'] at h2; cases h2
      · rw [hc'] at h2; cases h2; simp at hpm
      · rw [hc'] at h2; cases h2
        rcases hpts with hpts | ⟨q, ha, -, hpts⟩
        · rw [hpts] at hpm; exact h.inside v c h1 p hpm
        · rw [hpts] at hpm
          rcases List.mem_append.1 hpm with hpm | hpm
          · exact h.inside v c h1 p hpm
          · rw [List.mem_singleton.1 hpm]
            exact h.pushes _ hmem v q (by rw [ha]; simp)
    · intro v c' hc'
      simp only at hc' ⊢
      rcases act_cell cfg s.map l a v with ⟨-, h2 | ⟨ha, h2⟩⟩ | ⟨c, c'', h1, h2, -, hpts, hpush⟩
      · rw [hc'] at h2; cases h2
      · -- just marked
        right
        refine ⟨_, hself, Or.inl ?_⟩
        exact h.wf _ hmem [] v as (by simp [ha])
      · rw [hc'] at h2
        cases h2
        have hgrow : c.points ≠ [] → c'.points ≠ [] := by
          intro hn
          rcases hpts with hpts | ⟨q, -, -, hpts⟩
          · rw [hpts]; exact hn
          · rw [hpts]; simp
        rcases h.owed v c h1 with hn | ⟨t, ht, hpend⟩
        · exact Or.inl (hgrow hn)
        · obtain ⟨j, hj, rfl⟩ := List.mem_iff_getElem.1 ht
          by_cases hij : j = i
          · -- the stepping thread itself owed the point
            subst hij
            have ht' : s.threads[j] = (l, a :: as) := by
              have := List.getElem?_eq_getElem hj
              rw [this] at hi; exact Option.some.inj hi
            rw [ht'] at hpend
            rcases hpend with ⟨pre, p, rest, hpre⟩ | ⟨p, rest, hpre, hflag⟩
            · cases pre with
              | nil =>
                simp only [List.nil_append, List.cons.injEq] at hpre
                obtain ⟨rfl, rfl⟩ := hpre
                right
                refine ⟨_, hself, Or.inr ⟨p, rest, rfl, ?_⟩⟩
                simp only [act, decide_eq_true_eq]
                rw [h1]
                simp only [Option.getD_some]
                by_cases hlt' : (c.points.length : Int) < cfg.maxPoints
                · exact Or.inl hlt'
                · right
                  refine ⟨c, rfl, ?_⟩
                  intro h0
                  rw [h0] at hlt'
                  simp at hlt'
                  omega
              | cons x pre =>
                simp only [List.cons_append, List.cons.injEq] at hpre
                obtain ⟨rfl, rfl⟩ := hpre
                right
                exact ⟨_, hself, Or.inl ⟨pre, p, rest, rfl⟩⟩
            · simp only [List.cons.injEq] at hpre
              obtain ⟨rfl, rfl⟩ := hpre
              rcases hflag with hf | ⟨c0, hc0, hn⟩
              · left
                rw [hpush p rfl hf]; simp
              · rw [h1] at hc0; cases hc0
                exact Or.inl (hgrow hn)
          · right
            refine ⟨s.threads[j], ?_, ?_⟩
            · rw [List.mem_iff_getElem?]
              exact ⟨j, by rw [List.getElem?_set_ne (Ne.symm hij)]; exact List.getElem?_eq_getElem hj⟩
            · rcases hpend with hpend | ⟨p, rest, hpre, hflag⟩
              · exact Or.inl hpend
              · refine Or.inr ⟨p, rest, hpre, ?_⟩
                rcases hflag with hf | ⟨c0, hc0, hn⟩
                · exact Or.inl hf
                · rw [h1] at hc0; cases hc0
                  exact Or.inr ⟨c', hc', hgrow hn⟩
    · intro t ht
      rcases mem_set_cases ht with rfl | ht
      · intro pre e rest he
        exact h.wf _ hmem (a :: pre) e rest (by simp only at he ⊢; rw [he]; rfl)
      · exact h.wf t ht
    · intro t ht e p hp
      rcases mem_set_cases ht with rfl | ht
      · exact h.pushes _ hmem e p (List.mem_cons_of_mem _ hp)
      · exact h.pushes t ht e p hp
  · exact h

theorem run_inv (cfg : MrvmCfg) (hmax : 0 < cfg.maxPoints) (schedule : List Nat) (s : ParState) (h : ParInv cfg s) :
    ParInv cfg (s.run cfg schedule) := by
  unfold ParState.run
  induction schedule generalizing s with
  | nil => exact h
  | cons i is ih => exact ih _ (step_inv cfg hmax s i h)

theorem append_cons_eq {α : Type} {l₁ l₂ pre rest : List α} {x : α} (h : l₁ ++ l₂ = pre ++ x :: rest) (hx : x ∉ l₂) :
    ∃ r, l₁ = pre ++ x :: r ∧ rest = r ++ l₂ := by
  rcases List.append_eq_append_iff.1 h with ⟨a, h1, h2⟩ | ⟨a, h1, h2⟩
  · exfalso; apply hx; rw [h2]; simp
  · cases a with
    | nil =>
      simp only [List.nil_append] at h2
      exfalso; apply hx; rw [← h2]; simp
    | cons y a =>
      simp only [List.cons_append, List.cons.injEq] at h2
      obtain ⟨rfl, rfl⟩ := h2
      exact ⟨a, h1, rfl⟩

theorem pointProgram_wf (p : InnerPoint Rat) (path : List Voxel) (e : Voxel) : WellFormed (pointProgram p path e) := by
  intro pre e' rest h
  unfold pointProgram at h
  obtain ⟨r, h1, h2⟩ := append_cons_eq h (by
    simp only [List.mem_flatMap, not_exists, not_and]
    intro v _ hm
    simp at hm)
  cases pre with
  | nil =>
    simp only [List.nil_append, List.cons.injEq, Act.mark.injEq] at h1
    obtain ⟨rfl, rfl⟩ := h1
    exact ⟨[Act.compare e p, Act.brighten e p, Act.readProb e, Act.writeProb e], p, _, by rw [h2]; rfl⟩
  | cons y pre =>
    exfalso
    simp only [List.cons_append, List.cons.injEq] at h1
    have : Act.mark e' ∈ pre ++ Act.mark e' :: r := by simp
    rw [← h1.2] at this
    simp at this

/-- The threads of a cloud always exist, satisfy the structural conditions, and mark exactly the end
voxels. -/
theorem pointThreads_ok (cfg : MrvmCfg) (hr : 0 < cfg.resolution) (origin : Vec3 Rat) (ps : List (InnerPoint Rat)) :
    ∃ ts, pointThreads cfg origin ps = .ok ts ∧ ∀ t ∈ ts, WellFormed t.2 ∧
      ∀ e p, Act.push e p ∈ t.2 → InVoxel cfg.resolution e p := by
  induction ps with
  | nil => exact ⟨[], rfl, by simp⟩
  | cons p ps ih =>
    obtain ⟨ts, h1, h2⟩ := ih
    obtain ⟨path, hp, hray⟩ := bresenham_isRay (voxelOf origin cfg.resolution) (voxelOf ⟨p.x, p.y, p.z⟩ cfg.resolution)
    have hp' : voxelCastingBresenham origin ⟨p.x, p.y, p.z⟩ cfg.resolution = .ok path := hp
    have hlast : path.getLast? = some (endOf cfg.resolution p) := hray.ends
    refine ⟨({}, pointProgram p path.dropLast (endOf cfg.resolution p)) :: ts, ?_, ?_⟩
    · simp only [pointThreads, pointThread]
      rw [hp']
      simp only [Outcome.bind_ok, hlast, Outcome.pure_eq]
      rw [h1]; rfl
    · intro t ht
      rcases List.mem_cons.1 ht with rfl | ht
      · refine ⟨pointProgram_wf _ _ _, ?_⟩
        intro e q hq
        simp only [pointProgram, List.mem_append, List.mem_cons, List.mem_flatMap] at hq
        have : e = endOf cfg.resolution p ∧ q = p := by
          rcases hq with hq | ⟨v, -, hq⟩
          · simpa using hq
          · simp at hq
        rw [this.1, this.2]
        exact endOf_inVoxel _ hr p
      · exact h2 t ht

/-- C25 for the multi-threaded loop, under every schedule: starting from a map in order, at every
moment every occupancy index is in 25..230 and every stored point lies in its voxel; and once all
threads are finished no stored voxel is empty.  (Missing compared with one thread: the limit on the
number of points and the maximal intensity, see the two theorems below.) -/
theorem C25_parallel_partial (cfg : MrvmCfg) (ha : Admissible cfg) (m : VMap)
    (hm : GoodMap cfg.maxPoints cfg.resolution m) (origin : Vec3 Rat) (ps : List (InnerPoint Rat)) :
    ∃ ts, pointThreads cfg origin ps = .ok ts ∧ ∀ schedule : List Nat,
      let s := ({ map := m, threads := ts } : ParState).run cfg schedule
      (∀ v c, s.map v = some c → (25 ≤ c.prob ∧ c.prob ≤ 230) ∧ ∀ p ∈ c.points, InVoxel cfg.resolution v p) ∧
      (s.finished = true → ∀ v c, s.map v = some c → c.points ≠ []) := by
  obtain ⟨ts, h1, h2⟩ := pointThreads_ok cfg ha.res origin ps
  refine ⟨ts, h1, ?_⟩
  intro schedule
  have h0 : ParInv cfg { map := m, threads := ts } :=
    ⟨fun v c h => (hm v c h).prob_range, fun v c h => (hm v c h).inside,
     fun v c h => Or.inl (hm v c h).some_point, fun t ht => (h2 t ht).1, fun t ht => (h2 t ht).2⟩
  have inv := run_inv cfg ha.points schedule _ h0
  refine ⟨fun v c h => ⟨inv.prob v c h, inv.inside v c h⟩, ?_⟩
  intro hfin v c hc
  rcases inv.owed v c hc with h | ⟨t, ht, hp⟩
  · exact h
  · exfalso
    have he : t.2 = [] := by
      have := List.all_eq_true.1 hfin t ht
      simpa using this
    rcases hp with ⟨pre, p, rest, hp⟩ | ⟨p, rest, hp, -⟩
    · rw [he] at hp; simp at hp
    · rw [he] at hp; cases hp

/-- Settings that allow one point per voxel. -/
def mrvmOnePoint : MrvmCfg := { mrvmExample with maxPoints := 1 }

/-- Content of a voxel when a cloud was inserted into the empty map with the given schedule. -/
def parallelCell (cfg : MrvmCfg) (ps : List (InnerPoint Rat)) (schedule : List Nat) (v : Voxel) : Option (Bool × Cell) :=
  match pointThreads cfg ⟨0, 0, 0⟩ ps with
  | .ok ts =>
    let s := ({ map := fun _ => none, threads := ts } : ParState).run cfg schedule
    (s.map v).map (fun c => (s.finished, c))
  | _ => none

/-- C25 is false for the multi-threaded loop: two points that end in the same voxel can both pass the
size check, so that the voxel holds two points although the limit is one. -/
theorem C25_parallel_count_fails : ∃ (ps : List (InnerPoint Rat)) (schedule : List Nat) (v : Voxel) (c : Cell),
    parallelCell mrvmOnePoint ps schedule v = some (true, c) ∧
    mrvmOnePoint.maxPoints < (c.points.length : Int) := by
  refine ⟨[⟨1 / 2, 0, 0, 1, 0⟩, ⟨1 / 4, 0, 0, 1, 0⟩], [0, 0, 0, 0, 0, 0, 1, 1, 1, 1, 1, 1, 0, 1], ⟨0, 0, 0⟩,
    ⟨updateProb (11 / 20) (updateProb (11 / 20) 128), false, 1, [⟨1 / 2, 0, 0, 1, 0⟩, ⟨1 / 4, 0, 0, 1, 0⟩]⟩, ?_, ?_⟩
  · decide +kernel
  · decide

/-- C25 is false for the multi-threaded loop: two threads can compare with the old maximum and write
in the wrong order, leaving a stored point much brighter than the recorded maximum. -/
theorem C25_parallel_intensity_fails : ∃ (ps : List (InnerPoint Rat)) (schedule : List Nat) (v : Voxel) (c : Cell),
    parallelCell mrvmExample ps schedule v = some (true, c) ∧
    ∃ p ∈ c.points, ¬ p.intensity < c.maxIntensity + 1 := by
  refine ⟨[⟨1 / 2, 0, 0, 200, 0⟩, ⟨1 / 4, 0, 0, 1, 0⟩], [0, 0, 1, 1, 0, 1, 0, 0, 0, 0, 1, 1, 1, 1], ⟨0, 0, 0⟩,
    ⟨updateProb (11 / 20) (updateProb (11 / 20) 128), false, 1, [⟨1 / 2, 0, 0, 200, 0⟩, ⟨1 / 4, 0, 0, 1, 0⟩]⟩, ?_, ?_⟩
  · decide +kernel
  · exact ⟨_, List.mem_cons_self .., by norm_num⟩

/-! ### one thread after the other -/

/-- a thread running alone -/
def runActs (cfg : MrvmCfg) : VMap → Local → List Act → VMap × Local
  | m, l, [] => (m, l)
  | m, l, a :: as => runActs cfg (act cfg m l a).1 (act cfg m l a).2 as

theorem runActs_append (cfg : MrvmCfg) (m : VMap) (l : Local) (as bs : List Act) :
    runActs cfg m l (as ++ bs) = runActs cfg (runActs cfg m l as).1 (runActs cfg m l as).2 bs := by
  induction as generalizing m l with
  | nil => rfl
  | cons a as ih => simp only [List.cons_append, runActs, ih]

theorem set_set (m : VMap) (e : Voxel) (c d : Cell) : (m.set e c).set e d = m.set e d := by
  funext w; unfold VMap.set; split <;> rfl

theorem set_modify (m : VMap) (e : Voxel) (c : Cell) (f : Cell → Cell) : (m.set e c).modify e f = m.set e (f c) := by
  funext w
  rw [VMap.modify_apply]
  by_cases hw : w = e
  · simp [VMap.set, hw]
  · simp [VMap.set, hw]

theorem set_self (m : VMap) (e : Voxel) (c : Cell) : (m.set e c) e = some c := by simp [VMap.set]

theorem runActs_head (cfg : MrvmCfg) (m : VMap) (l : Local) (p : InnerPoint Rat) (e : Voxel) :
    (runActs cfg m l [.mark e, .compare e p, .brighten e p, .readProb e, .writeProb e, .checkSize e, .push e p]).1 =
      m.set e (hitCell cfg p ((m e).getD {})) := by
  simp only [runActs, act, set_self, Option.getD_some]
  generalize (m e).getD {} = c
  by_cases h1 : truncInt p.intensity > c.maxIntensity
  · simp only [h1, decide_true, if_true, set_modify, set_self, Option.getD_some]
    by_cases h2 : (c.points.length : Int) < cfg.maxPoints
    · simp [h2, set_modify, hitCell, h1]
    · simp [h2, hitCell, h1]
  · simp only [h1, decide_false, Bool.false_eq_true, if_false, set_modify, set_self, Option.getD_some]
    by_cases h2 : (c.points.length : Int) < cfg.maxPoints
    · simp [h2, set_modify, hitCell, h1]
    · simp [h2, hitCell, h1]

theorem runActs_tail (cfg : MrvmCfg) (path : List Voxel) (m : VMap) (l : Local) :
    (runActs cfg m l (path.flatMap (fun v => [.look v, .readMiss v, .writeMiss v]))).1 = path.foldl (missAt cfg) m := by
  induction path generalizing m l with
  | nil => rfl
  | cons v path ih =>
    rw [List.flatMap_cons, runActs_append, ih, List.foldl_cons]
    congr 1
    have h1 : runActs cfg m l [.look v, .readMiss v, .writeMiss v] =
        if m.free v then (m.modify v (fun c => { c with prob := updateProb cfg.miss ((m v).getD {}).prob }),
          { reg := ((m v).getD {}).prob, flag := m.free v })
        else (m, { l with flag := m.free v }) := by
      simp only [runActs, act]
      by_cases hf : m.free v = true
      · simp only [hf, if_true]
      · simp only [hf, if_false, Bool.false_eq_true]
    rw [h1]
    by_cases hf : m.free v = true
    · rw [if_pos hf]
      unfold VMap.free at hf
      unfold missAt VMap.modify
      split at hf
      · cases hf
      · rename_i c hc
        simp [hc, hf]
    · rw [if_neg hf]
      unfold VMap.free at hf
      unfold missAt
      split at hf
      · rename_i hc; simp [hc]
      · rename_i c hc
        simp [hc, hf]

theorem runActs_program (cfg : MrvmCfg) (m : VMap) (l : Local) (p : InnerPoint Rat) (path : List Voxel) (e : Voxel) :
    (runActs cfg m l (pointProgram p path e)).1 =
      path.foldl (missAt cfg) (m.set e (hitCell cfg p ((m e).getD {}))) := by
  unfold pointProgram
  rw [runActs_append, runActs_tail, runActs_head]

theorem run_alone (cfg : MrvmCfg) (s : ParState) (i : Nat) (l : Local) (as : List Act)
    (h : s.threads[i]? = some (l, as)) :
    s.run cfg (List.replicate as.length i) =
      { map := (runActs cfg s.map l as).1, threads := s.threads.set i ((runActs cfg s.map l as).2, []) } := by
  induction as generalizing s l with
  | nil =>
    simp only [List.length_nil, List.replicate_zero, ParState.run, List.foldl_nil, runActs]
    obtain ⟨hlt, he⟩ := List.getElem?_eq_some_iff.1 h
    rw [← he, List.set_getElem_self]
  | cons a as ih =>
    have hlt := (List.getElem?_eq_some_iff.1 h).1
    have hstep : s.step cfg i =
        { map := (act cfg s.map l a).1, threads := s.threads.set i ((act cfg s.map l a).2, as) } := by
      unfold ParState.step; rw [h]
    simp only [List.length_cons, List.replicate_succ, ParState.run, List.foldl_cons]
    rw [hstep]
    have := ih { map := (act cfg s.map l a).1, threads := s.threads.set i ((act cfg s.map l a).2, as) }
      (act cfg s.map l a).2 (by simp [hlt])
    unfold ParState.run at this
    rw [this]
    simp [runActs]

/-- The single-threaded loop is one of the schedules of the multi-threaded one: some schedule finishes
all threads and leaves the map of the single-threaded insertion. -/
theorem C25_parallel_includes_sequential (cfg : MrvmCfg) (origin : Vec3 Rat) (ps : List (InnerPoint Rat)) (m : VMap)
    (es : List Voxel) :
    ∃ ts r schedule, pointThreads cfg origin ps = .ok ts ∧ insertPoints cfg origin (m, es) ps = .ok r ∧
      (({ map := m, threads := ts } : ParState).run cfg schedule).map = r.1 ∧
      (({ map := m, threads := ts } : ParState).run cfg schedule).finished = true := by
  have gen : ∀ (ps : List (InnerPoint Rat)) (m : VMap) (es : List Voxel),
      ∃ ts r, pointThreads cfg origin ps = .ok ts ∧ insertPoints cfg origin (m, es) ps = .ok r ∧
      ∀ done : List (Local × List Act), (∀ t ∈ done, t.2 = []) → ∃ schedule,
      (({ map := m, threads := done ++ ts } : ParState).run cfg schedule).map = r.1 ∧
      (({ map := m, threads := done ++ ts } : ParState).run cfg schedule).finished = true := by
    intro ps
    induction ps with
    | nil =>
      intro m es
      refine ⟨[], (m, es), rfl, rfl, ?_⟩
      intro done hd
      refine ⟨[], rfl, ?_⟩
      simp only [ParState.run, List.foldl_nil, ParState.finished, List.append_nil, List.all_eq_true]
      intro t ht
      simp [hd t ht]
    | cons p ps ih =>
      intro m es
      obtain ⟨path, hp, hray⟩ := bresenham_isRay (voxelOf origin cfg.resolution) (voxelOf ⟨p.x, p.y, p.z⟩ cfg.resolution)
      have hp' : voxelCastingBresenham origin ⟨p.x, p.y, p.z⟩ cfg.resolution = .ok path := hp
      have hlast : path.getLast? = some (endOf cfg.resolution p) := hray.ends
      have e1 : pointThread cfg origin p = .ok ({}, pointProgram p path.dropLast (endOf cfg.resolution p)) := by
        unfold pointThread
        rw [hp']
        simp only [Outcome.bind_ok, hlast, Outcome.pure_eq]
      have e2 : insertPoint cfg origin (m, es) p = .ok
          (path.dropLast.foldl (missAt cfg) (m.set (endOf cfg.resolution p) (hitCell cfg p ((m (endOf cfg.resolution p)).getD {}))),
            es ++ [endOf cfg.resolution p]) := by
        unfold insertPoint
        rw [hp']
        simp only [Outcome.bind_ok, hlast, Outcome.pure_eq]
      obtain ⟨ts, r, h1, h2, h3⟩ := ih
        (path.dropLast.foldl (missAt cfg) (m.set (endOf cfg.resolution p) (hitCell cfg p ((m (endOf cfg.resolution p)).getD {}))))
        (es ++ [endOf cfg.resolution p])
      refine ⟨({}, pointProgram p path.dropLast (endOf cfg.resolution p)) :: ts, r, ?_, ?_, ?_⟩
      · simp only [pointThreads]; rw [e1]; simp only [Outcome.bind_ok]; rw [h1]; rfl
      · simp only [insertPoints]; rw [e2]; exact h2
      · intro done hd
        have ra := run_alone cfg { map := m, threads := done ++ ({}, pointProgram p path.dropLast (endOf cfg.resolution p)) :: ts }
          done.length {} (pointProgram p path.dropLast (endOf cfg.resolution p)) (by simp)
        rw [runActs_program] at ra
        obtain ⟨sched, h4, h5⟩ := h3 (done ++ [((runActs cfg m {} (pointProgram p path.dropLast (endOf cfg.resolution p))).2, [])])
          (by
            intro t ht
            rcases List.mem_append.1 ht with ht | ht
            · exact hd t ht
            · rw [List.mem_singleton.1 ht])
        refine ⟨List.replicate (pointProgram p path.dropLast (endOf cfg.resolution p)).length done.length ++ sched, ?_, ?_⟩
        · unfold ParState.run at ra ⊢
          rw [List.foldl_append, ra]
          simpa [ParState.run] using h4
        · unfold ParState.run at ra ⊢
          rw [List.foldl_append, ra]
          simpa [ParState.run] using h5
  obtain ⟨ts, r, h1, h2, h3⟩ := gen ps m es
  obtain ⟨sched, h4, h5⟩ := h3 [] (by simp)
  exact ⟨ts, r, sched, h1, h2, by simpa using h4, by simpa using h5⟩

end Verif
