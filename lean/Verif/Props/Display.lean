import Verif.Proofs.Display
import Verif.Props.Connect
import Mathlib.Tactic.Linarith
/-!
C85: what is shown while mapping.
English: the loop lines are exactly the accepted loops between submaps that do not follow one
another, drawn between their current positions; the path is the connected submaps' current poses in
order; the local map is exactly the clouds of the connected submaps near the newest one; every
submap is shown once when it is connected.
-/
namespace Verif
open Spec

section
variable {T E V : Type}

/-- The table of submaps must hold both ends of every loop: with a loop to a submap that is not in it,
drawing stops the program.  `C85_edges` shows that the optimiser never leaves such a table. -/
theorem C85_missing_end (pos : T → V) (items : List (Int × VgItem T)) (x : Int × VgItem T) (hx : x ∈ items)
    (h2 : 2 ≤ x.2.conns.length) (c : Int × T) (hc : c ∈ x.2.conns) (hfar : c.1 - x.1 ≠ 1)
    (hn : vgFind c.1 items = none) : publishEdges pos items = .abort := by
  have key : ∀ cs : List (Int × T), c ∈ cs → itemLines pos items x.1 x.2.pose cs = .abort := by
    intro cs
    induction cs with
    | nil => intro h; cases h
    | cons d cs ih =>
      intro h
      unfold itemLines
      rcases List.mem_cons.mp h with rfl | h
      · rw [if_neg hfar, hn]
      · rw [ih h]
        split
        · rfl
        · split <;> rfl
  have keyr : ∀ l : List (Int × VgItem T), x ∈ l → edgeLines pos items l = .abort := by
    intro l
    induction l with
    | nil => intro h; cases h
    | cons y l ih =>
      intro h
      unfold edgeLines
      rcases List.mem_cons.mp h with rfl | h
      · rw [if_neg (by omega), key _ hc]; rfl
      · rw [ih h]
        split
        · rfl
        · have hno : ∀ cs : List (Int × T), itemLines pos items y.1 y.2.pose cs ≠ .ub := by
            intro cs
            induction cs with
            | nil => unfold itemLines; exact fun h => by cases h
            | cons d cs ihc =>
              unfold itemLines
              split
              · exact ihc
              · split
                · exact fun h => by cases h
                · cases hi : itemLines pos items y.1 y.2.pose cs with
                  | ub => exact absurd hi ihc
                  | ok a => exact fun h => by cases h
                  | abort => exact fun h => by cases h
          cases hi : itemLines pos items y.1 y.2.pose y.2.conns with
          | ub => exact absurd hi (hno _)
          | ok a => rfl
          | abort => rfl
  exact keyr items hx

example : publishEdges (fun t : Nat => t) [(0, ⟨5, [(1, 0), (4, 0)]⟩), (1, ⟨6, []⟩)] = .abort :=
  C85_missing_end _ _ _ (List.mem_cons_self ..) (by decide) (4, 0) (by decide) (by decide) (by decide)

/-- The lines drawn are the accepted loops, each once, between the optimiser's latest positions. -/
theorem C85_edges (o : IsamOpts) (fs : List (IsamFrame T E)) (hv : EdgesValid 0 fs)
    (box : T → Rat × Rat) (big tiny : Rat) (pos : T → V) (f : IsamFrame T E)
    (hf : fs.getLast? = some f) :
    ∃ st lines, isamRun o fs (isamInit T E) = .ok st ∧
      publishEdges pos (vgRun box big tiny st.graph).items = .ok lines ∧
      lines.Perm (((fs.flatMap fun g => g.edges).filter IsFarLoop).map fun e =>
        (pos (f.estimate e.1), pos (f.estimate e.2.1))) := by
  obtain ⟨st, h, hd⟩ := isamRun_done o fs hv
  have hb := edgesValid_bound fs 0 hv
  have hitems := exported_items o hd hf box big tiny
  have hfound : ∀ i < fs.length, vgFind (i : Int) (vgRun box big tiny st.graph).items =
      some ⟨f.estimate i, (leaving i st.doneF).map fun (c : Nat × T) => ((c.1 : Int), c.2)⟩ := by
    intro i hi
    apply vgFind_of_mem (vgRun_items box big tiny st.graph).1
    rw [hitems]
    exact List.mem_map.mpr ⟨i, List.mem_range.mpr hi, rfl⟩
  have hends : ∀ (i : Nat) (c : Nat × T), c ∈ leaving i st.doneF → i < fs.length → c.1 < fs.length := by
    intro i c hc hi
    obtain ⟨g, hg, he⟩ := List.mem_filterMap.mp hc
    cases g with
    | step j t =>
      simp only at he
      split at he
      · simp only [Option.some.injEq] at he
        subst he
        have hm : (j, t) ∈ stepFactors st.doneF := List.mem_filterMap.mpr ⟨_, hg, rfl⟩
        have := hd.inv
        rw [hd.steps] at hm
        have key : ∀ (l : List (IsamFrame T E)) (k : Nat), (j, t) ∈ stepsOf k l → j < k + l.length := by
          intro l
          induction l with
          | nil => intro k hk; cases hk
          | cons g l ih =>
            intro k hk
            rw [stepsOf, List.mem_append] at hk
            simp only [List.length_cons]
            rcases hk with hk | hk
            · split at hk
              · cases hk
              · rw [List.mem_singleton] at hk
                have := (Prod.mk.inj hk).1
                omega
            · have := ih (k + 1) hk
              omega
        have := key fs 0 hm
        simpa using this
      · cases he
    | loop a b t =>
      simp only at he
      split at he
      · simp only [Option.some.injEq] at he
        subst he
        have hm : (a, b, t) ∈ loopFactors st.doneF := List.mem_filterMap.mpr ⟨_, hg, rfl⟩
        rw [hd.loops] at hm
        have := (hb _ hm).2
        simpa using this
      · cases he
    | _ => cases he
  have hrun := edgeLines_ok pos (vgRun box big tiny st.graph).items (fun j => f.estimate j.toNat)
    (vgRun box big tiny st.graph).items (by
      intro x hx c hc
      rw [hitems] at hx
      obtain ⟨i, hi, rfl⟩ := List.mem_map.mp hx
      obtain ⟨d, hdm, rfl⟩ := List.mem_map.mp hc
      have := hends i d hdm (List.mem_range.mp hi)
      exact ⟨_, hfound d.1 this, by simp⟩)
  refine ⟨st, _, h, hrun, ?_⟩
  rw [hitems, List.flatMap_map]
  have hper : ∀ i ∈ List.range fs.length,
      (if ((leaving i st.doneF).map fun (c : Nat × T) => ((c.1 : Int), c.2)).length ≤ 1 then []
        else (((leaving i st.doneF).map fun (c : Nat × T) => ((c.1 : Int), c.2)).filter
          fun c => decide (c.1 - (i : Int) ≠ 1)).map fun c =>
            (pos (f.estimate i), pos (f.estimate c.1.toNat))) =
      (((fs.flatMap fun g => g.edges).filter IsFarLoop).filter fun e => decide (e.1 = i)).map fun e =>
        (pos (f.estimate e.1), pos (f.estimate e.2.1)) := by
    intro i hi
    have hi' := List.mem_range.mp hi
    have hR : ((((fs.flatMap fun g => g.edges).filter IsFarLoop).filter fun e => decide (e.1 = i)).map
        fun e => (pos (f.estimate e.1), pos (f.estimate e.2.1))) =
        ((leaving i st.doneF).filter (fun c => decide (c.1 ≠ i + 1))).map fun c =>
          (pos (f.estimate i), pos (f.estimate c.1)) := by
      rw [leaving_far, hd.loops, List.filter_filter, List.map_map]
      apply List.map_congr_left
      intro e he
      have := (List.mem_filter.mp he).2
      simp only [Bool.and_eq_true, decide_eq_true_eq] at this
      simp [this.1]
    rw [hR]
    split
    · next hle =>
      rw [List.length_map] at hle
      symm
      rw [List.map_eq_nil_iff, List.filter_eq_nil_iff]
      intro c hc hne
      rw [decide_eq_true_eq] at hne
      have hcn : c ∈ (leaving i st.doneF).filter (fun c => decide (c.1 ≠ i + 1)) :=
        List.mem_filter.mpr ⟨hc, by simpa using hne⟩
      rw [leaving_far, hd.loops] at hcn
      obtain ⟨e, he, rfl⟩ := List.mem_map.mp hcn
      obtain ⟨hem, hep⟩ := List.mem_filter.mp he
      simp only [Bool.and_eq_true, decide_eq_true_eq] at hep
      have hbe := hb e hem
      obtain ⟨t, ht⟩ := stepsOf_mem fs 0 (i + 1) (by omega) (by omega) (by omega)
      rw [← hd.steps] at ht
      have := length_le_one_mem hle hc (leaving_step ht)
      rw [this] at hne
      exact hne rfl
    · rw [List.filter_map, List.map_map]
      have : (fun c : Int × T => decide (c.1 - (i : Int) ≠ 1)) ∘ (fun c : Nat × T => ((c.1 : Int), c.2)) =
          fun c : Nat × T => decide (c.1 ≠ i + 1) := by
        funext c
        simp only [Function.comp]
        congr 1
        rw [eq_iff_iff]
        omega
      rw [this]
      rfl
  rw [List.flatMap_congr hper, ← List.map_flatMap]
  refine List.Perm.map _ ?_
  refine (buckets_perm (fun e : Nat × Nat × T => e.1) _ _).trans (List.Perm.of_eq ?_)
  rw [List.filter_eq_self]
  intro e he
  have := hb e (List.mem_filter.mp he).1
  rw [decide_eq_true_eq]
  omega

end

section
variable {G : Type} [Group G]

/-- When the loop over the new submaps has ended, the path shown is the connected submaps' poses in
their order. -/
theorem C85_path (es : List (ConnEv G)) {st : Conn G} {last : Nat}
    (h : (Conn.init : Conn G).run es = .ok st) (hp : st.pc = .connect last) :
    shownPath st = st.added.map st.pose := by
  obtain ⟨st1, h1, hi⟩ := connInv_run es (connInv_init (G := G))
  rw [h] at h1
  simp only [Outcome.ok.injEq] at h1
  subst h1
  obtain ⟨a, b, c, _⟩ := hi.pcConnect last hp
  rw [(hi.added c).1]
  unfold shownPath
  congr 1
  have hlt : st.fin + 1 ≤ st.size := by omega
  obtain ⟨k, hk⟩ := Nat.exists_eq_add_of_le hlt
  rw [hk, List.range_add, List.filter_append]
  have e1 : (List.range (st.fin + 1)).filter (fun i => decide (i ≤ st.fin)) = List.range (st.fin + 1) := by
    rw [List.filter_eq_self]
    intro i hi
    have := List.mem_range.mp hi
    rw [decide_eq_true_eq]
    omega
  have e2 : ((List.range k).map fun x => st.fin + 1 + x).filter (fun i => decide (i ≤ st.fin)) = [] := by
    rw [List.filter_eq_nil_iff]
    intro i hi
    obtain ⟨x, _, rfl⟩ := List.mem_map.mp hi
    rw [decide_eq_true_eq]
    omega
  rw [e1, e2, List.append_nil]

theorem shownSubmaps_from (es : List (ConnEv G)) : ∀ {st st' : Conn G}, ConnInv st →
    st.run es = .ok st' →
    (shownSubmaps st es).map Prod.fst = (List.range (st'.fin - st.fin)).map (st.fin + 1 + ·) ∧
      st.fin ≤ st'.fin := by
  induction es with
  | nil =>
    intro st st' _ h
    simp only [Conn.run, Outcome.ok.injEq] at h
    subst h
    simp [shownSubmaps]
  | cons e es ih =>
    intro st st' hi h
    obtain ⟨st1, h1, hi1⟩ := connInv_step e hi
    simp only [Conn.run, h1, Outcome.bind_ok] at h
    obtain ⟨a, b⟩ := ih hi1 h
    simp only [shownSubmaps, h1, List.map_append, a]
    have keep : st1.fin = st.fin →
        (List.range (st'.fin - st1.fin)).map (st1.fin + 1 + ·) =
          (List.range (st'.fin - st.fin)).map (st.fin + 1 + ·) ∧ st.fin ≤ st'.fin := by
      intro hk; rw [hk] at b ⊢; exact ⟨rfl, b⟩
    cases e with
    | connect upd =>
      simp only [Conn.step] at h1
      cases hpc : st.pc with
      | connect last =>
        rw [hpc] at h1
        simp only at h1 ⊢
        by_cases hl : st.fin < last
        · rw [if_pos hl] at h1
          simp only [Outcome.ok.injEq] at h1
          have hfin : st1.fin = st.fin + 1 := by rw [← h1]
          rw [if_pos hl, hfin]
          rw [hfin] at b
          refine ⟨?_, by omega⟩
          have : st'.fin - st.fin = (st'.fin - (st.fin + 1)) + 1 := by omega
          rw [this, List.range_succ_eq_map]
          simp only [List.map_cons, List.map_nil, List.singleton_append, Nat.add_zero, List.map_map]
          congr 1
          apply List.map_congr_left
          intro x _
          simp only [Function.comp]
          omega
        · rw [if_neg hl] at h1
          simp only [Outcome.ok.injEq] at h1
          rw [if_neg hl]
          exact keep (by rw [← h1])
      | _ =>
        rw [hpc] at h1
        simp only [Outcome.ok.injEq] at h1
        exact keep (by rw [← h1])
    | push g =>
      simp only [Conn.step] at h1
      split at h1 <;> simp only [Outcome.ok.injEq] at h1 <;> exact keep (by rw [← h1])
    | setDone =>
      simp only [Conn.step, Outcome.ok.injEq] at h1
      exact keep (by rw [← h1])
    | pairMatch i t =>
      simp only [Conn.step] at h1
      split at h1
      · obtain ⟨_, _, h2⟩ := (Outcome.bind_eq_ok _ _ _).mp h1
        simp only [Outcome.pure_eq, Outcome.ok.injEq] at h2
        exact keep (by rw [← h2])
      · simp only [Outcome.ok.injEq] at h1
        exact keep (by rw [← h1])
    | read =>
      simp only [Conn.step] at h1
      split at h1 <;> simp only [Outcome.ok.injEq] at h1 <;> exact keep (by rw [← h1])
    | collect =>
      simp only [Conn.step] at h1
      split at h1
      · split at h1
        · simp only [Outcome.ok.injEq] at h1; exact keep (by rw [← h1])
        · split at h1 <;> simp only [Outcome.ok.injEq] at h1 <;> exact keep (by rw [← h1])
      · simp only [Outcome.ok.injEq] at h1; exact keep (by rw [← h1])
    | test =>
      simp only [Conn.step] at h1
      split at h1
      · split at h1
        · split at h1
          · split at h1
            · simp only [Outcome.ok.injEq] at h1; exact keep (by rw [← h1])
            · obtain ⟨_, _, h2⟩ := (Outcome.bind_eq_ok _ _ _).mp h1
              simp only [Outcome.pure_eq, Outcome.ok.injEq] at h2
              exact keep (by rw [← h2])
          · simp only [Outcome.ok.injEq] at h1; exact keep (by rw [← h1])
        · simp only [Outcome.ok.injEq] at h1; exact keep (by rw [← h1])
      · simp only [Outcome.ok.injEq] at h1; exact keep (by rw [← h1])

/-- Every submap after the first is shown once, in order, when it is connected.  Missing: the first
one (`C85_first_submap_fails`). -/
theorem C85_submaps_partial (es : List (ConnEv G)) {st : Conn G}
    (h : (Conn.init : Conn G).run es = .ok st) :
    (shownSubmaps Conn.init es).map Prod.fst = st.added.drop 1 := by
  obtain ⟨st1, h1, hi⟩ := connInv_run es (connInv_init (G := G))
  rw [h] at h1
  simp only [Outcome.ok.injEq] at h1
  subst h1
  obtain ⟨a, _⟩ := shownSubmaps_from es (connInv_init (G := G)) h
  rw [a]
  by_cases hf : st.first = true
  · rw [(hi.added hf).1, List.range_succ_eq_map, List.drop_one, List.tail_cons]
    apply List.map_congr_left
    intro x _
    simp [Conn.init]
    omega
  · have := hi.first (by simpa using hf)
    rw [this.1, this.2]
    rfl

/-- The pose shown with a submap is the one the optimiser gave it when it was added. -/
theorem C85_submap_pose (st : Conn G) (upd : Nat → G → G) (last : Nat) (hp : st.pc = .connect last)
    (hl : st.fin < last) :
    shownSubmaps st [.connect upd] =
      [(st.fin + 1, upd (st.fin + 1) (st.pose st.fin * st.toNext st.fin))] := by
  simp [shownSubmaps, Conn.step, hp, hl]

/-- The first submap is never shown. -/
theorem C85_first_submap_fails (g t : G) :
    (shownSubmaps (Conn.init : Conn G) [.push g, .push g, .pairMatch 0 t, .read, .test, .collect,
      .collect, .connect (fun _ g => g), .connect (fun _ g => g)]).map Prod.fst = [1] := rfl

end

theorem tooFar_iff {C : Type} (s n : ShownMap C) : tooFar s n = false ↔ Nearby n s := by
  unfold tooFar Nearby
  rw [Bool.or_eq_false_iff, decide_eq_false_iff_not, decide_eq_false_iff_not, not_le, not_le]
  constructor
  · rintro ⟨a, b⟩; exact ⟨by nlinarith, b⟩
  · rintro ⟨a, b⟩; exact ⟨by nlinarith, b⟩

/-- The local map is the clouds of exactly those connected submaps that are near the newest, in
order. -/
theorem C85_local_map {C : Type} (all : List (ShownMap C)) (fin : Nat) (n : ShownMap C)
    (hn : all[fin]? = some n) (hidx : ∀ (i : Nat) (s : ShownMap C), all[i]? = some s → s.index = i) :
    ∃ (pts : List C) (near : List (ShownMap C)), localMap all fin = .ok pts ∧ pts = near.flatMap (fun s => s.cloud) ∧
      near.Sublist all ∧ (∀ s ∈ all, s ∈ near ↔ s.index ≤ (fin : Int) ∧ Nearby n s) ∧ n ∈ near := by
  have key : ∀ (l : List (ShownMap C)) (k : Nat), (∀ (i : Nat) (s : ShownMap C), l[i]? = some s → s.index = (k + i : Nat)) →
      localMapFrom all fin l =
        .ok ((l.filter fun s => decide (s.index ≤ (fin : Int)) && !tooFar s n).flatMap fun s => s.cloud) := by
    intro l
    induction l with
    | nil => intro k _; rfl
    | cons s l ih =>
      intro k hk
      have hs : s.index = (k : Nat) := by simpa using hk 0 s rfl
      have ih' := ih (k + 1) fun i s' h' => by
        have := hk (i + 1) s' (by simpa using h')
        rw [this]; push_cast; ring
      unfold localMapFrom
      by_cases hlt : (fin : Int) < s.index
      · rw [if_pos hlt]
        have : (s :: l).filter (fun s => decide (s.index ≤ (fin : Int)) && !tooFar s n) = [] := by
          rw [List.filter_eq_nil_iff]
          intro x hx
          obtain ⟨i, hi⟩ := List.mem_iff_getElem?.mp hx
          have := hk i x hi
          have : ¬ x.index ≤ (fin : Int) := by omega
          simp [this]
        rw [this]; rfl
      · rw [if_neg hlt, hn]
        have hle : s.index ≤ (fin : Int) := by omega
        simp only [ih', Outcome.bind_ok, Outcome.pure_eq]
        cases ht : tooFar s n with
        | true => simp [List.filter_cons, ht]
        | false => simp [List.filter_cons, ht, hle]
  refine ⟨_, _, key all 0 (by simpa using hidx), rfl, List.filter_sublist, ?_, ?_⟩
  · intro s hs
    rw [List.mem_filter, ← tooFar_iff]
    simp [hs]
  · rw [List.mem_filter]
    refine ⟨List.mem_of_getElem? hn, ?_⟩
    have h1 := hidx fin n hn
    have h2 : tooFar n n = false := by
      rw [tooFar_iff]; unfold Nearby
      simp
    simp [h1, h2]

/-- Instance: three submaps; the first is 40 m away, the second on another floor, the third is the
newest but one. -/
example : localMap [⟨0, 40, 0, 0, [1]⟩, ⟨1, 0, 0, 3, [2]⟩, ⟨2, 10, 0, 0, [3]⟩, ⟨3, 0, 0, 0, [4, 5]⟩,
    (⟨4, 0, 0, 0, [6]⟩ : ShownMap Nat)] 3 = .ok [3, 4, 5] := by
  decide +kernel

/-- A frame with the given loop edges, whose poses are numbers. -/
def edgeFrame (l : List (Nat × Nat × Nat)) : IsamFrame Nat Unit :=
  { pose := 0, fromLast := 0, gps := none, odom := none, edges := l, rotation := 0,
    estimate := fun i => 10 * i }

/-- The lines shown for frames. -/
def linesOf (fs : List (IsamFrame Nat Unit)) : Outcome (List (Nat × Nat)) :=
  match isamRun ⟨false, false, false, 0, 0, 0⟩ fs (isamInit Nat Unit) with
  | .ok st => publishEdges id (vgRun (fun _ => (0, 0)) 1 0 st.graph).items
  | .abort => .abort
  | .ub => .ub

/-- Instance: loops from submap 3 to 1 and from 4 to 0; the odometry edges are not drawn. -/
example : linesOf [edgeFrame [], edgeFrame [], edgeFrame [], edgeFrame [(1, 3, 7)],
    edgeFrame [(0, 4, 7)]] = .ok [(0, 40), (10, 30)] := by
  decide +kernel

end Verif
