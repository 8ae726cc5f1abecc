import Verif.Proofs.MultiTraj
import Verif.Proofs.Outcome
import Verif.Spec.JoinMaps
import Mathlib.Data.List.Nodup
import Mathlib.Data.List.TakeDrop
import Mathlib.Tactic.Ring
/-! Proofs about the calls of the optimiser of several trajectories. -/
namespace Verif
open Spec

variable {G : Type}

theorem linksOf_append (a b : List (JoinFactor G)) : linksOf (a ++ b) = linksOf a ++ linksOf b := by
  unfold linksOf; rw [List.filterMap_append]

theorem priorsOf_append (k : UInt64) (a b : List (JoinFactor G)) :
    priorsOf k (a ++ b) = priorsOf k a ++ priorsOf k b := by
  unfold priorsOf; rw [List.filterMap_append]

structure JoinInv (st : JoinState G) (added : List (SubmapId × G)) : Prop where
  frames : st.frames.map (fun s => (s.id, s.pose)) = added
  keys : st.keys = added.map fun e => submapKey e.1
  nodup : st.keys.Nodup
  pend : linksOf st.pend = []
  prior : ∀ k p, JoinFactor.prior k p ∈ st.pend ∨ JoinFactor.prior k p ∈ st.done →
    ∃ e ∈ added, submapKey e.1 = k ∧ submapIndexOfKey k = 0 ∧ e.2 = p
  first : ∀ e ∈ added, submapIndexOfKey (submapKey e.1) = 0 →
    JoinFactor.prior (submapKey e.1) e.2 ∈ st.done

theorem JoinInv.keys' {st : JoinState G} {added : List (SubmapId × G)} (hi : JoinInv st added) :
    st.keys = (added.map (·.1)).map submapKey := by rw [hi.keys, List.map_map]; rfl

theorem joinVertex_inv {s : JoinSubmap G} {st st' : JoinState G} {added : List (SubmapId × G)}
    (hi : JoinInv st added)
    (h : joinVertex (submapKey s.id) s.pose { st with frames := st.frames ++ [s] } = .ok st') :
    JoinInv st' (added ++ [(s.id, s.pose)]) ∧ linksOf st'.done = linksOf st.done := by
  unfold joinVertex at h
  split at h
  · cases h
  rename_i hk
  dsimp only at h hk
  push Not at hk
  injection h with h
  subst h
  by_cases h0 : submapIndexOfKey (submapKey s.id) = 0
  · simp only [if_pos h0]
    refine ⟨⟨?_, ?_, ?_, ?_, ?_, ?_⟩, ?_⟩
    · simp [hi.frames]
    · simp [hi.keys]
    · rw [List.nodup_append]
      refine ⟨hi.nodup, by simp, ?_⟩
      intro a ha b hb
      rw [List.mem_singleton] at hb
      subst hb
      rintro rfl
      exact hk.2 ha
    · show linksOf (st.pend ++ _) = []
      rw [linksOf_append, hi.pend]; rfl
    · intro k p hkp
      simp only [List.mem_append, List.mem_singleton] at hkp
      have : (JoinFactor.prior k p ∈ st.pend ∨ JoinFactor.prior k p ∈ st.done) ∨
          JoinFactor.prior k p = JoinFactor.prior (submapKey s.id) s.pose := by tauto
      rcases this with h | h
      · obtain ⟨e, he, r⟩ := hi.prior k p h
        exact ⟨e, List.mem_append_left _ he, r⟩
      · injection h with h1 h2
        exact ⟨(s.id, s.pose), by simp, h1.symm, h1 ▸ h0, h2.symm⟩
    · intro e he h1
      rw [List.mem_append, List.mem_singleton] at he
      rcases he with he | rfl
      · exact List.mem_append_left _ (hi.first e he h1)
      · simp
    · show linksOf (st.done ++ (st.pend ++ _)) = _
      rw [linksOf_append, linksOf_append, hi.pend]; simp [linksOf]
  · simp only [if_neg h0]
    refine ⟨⟨?_, ?_, ?_, hi.pend, ?_, ?_⟩, ?_⟩
    · simp [hi.frames]
    · simp [hi.keys]
    · rw [List.nodup_append]
      refine ⟨hi.nodup, by simp, ?_⟩
      intro a ha b hb
      rw [List.mem_singleton] at hb
      subst hb
      rintro rfl
      exact hk.2 ha
    · intro k p hkp
      simp only [List.mem_append] at hkp
      obtain ⟨e, he, r⟩ := hi.prior k p (by tauto)
      exact ⟨e, List.mem_append_left _ he, r⟩
    · intro e he h1
      rw [List.mem_append, List.mem_singleton] at he
      rcases he with he | rfl
      · exact List.mem_append_left _ (hi.first e he h1)
      · exact absurd h1 h0
    · show linksOf (st.done ++ st.pend) = _
      rw [linksOf_append, hi.pend]; simp

theorem joinFactor_inv {a b : SubmapId} {t : G} {p : Bool} {st st' : JoinState G}
    {added : List (SubmapId × G)} (hi : JoinInv st added) (h : joinFactor a b t p st = .ok st') :
    JoinInv st' added ∧ linksOf st'.done = linksOf st.done ++ [(submapKey a, submapKey b, t, p)] := by
  unfold joinFactor at h
  split at h
  · injection h with h
    subst h
    refine ⟨⟨hi.frames, hi.keys, hi.nodup, rfl, ?_, ?_⟩, ?_⟩
    · intro k q hk
      simp only [List.mem_append, List.mem_singleton, List.not_mem_nil, false_or, reduceCtorEq,
        or_false] at hk
      exact hi.prior k q (by tauto)
    · intro e he h1
      exact List.mem_append_left _ (hi.first e he h1)
    · show linksOf (st.done ++ (st.pend ++ _)) = _
      rw [linksOf_append, linksOf_append, hi.pend]; rfl
  · cases h

theorem joinNote_same (a b : SubmapId) (l : List (JoinSubmap G)) :
    (joinNote a b l).map (fun s => (s.id, s.pose)) = l.map fun s => (s.id, s.pose) := by
  unfold joinNote
  rw [List.map_map]
  apply List.map_congr_left
  intro s _
  simp only [Function.comp_apply]
  split <;> rfl

theorem joinConnect_inv {a b : SubmapId} {t : G} {p : Bool} {st st' : JoinState G}
    {added : List (SubmapId × G)} (hi : JoinInv st added) (h : joinConnect a b t p st = .ok st') :
    JoinInv st' added ∧ linksOf st'.done = linksOf st.done ++ [(submapKey a, submapKey b, t, p)] := by
  unfold joinConnect at h
  cases p with
  | false => exact joinFactor_inv hi h
  | true =>
    simp only [if_true] at h
    split at h
    · cases h
    · split at h
      · refine joinFactor_inv (st := { st with frames := joinNote a b st.frames }) ?_ h
        exact ⟨by rw [joinNote_same]; exact hi.frames, hi.keys, hi.nodup, hi.pend, hi.prior, hi.first⟩
      · cases h

theorem joinLoops_inv {s : SubmapId} {added : List (SubmapId × G)} : ∀ {loops : List (Nat × G)}
    {st st' : JoinState G}, JoinInv st added → joinLoops s loops st = .ok st' →
    JoinInv st' added ∧ linksOf st'.done = linksOf st.done ++
      keyed (loops.filterMap fun p => (added.map (·.1))[p.1]?.map fun i => (i, s, p.2, true)) ∧
    ∀ p ∈ loops, ∃ i, (added.map (·.1))[p.1]? = some i ∧ i.trajectory ≠ s.trajectory := by
  intro loops
  induction loops with
  | nil =>
    intro st st' hi h
    injection h with h
    subst h
    exact ⟨hi, by simp [keyed], by simp⟩
  | cons c r ih =>
    obtain ⟨i, t⟩ := c
    intro st st' hi h
    simp only [joinLoops] at h
    split at h
    · cases h
    rename_i target ht
    split at h
    · cases h
    rename_i hne
    obtain ⟨st1, h1, h2⟩ := (Outcome.bind_eq_ok _ _ _).1 h
    obtain ⟨i1, l1⟩ := joinConnect_inv hi h1
    obtain ⟨i2, l2, l3⟩ := ih i1 h2
    have hid : (added.map (·.1))[i]? = some target.id := by
      rw [← hi.frames, List.map_map, List.getElem?_map, ht]; rfl
    refine ⟨i2, ?_, ?_⟩
    · rw [l2, l1, List.filterMap_cons, hid]
      simp [keyed]
    · intro p hp
      rcases List.mem_cons.1 hp with rfl | hp
      · exact ⟨_, hid, hne⟩
      · exact l3 p hp

theorem joinStep_inv {c : JoinCall G} {st st' : JoinState G} {added : List (SubmapId × G)}
    (hi : JoinInv st added) (h : joinStep st c = .ok st') :
    JoinInv st' (added ++ addedBy [c]) ∧
      linksOf st'.done = linksOf st.done ++ keyed (askedBy (added.map (·.1)) [c]) := by
  cases c with
  | submap s loops =>
    obtain ⟨st1, h1, h2⟩ := (Outcome.bind_eq_ok _ _ _).1 h
    obtain ⟨i1, l1⟩ := joinVertex_inv hi h1
    obtain ⟨i2, l2, -⟩ := joinLoops_inv i1 h2
    refine ⟨i2, ?_⟩
    rw [l2, l1]
    simp [askedBy]
  | link a b t =>
    obtain ⟨i1, l1⟩ := joinConnect_inv hi h
    refine ⟨?_, l1⟩
    simpa [addedBy] using i1

theorem addedBy_append (a b : List (JoinCall G)) : addedBy (a ++ b) = addedBy a ++ addedBy b := by
  unfold addedBy; rw [List.filterMap_append]

theorem askedBy_append (ids : List SubmapId) (a b : List (JoinCall G)) :
    askedBy ids (a ++ b) = askedBy ids a ++ askedBy (ids ++ (addedBy a).map (·.1)) b := by
  induction a generalizing ids with
  | nil => simp [askedBy, addedBy]
  | cons c r ih =>
    cases c with
    | submap s loops =>
      rw [List.cons_append, askedBy, askedBy, ih]
      simp [addedBy]
    | link x y t =>
      rw [List.cons_append, askedBy, askedBy, ih]
      simp [addedBy]

theorem joinRun_inv : ∀ {calls : List (JoinCall G)} {st st' : JoinState G} {added : List (SubmapId × G)},
    JoinInv st added → joinRun calls st = .ok st' →
    JoinInv st' (added ++ addedBy calls) ∧
      linksOf st'.done = linksOf st.done ++ keyed (askedBy (added.map (·.1)) calls) := by
  intro calls
  induction calls with
  | nil =>
    intro st st' added hi h
    injection h with h
    subst h
    simpa [addedBy, askedBy, keyed] using hi
  | cons c r ih =>
    intro st st' added hi h
    obtain ⟨st1, h1, h2⟩ := (Outcome.bind_eq_ok _ _ _).1 h
    obtain ⟨i1, l1⟩ := joinStep_inv hi h1
    obtain ⟨i2, l2⟩ := ih i1 h2
    rw [show c :: r = [c] ++ r from rfl, addedBy_append, askedBy_append]
    refine ⟨by rw [← List.append_assoc]; exact i2, ?_⟩
    rw [l2, l1]
    simp [keyed]

theorem joinInit_inv : JoinInv (joinInit G) [] :=
  ⟨rfl, rfl, List.nodup_nil, rfl, by simp [joinInit], by simp⟩

theorem joinRun_append (a b : List (JoinCall G)) (st : JoinState G) :
    joinRun (a ++ b) st = (joinRun a st >>= joinRun b) := by
  induction a generalizing st with
  | nil => rfl
  | cons c r ih =>
    show (joinStep st c >>= fun st => joinRun (r ++ b) st) = ((joinStep st c >>= fun st => joinRun r st) >>= _)
    cases joinStep st c with
    | ok x => exact ih x
    | abort => rfl
    | ub => rfl

/-! Acceptance. -/

/-- Ids in order of arrival: every one is the next of its trajectory. -/
inductive InOrder : List SubmapId → Prop where
  | nil : InOrder []
  | snoc (ids : List SubmapId) (x : SubmapId) : InOrder ids →
      (0 ≤ x.trajectory ∧ x.trajectory < 16777216 ∧ x.submap < 2147483648 ∧
        x.submap = ((ids.filter fun i => decide (i.trajectory = x.trajectory)).length : Int)) →
      InOrder (ids ++ [x])

theorem inOrder_find {ids : List SubmapId} (h : InOrder ids) : ∀ x ∈ ids,
    (0 ≤ x.trajectory ∧ x.trajectory < 16777216 ∧ 0 ≤ x.submap ∧ x.submap < 2147483648) ∧
    (ids.filter fun i => decide (i.trajectory = x.trajectory))[x.submap.toNat]? = some x := by
  induction h with
  | nil => simp
  | snoc ids y hy hx ih =>
    intro x hmem
    rw [List.mem_append, List.mem_singleton] at hmem
    rw [List.filter_append]
    rcases hmem with hm | rfl
    · obtain ⟨r, e⟩ := ih x hm
      refine ⟨r, ?_⟩
      rw [List.getElem?_append_left]
      · exact e
      · by_contra hc
        rw [List.getElem?_eq_none (by omega)] at e
        cases e
    · obtain ⟨a, b, c, d⟩ := hx
      refine ⟨⟨a, b, by omega, c⟩, ?_⟩
      have : x.submap.toNat = (ids.filter fun i => decide (i.trajectory = x.trajectory)).length := by
        omega
      rw [this, List.getElem?_append_right (le_refl _)]
      simp

theorem inOrder_fresh {ids : List SubmapId} (h : InOrder ids) {x : SubmapId}
    (hx : 0 ≤ x.trajectory ∧ x.trajectory < 16777216 ∧ x.submap < 2147483648 ∧
      x.submap = ((ids.filter fun i => decide (i.trajectory = x.trajectory)).length : Int)) :
    submapKey x ∉ ids.map submapKey := by
  intro hm
  obtain ⟨y, hy, e⟩ := List.mem_map.1 hm
  obtain ⟨r, f⟩ := inOrder_find h y hy
  obtain ⟨a, b, c, d⟩ := hx
  have : y = x := submapKey_inj ⟨by omega, by omega, by omega, by omega⟩
    ⟨by omega, by omega, by omega, by omega⟩ e
  subst this
  rw [List.getElem?_eq_none (by omega)] at f
  cases f

theorem symbolFits_key {x : SubmapId}
    (hx : 0 ≤ x.trajectory ∧ x.trajectory < 16777216 ∧ 0 ≤ x.submap ∧ x.submap < 2147483648) :
    symbolFits (submapKey x) = true := by
  unfold symbolFits
  rw [decide_eq_true_iff, submapKey_toNat]
  omega

theorem joinConnect_ok {a b : SubmapId} {t : G} {p : Bool} {st : JoinState G}
    {added : List (SubmapId × G)} (hi : JoinInv st added) (ho : InOrder (added.map (·.1)))
    (ha : a ∈ added.map (·.1)) (hb : b ∈ added.map (·.1)) :
    ∃ st', joinConnect a b t p st = .ok st' := by
  have key : ∀ x ∈ added.map (·.1), submapKey x ∈ st.keys := by
    intro x hx
    rw [hi.keys']
    exact List.mem_map_of_mem hx
  unfold joinConnect
  cases p with
  | false =>
    simp only [joinFactor, if_pos (And.intro (key a ha) (key b hb))]
    exact ⟨_, rfl⟩
  | true =>
    obtain ⟨r, f⟩ := inOrder_find ho a ha
    have hids : st.frames.map (·.id) = added.map (·.1) := by
      rw [← hi.frames, List.map_map]; rfl
    have : ∃ s, (joinTrajectory a.trajectory st)[a.submap.toNat]? = some s ∧ s.id = a := by
      have e : (joinTrajectory a.trajectory st).map (·.id) =
          (added.map (·.1)).filter fun i => decide (i.trajectory = a.trajectory) := by
        rw [← hids, List.filter_map]; rfl
      rw [← e, List.getElem?_map] at f
      obtain ⟨s, h1, h2⟩ := Option.map_eq_some_iff.1 f
      exact ⟨s, h1, h2⟩
    obtain ⟨s, h1, h2⟩ := this
    simp only [if_true, if_pos r.2.2.1, h1, if_pos h2, joinFactor,
      if_pos (And.intro (key a ha) (key b hb))]
    exact ⟨_, rfl⟩

theorem joinLoops_ok {s : SubmapId} {added : List (SubmapId × G)} (ho : InOrder (added.map (·.1)))
    (hs : s ∈ added.map (·.1)) : ∀ (loops : List (Nat × G)) (st : JoinState G), JoinInv st added →
    (∀ p ∈ loops, ∃ i, (added.map (·.1))[p.1]? = some i ∧ i.trajectory ≠ s.trajectory) →
    ∃ st', joinLoops s loops st = .ok st' := by
  intro loops
  induction loops with
  | nil => intro st _ _; exact ⟨st, rfl⟩
  | cons c r ih =>
    obtain ⟨i, t⟩ := c
    intro st hi hl
    obtain ⟨x, hx, hne⟩ := hl (i, t) (by simp)
    dsimp only at hx
    have hf : ∃ f, st.frames[i]? = some f ∧ f.id = x := by
      rw [← hi.frames, List.map_map, List.getElem?_map] at hx
      obtain ⟨f, h1, h2⟩ := Option.map_eq_some_iff.1 hx
      exact ⟨f, h1, h2⟩
    obtain ⟨f, hf, rfl⟩ := hf
    obtain ⟨st1, h1⟩ := joinConnect_ok (t := t) (p := true) hi ho (List.mem_of_getElem? hx) hs
    obtain ⟨st2, h2⟩ := ih st1 (joinConnect_inv hi h1).1 fun p hp => hl p (List.mem_cons_of_mem _ hp)
    refine ⟨st2, ?_⟩
    simp only [joinLoops, hf, if_neg hne, h1, Outcome.bind_ok, h2]

theorem joinRun_ok : ∀ (calls : List (JoinCall G)) (st : JoinState G) (added : List (SubmapId × G)),
    JoinInv st added → InOrder (added.map (·.1)) → Acceptable (added.map (·.1)) calls →
    ∃ st', joinRun calls st = .ok st' := by
  intro calls
  induction calls with
  | nil => intro st _ _ _ _; exact ⟨st, rfl⟩
  | cons c r ih =>
    intro st added hi ho ha
    cases c with
    | submap s loops =>
      obtain ⟨hx, hl, hr⟩ := ha
      have ho' : InOrder ((added ++ [(s.id, s.pose)]).map (·.1)) := by
        rw [List.map_append]; exact InOrder.snoc _ _ ho hx
      have hv : ∃ st1, joinVertex (submapKey s.id) s.pose { st with frames := st.frames ++ [s] } =
          .ok st1 := by
        unfold joinVertex
        rw [if_neg]
        · exact ⟨_, rfl⟩
        · rintro (h | h)
          · rw [symbolFits_key ⟨hx.1, hx.2.1, by omega, hx.2.2.1⟩] at h
            cases h
          · dsimp only at h
            rw [hi.keys'] at h
            exact inOrder_fresh ho hx h
      obtain ⟨st1, h1⟩ := hv
      obtain ⟨i1, -⟩ := joinVertex_inv hi h1
      obtain ⟨st2, h2⟩ := joinLoops_ok (s := s.id) ho' (by simp) loops st1 i1 (by
        intro p hp
        obtain ⟨i, e, hne⟩ := hl p hp
        refine ⟨i, ?_, hne⟩
        rw [List.map_append, List.getElem?_append_left]
        · exact e
        · by_contra hc
          rw [List.getElem?_eq_none (by omega)] at e
          cases e)
      have hs : joinStep st (.submap s loops) = .ok st2 := by
        simp only [joinStep, h1, Outcome.bind_ok, h2]
      obtain ⟨st3, h3⟩ := ih st2 _ (joinLoops_inv i1 h2).1 ho' (by
        rw [List.map_append]; exact hr)
      exact ⟨st3, by simp only [joinRun, hs, Outcome.bind_ok, h3]⟩
    | link a b t =>
      obtain ⟨h1, h2, hr⟩ := ha
      obtain ⟨st1, e1⟩ := joinConnect_ok (t := t) (p := false) hi ho h1 h2
      obtain ⟨st2, e2⟩ := ih st1 _ (joinConnect_inv hi e1).1 ho hr
      exact ⟨st2, by simp only [joinRun, joinStep, e1, Outcome.bind_ok, e2]⟩

/-! From loaded maps to calls. -/

/-- Ids that may follow `ids`. -/
def NextOk : List SubmapId → List SubmapId → Prop
  | _, [] => True
  | ids, x :: r =>
    (0 ≤ x.trajectory ∧ x.trajectory < 16777216 ∧ x.submap < 2147483648 ∧
      x.submap = ((ids.filter fun i => decide (i.trajectory = x.trajectory)).length : Int)) ∧
    NextOk (ids ++ [x]) r

theorem nextOk_append (ids a b : List SubmapId) (ha : NextOk ids a) (hb : NextOk (ids ++ a) b) :
    NextOk ids (a ++ b) := by
  induction a generalizing ids with
  | nil => simpa using hb
  | cons x r ih =>
    exact ⟨ha.1, ih _ ha.2 (by simpa using hb)⟩

theorem nextOk_block (t : Nat) (ht : t < 16777216) : ∀ (l : List SubmapId) (ids : List SubmapId) (k : Nat),
    (ids.filter fun i => decide (i.trajectory = (t : Int))).length = k → k + l.length ≤ 2147483648 →
    (∀ (i : Nat) (x : SubmapId), l[i]? = some x → x = ⟨(t : Int), ((k + i : Nat) : Int)⟩) → NextOk ids l := by
  intro l
  induction l with
  | nil => intro ids k _ _ _; trivial
  | cons x r ih =>
    intro ids k hk hl hx
    have h0 := hx 0 x rfl
    subst h0
    rw [List.length_cons] at hl
    refine ⟨⟨by simp, by dsimp only; omega, by dsimp only; omega, ?_⟩, ?_⟩
    · dsimp only
      rw [hk]; simp
    · apply ih (k := k + 1)
      · rw [List.filter_append, List.length_append, hk]
        simp
      · omega
      · intro i y hy
        rw [hx (i + 1) y hy]
        congr 1
        push_cast; ring

theorem nextOk_numbered : ∀ (trajs : List (List (JoinSubmap G))) (ids : List SubmapId) (offset : Nat),
    (∀ x ∈ ids, x.trajectory < offset) → Numbered offset trajs →
    NextOk ids (trajs.flatten.map (·.id)) := by
  intro trajs
  induction trajs with
  | nil => intro ids offset _ _; trivial
  | cons l r ih =>
    intro ids offset hi hn
    obtain ⟨hlen, hn⟩ := hn
    rw [List.length_cons] at hlen
    obtain ⟨h1, h2⟩ := hn 0 l rfl
    have hblock : ∀ (i : Nat) (x : SubmapId), (l.map (·.id))[i]? = some x →
        x = ⟨(offset : Int), (i : Int)⟩ := by
      intro i x hx
      rw [List.getElem?_map] at hx
      obtain ⟨s, e1, e2⟩ := Option.map_eq_some_iff.1 hx
      rw [← e2, h2 i s e1]; simp
    rw [List.flatten_cons, List.map_append]
    apply nextOk_append
    · apply nextOk_block offset (by omega) _ _ 0
      · rw [List.length_eq_zero_iff, List.filter_eq_nil_iff]
        intro x hx
        have := hi x hx
        simp only [decide_eq_true_eq]
        omega
      · simpa using h1
      · intro i x hx
        rw [hblock i x hx]; simp
    · apply ih _ (offset + 1)
      · intro x hx
        rcases List.mem_append.1 hx with hx | hx
        · have := hi x hx; omega
        · obtain ⟨i, hi'⟩ := List.getElem?_of_mem hx
          rw [hblock i x hi']; dsimp only; omega
      · refine ⟨by omega, ?_⟩
        intro n l' hl'
        obtain ⟨e1, e2⟩ := hn (n + 1) l' hl'
        refine ⟨e1, ?_⟩
        intro i s hs
        rw [e2 i s hs]
        congr 1
        push_cast; ring

theorem acceptable_append (a b : List (JoinCall G)) (ids : List SubmapId) (ha : Acceptable ids a)
    (hb : Acceptable (ids ++ (addedBy a).map (·.1)) b) : Acceptable ids (a ++ b) := by
  induction a generalizing ids with
  | nil => simpa [addedBy] using hb
  | cons c r ih =>
    cases c with
    | submap s loops =>
      exact ⟨ha.1, ha.2.1, ih _ ha.2.2 (by simpa [addedBy] using hb)⟩
    | link x y t => exact ⟨ha.1, ha.2.1, ih _ ha.2.2 (by simpa [addedBy] using hb)⟩

theorem acceptable_submaps : ∀ (l : List (JoinSubmap G × List (Nat × G))) (ids : List SubmapId) (n : Nat),
    NextOk ids (l.map fun p => p.1.id) → n ≤ ids.length →
    (∀ p ∈ l, ∀ q ∈ p.2, q.1 < n ∧ ∀ i, ids[q.1]? = some i → i.trajectory ≠ p.1.id.trajectory) →
    Acceptable ids (l.map fun p => JoinCall.submap p.1 p.2) := by
  intro l
  induction l with
  | nil => intro ids n _ _ _; trivial
  | cons c r ih =>
    intro ids n h hn hl
    refine ⟨h.1, ?_, ih _ n h.2 (by rw [List.length_append]; omega) ?_⟩
    · intro q hq
      obtain ⟨e1, e2⟩ := hl c (by simp) q hq
      have : ids[q.1]? = some (ids[q.1]'(by omega)) := List.getElem?_eq_getElem _
      exact ⟨_, this, e2 _ this⟩
    · intro p hp q hq
      obtain ⟨e1, e2⟩ := hl p (by simp [hp]) q hq
      refine ⟨e1, ?_⟩
      rw [List.getElem?_append_left (by omega)]
      exact e2

theorem acceptable_links (l : List (SubmapId × SubmapId × G)) (ids : List SubmapId)
    (h : ∀ e ∈ l, e.1 ∈ ids ∧ e.2.1 ∈ ids) :
    Acceptable ids (l.map fun e => JoinCall.link e.1 e.2.1 e.2.2) := by
  induction l with
  | nil => trivial
  | cons e r ih =>
    exact ⟨(h e (by simp)).1, (h e (by simp)).2, ih fun e' h' => h e' (by simp [h'])⟩

theorem joinFind_ok {trajs : List (List (JoinSubmap G))} {c : SubmapId} {n i : Nat}
    {l : List (JoinSubmap G)} {s : JoinSubmap G} (hc : c = ⟨(n : Int), (i : Int)⟩)
    (hl : trajs[n]? = some l) (hs : l[i]? = some s) :
    joinFind trajs c = .ok s ∧ submapAt trajs c = some s := by
  subst hc
  constructor
  · simp [joinFind, hl, hs]
  · simp [submapAt, hl, hs]

theorem joinLinks_ok (rel : G → G → G) (trajs : List (List (JoinSubmap G))) (s : JoinSubmap G) :
    ∀ cs : List SubmapId, (∀ c ∈ cs, ∃ (n i : Nat) (l : List (JoinSubmap G)) (s' : JoinSubmap G),
      c = ⟨(n : Int), (i : Int)⟩ ∧ trajs[n]? = some l ∧ l[i]? = some s') →
    joinLinks rel trajs s cs = .ok ((cs.filterMap fun c =>
      (submapAt trajs c).map fun s' => (s.id, s'.id, rel s.pose s'.pose)).map
        fun e => JoinCall.link e.1 e.2.1 e.2.2) := by
  intro cs
  induction cs with
  | nil => intro _; rfl
  | cons c r ih =>
    intro h
    obtain ⟨n, i, l, s', h1, h2, h3⟩ := h c (by simp)
    obtain ⟨e1, e2⟩ := joinFind_ok h1 h2 h3
    simp only [joinLinks, e1, Outcome.bind_ok, ih fun c hc => h c (by simp [hc]), List.filterMap_cons, e2,
      Option.map_some, List.map_cons]
    rfl

theorem joinAllLinks_ok (rel : G → G → G) (trajs : List (List (JoinSubmap G))) :
    ∀ l : List (JoinSubmap G), (∀ s ∈ l, ∀ c ∈ s.connected,
      ∃ (n i : Nat) (l : List (JoinSubmap G)) (s' : JoinSubmap G),
      c = ⟨(n : Int), (i : Int)⟩ ∧ trajs[n]? = some l ∧ l[i]? = some s') →
    joinAllLinks rel trajs l = .ok ((l.flatMap fun s => s.connected.filterMap fun c =>
      (submapAt trajs c).map fun s' => (s.id, s'.id, rel s.pose s'.pose)).map
        fun e => JoinCall.link e.1 e.2.1 e.2.2) := by
  intro l
  induction l with
  | nil => intro _; rfl
  | cons s r ih =>
    intro h
    simp only [joinAllLinks, joinLinks_ok rel trajs s s.connected (h s (by simp)), Outcome.bind_ok,
      ih fun s hs => h s (by simp [hs]), List.flatMap_cons, List.map_append]
    rfl

theorem connectionLinks_ends (rel : G → G → G) (trajs : List (List (JoinSubmap G))) :
    ∀ e ∈ connectionLinks rel trajs, e.1 ∈ trajs.flatten.map (·.id) ∧ e.2.1 ∈ trajs.flatten.map (·.id) := by
  intro e he
  unfold connectionLinks at he
  obtain ⟨s, hs, he⟩ := List.mem_flatMap.1 he
  obtain ⟨c, hc, he⟩ := List.mem_filterMap.1 he
  obtain ⟨s', hs', rfl⟩ := Option.map_eq_some_iff.1 he
  refine ⟨List.mem_map_of_mem hs, List.mem_map_of_mem ?_⟩
  unfold submapAt at hs'
  obtain ⟨l, h1, h2⟩ := Option.bind_eq_some_iff.1 hs'
  exact List.mem_flatten.2 ⟨l, List.mem_of_getElem? h1, List.mem_of_getElem? h2⟩

theorem addedBy_submaps (l : List (JoinSubmap G × List (Nat × G))) :
    addedBy (l.map fun p => JoinCall.submap p.1 p.2) = l.map fun p => (p.1.id, p.1.pose) := by
  unfold addedBy
  rw [List.filterMap_map]
  induction l with
  | nil => rfl
  | cons c r ih => simp [ih]

theorem addedBy_links (l : List (SubmapId × SubmapId × G)) :
    addedBy (l.map fun e => JoinCall.link e.1 e.2.1 e.2.2) = [] := by
  unfold addedBy
  rw [List.filterMap_map, List.filterMap_eq_nil_iff]
  intro e _
  rfl

theorem askedBy_links (l : List (SubmapId × SubmapId × G)) (ids : List SubmapId) :
    askedBy ids (l.map fun e => JoinCall.link e.1 e.2.1 e.2.2) =
      l.map fun e => (e.1, e.2.1, e.2.2, false) := by
  induction l with
  | nil => rfl
  | cons c r ih => simp [askedBy, ih]

/-- The loops of submaps whose targets are among the first submaps. -/
theorem askedBy_submaps : ∀ (l : List (JoinSubmap G × List (Nat × G))) (ids first : List SubmapId),
    first <+: ids → (∀ p ∈ l, ∀ q ∈ p.2, q.1 < first.length) →
    askedBy ids (l.map fun p => JoinCall.submap p.1 p.2) =
      l.flatMap fun p => p.2.filterMap fun q => first[q.1]?.map fun i => (i, p.1.id, q.2, true) := by
  intro l
  induction l with
  | nil => intro ids first _ _; rfl
  | cons c r ih =>
    intro ids first hp hl
    obtain ⟨t, rfl⟩ := hp
    simp only [List.map_cons, askedBy, List.flatMap_cons]
    rw [ih _ first ⟨t ++ [c.1.id], by simp⟩ fun p h => hl p (by simp [h])]
    congr 1
    apply List.filterMap_congr
    intro q hq
    rw [List.append_assoc, List.getElem?_append_left (hl c (by simp) q hq)]

/-! A base map of one trajectory: how often the first pose is a constraint. -/

theorem joinRun_rest : ∀ (l : List (JoinSubmap G)) (st st' : JoinState G),
    (∀ s ∈ l, submapIndexOfKey (submapKey s.id) ≠ 0) →
    joinRun (l.map fun s => JoinCall.submap s []) st = .ok st' →
    st'.pend = st.pend ∧ ∀ k, priorsOf k st'.done =
      priorsOf k st.done ++ (List.replicate l.length (priorsOf k st.pend)).flatten := by
  intro l
  induction l with
  | nil => intro st st' _ h; injection h with h; subst h; simp
  | cons s r ih =>
    intro st st' hs h
    rw [List.map_cons] at h
    obtain ⟨st1, h1, h2⟩ := (Outcome.bind_eq_ok _ _ _).1 h
    obtain ⟨st0, h0, h3⟩ := (Outcome.bind_eq_ok _ _ _).1 h1
    injection h3 with h3
    subst h3
    unfold joinVertex at h0
    split at h0
    · cases h0
    injection h0 with h0
    rw [if_neg (hs s (by simp))] at h0
    subst h0
    obtain ⟨e1, e2⟩ := ih _ _ (fun s hs' => hs s (by simp [hs'])) h2
    refine ⟨e1, fun k => ?_⟩
    rw [e2 k]
    simp [priorsOf_append, List.replicate_succ]

theorem joinRun_links_priors : ∀ (l : List (SubmapId × SubmapId × G)) (st st' : JoinState G),
    joinRun (l.map fun e => JoinCall.link e.1 e.2.1 e.2.2) st = .ok st' →
    ∀ k, priorsOf k st'.done = priorsOf k st.done ++ if l = [] then [] else priorsOf k st.pend := by
  intro l
  induction l with
  | nil => intro st st' h k; injection h with h; subst h; simp
  | cons e r ih =>
    intro st st' h k
    rw [List.map_cons] at h
    obtain ⟨st1, h1, h2⟩ := (Outcome.bind_eq_ok _ _ _).1 h
    have h1' : joinFactor e.1 e.2.1 e.2.2 false st = .ok st1 := h1
    unfold joinFactor at h1'
    split at h1'
    · injection h1' with h1'
      subst h1'
      rw [ih _ _ h2 k]
      simp [priorsOf]
    · cases h1'

end Verif
