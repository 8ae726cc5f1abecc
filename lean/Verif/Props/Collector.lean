import Verif.Proofs.Collector
import Mathlib.Tactic.FieldSimp
import Mathlib.Algebra.Order.Field.Basic
/-! Property theorems C18 (accumulation) and C19 (the cloud queues). -/
namespace Verif

/-- C18: with an accumulation count `n ≥ 1`, after any inputs exactly `length / n` clouds were
handed on; the `k`-th has the points of inputs `k*n .. k*n+n-1` in order and the stamp of input
`k*n`; point `j` of `size` has factor `j/size`, which is at least 0 and below 1. -/
theorem C18_accumulate {P : Type} (n : Nat) (hn : 1 ≤ n) (cs : List (InCloud P)) :
    let out := (addClouds (n : Int) cs).out
    out.length = cs.length / n ∧
    ∀ k, k < cs.length / n → ∃ c0 o, cs[k * n]? = some c0 ∧ out[k]? = some o ∧ o.stamp = c0.stamp ∧
      o.points.map Prod.fst = ((cs.drop (k * n)).take n).flatMap InCloud.points ∧
      ∀ (j : Nat) p f, o.points[j]? = some (p, f) →
        f = (j : Rat) / (o.points.length : Rat) ∧ 0 ≤ f ∧ f < 1 := by
  have key : ∀ (t : SimpleTime) (pts : List P), (withFactors t pts).stamp = t ∧
      (withFactors t pts).points.map Prod.fst = pts ∧
      ∀ (j : Nat) p f, (withFactors t pts).points[j]? = some (p, f) →
        f = (j : Rat) / ((withFactors t pts).points.length : Rat) ∧ 0 ≤ f ∧ f < 1 := by
    intro t pts
    refine ⟨rfl, ?_, ?_⟩
    · simp only [withFactors, List.map_map, Function.comp_def]
      exact List.zipIdx_map_fst 0 pts
    · intro j p f h
      have hlen : (withFactors t pts).points.length = pts.length := by simp [withFactors]
      have hj : j < pts.length := by
        rw [← hlen]; exact (List.getElem?_eq_some_iff.1 h).1
      simp only [withFactors, List.getElem?_map, List.getElem?_zipIdx,
        List.getElem?_eq_getElem hj] at h
      simp at h
      have hf : f = (j : Rat) / (pts.length : Rat) := h.2.symm
      have hpos : (0 : Rat) < pts.length := by
        have : 0 < pts.length := by omega
        exact_mod_cast this
      rw [hlen]
      refine ⟨hf, ?_, ?_⟩
      · rw [hf]; exact div_nonneg (by exact_mod_cast Nat.zero_le j) (le_of_lt hpos)
      · rw [hf, div_lt_one hpos]; exact_mod_cast hj
  intro out
  rcases Nat.eq_or_lt_of_le hn with h1 | h2
  · subst h1
    have e : out = cs.map (fun c => withFactors c.stamp c.points) := addClouds_one _ (by simp) cs
    refine ⟨by rw [e]; simp, ?_⟩
    intro k hk
    have hk' : k < cs.length := by simpa using hk
    refine ⟨cs[k], withFactors cs[k].stamp cs[k].points, by simp [hk'], by rw [e]; simp [hk'],
      (key _ _).1, ?_, (key _ _).2.2⟩
    rw [(key _ _).2.1]
    simp only [Nat.mul_one]
    rw [List.drop_eq_getElem_cons hk', List.take_succ_cons, List.take_zero, List.flatMap_cons,
      List.flatMap_nil, List.append_nil]
  · obtain ⟨-, a2, -, -, a5⟩ := accInv_all n h2 cs
    refine ⟨a2, ?_⟩
    intro k hk
    obtain ⟨c0, e1, e2⟩ := a5 k hk
    exact ⟨c0, _, e1, e2, (key _ _).1, (key _ _).2.1, (key _ _).2.2⟩

-- seven inputs in groups of three
example : 1 ≤ 3 ∧ (addClouds 3 ((List.range 7).map fun i => (⟨⟨5, 0⟩, [i, i + 10]⟩ : InCloud Nat))).out.length = 2 := by
  decide

/-- C19: under every schedule no thread touches an empty queue, and what was delivered is always a
prefix of what was added, in order, each cloud filtered exactly once. -/
theorem C19_order {C : Type} (filter : C → C) (xs : List (QStep C)) :
    ∃ s, qRun filter {} xs = some s ∧ ∃ n, s.delivered = (s.added.take n).map filter := by
  obtain ⟨s, hs, hinv⟩ := qInv_run filter {} xs (qInv_init filter)
  obtain ⟨⟨n, hn, h1, h2⟩, _⟩ := hinv
  refine ⟨s, hs, s.delivered.length, ?_⟩
  have := congrArg (List.take s.delivered.length) h1
  rw [List.append_assoc, List.take_left, ← List.map_take, List.take_take] at this
  rw [this]
  congr 1
  have hl := congrArg List.length h1
  simp at hl
  rw [List.take_eq_take_iff]
  simp

/-- C19, delivery while nobody asked to stop: from every reachable running state, any continuation
that gives the pre-processing thread enough turns and then the consumer enough turns (other turns
may be mixed in freely) delivers every cloud added so far. -/
theorem C19_delivery_partial {C : Type} (filter : C → C) (xs ys zs : List (QStep C)) (s s' : QState C)
    (hs : qRun filter {} xs = some s) (hrun : s.Running)
    (hy : ∀ x ∈ ys, x.isWork = true) (hz : ∀ x ∈ zs, x.isWork = true)
    (hpre : 5 * s.before.length + 2 ≤ ys.countP QStep.isPre)
    (hcons : 2 * s.added.length ≤ zs.countP QStep.isCons)
    (h : qRun filter s (ys ++ zs) = some s') :
    s'.added = s.added ∧ s'.delivered = s.added.map filter := by
  rw [qRun_append, Option.bind_eq_some_iff] at h
  obtain ⟨s1, h1, h2⟩ := h
  obtain ⟨a1, a2, a3, -⟩ := work_run filter s s1 ys hy hrun h1
  have hw : s.preWork ≤ 5 * s.before.length + 2 := by
    unfold QState.preWork; split <;> omega
  have hw0 : s1.preWork = 0 := by omega
  obtain ⟨b1, b2, b3, b4⟩ := work_run filter s1 s' zs hz a1 h2
  have c4 := b4 hw0
  have inv0 := qInv_run filter {} (xs ++ ys ++ zs) (qInv_init filter)
  obtain ⟨sf, e, ⟨⟨n, hn, i1, i2⟩, _⟩⟩ := inv0
  rw [List.append_assoc, qRun_append, hs] at e
  simp only [Option.bind_some, qRun_append, h1, h2, Option.some.injEq] at e
  subst e
  obtain ⟨s1', e1, ⟨⟨n1, hn1, j1, j2⟩, _⟩⟩ := qInv_run filter {} (xs ++ ys) (qInv_init filter)
  rw [qRun_append, hs] at e1
  simp only [Option.bind_some, h1, Option.some.injEq] at e1
  subst e1
  have hready : s1.ready.length ≤ s1.added.length := by
    have := congrArg List.length j1
    simp at this; omega
  have hcw : s1.consWork ≤ 2 * s1.added.length := by
    unfold QState.consWork; split <;> omega
  have hc0 : s'.consWork = 0 := by rw [a2] at hcw; omega
  have hr0 : s'.ready = [] := by
    unfold QState.consWork at hc0
    by_cases hl : s'.ready.length = 0
    · exact List.length_eq_zero_iff.1 hl
    · rw [if_neg hl] at hc0
      exfalso
      revert hc0
      split <;> omega
  have hp0 : s'.preWork = 0 := by omega
  have hheld : s'.held = [] ∧ s'.heldF = [] ∧ s'.before = [] := by
    obtain ⟨-, -, r3, -⟩ := b1
    have inv := (qInv_run filter {} (xs ++ ys ++ zs) (qInv_init filter))
    obtain ⟨sf', e', ⟨_, pop⟩⟩ := inv
    rw [List.append_assoc, qRun_append, hs] at e'
    simp only [Option.bind_some, qRun_append, h1, h2, Option.some.injEq] at e'
    subst e'
    unfold QState.preWork at hp0
    cases hp : s'.pre with
    | top => rw [hp] at hp0; simp at hp0; simp [QState.held, QState.heldF, hp, hp0]
    | checkEmpty =>
      rw [hp] at hp0; simp at hp0
      have : s'.before.length = 0 := by omega
      simp [QState.held, QState.heldF, hp, List.length_eq_zero_iff.1 this]
    | pop =>
      rw [hp] at hp0; simp at hp0
      have hb := pop hp
      have : s'.before.length ≠ 0 := by simpa using hb
      omega
    | filtering c => rw [hp] at hp0; simp at hp0
    | push c => rw [hp] at hp0; simp at hp0
    | done => exact absurd hp r3
  rw [hheld.1, hheld.2.2] at i2
  simp at i2
  rw [hr0, hheld.2.1] at i1
  simp only [List.append_nil] at i1
  refine ⟨by rw [b2, a2], ?_⟩
  rw [i1, List.take_of_length_le i2, b2, a2]

/-- C19 is false at shutdown: if the end is requested while a cloud is still waiting for
pre-processing, the consumer ends and, whatever happens afterwards, that cloud is never delivered. -/
theorem C19_shutdown_fails (filter : Nat → Nat) :
    ∃ xs s, qRun filter {} xs = some s ∧ 7 ∈ s.added ∧
      ∀ ys s', qRun filter s ys = some s' → s'.delivered = [] := by
  refine ⟨[.add 7, .cons, .setEnd, .cons], _, rfl, by simp, ?_⟩
  have key : ∀ (ys : List (QStep Nat)) (s s' : QState Nat), s.cons = .done → s.delivered = [] →
      qRun filter s ys = some s' → s'.delivered = [] := by
    intro ys
    induction ys with
    | nil => intro s s' _ h h'; simp only [qRun, Option.some.injEq] at h'; rw [← h']; exact h
    | cons y ys ih =>
      intro s s' hc hd h
      simp only [qRun, Option.bind_eq_some_iff] at h
      obtain ⟨s1, h1, h2⟩ := h
      have : s1.cons = .done ∧ s1.delivered = [] := by
        cases y with
        | cons => simp only [qStep, hc, Option.some.injEq] at h1; subst h1; exact ⟨hc, hd⟩
        | pre =>
          simp only [qStep] at h1
          cases hp : s.pre <;> rw [hp] at h1 <;> simp only at h1
          case pop =>
            cases hb : s.before with
            | nil => rw [hb] at h1; simp at h1
            | cons b bs => rw [hb] at h1; simp at h1; subst h1; exact ⟨hc, hd⟩
          all_goals (simp at h1; subst h1; exact ⟨hc, hd⟩)
        | _ => simp only [qStep, Option.some.injEq] at h1; subst h1; exact ⟨hc, hd⟩
      exact ih s1 s' this.1 this.2 h2
  intro ys s' h
  exact key ys _ s' rfl rfl h

/-- C19 is false at shutdown even for a cloud whose pre-processing was complete when the end was
requested: the consumer had found the queue empty just before. -/
theorem C19_shutdown_race_fails :
    ∃ xs s, qRun (id : Nat → Nat) {} xs = some s ∧ s.added = [7] ∧ s.before = [] ∧ s.ready = [7] ∧
      s.pre = .top ∧ s.cons = .done ∧ s.delivered = [] :=
  ⟨[.add 7, .cons, .pre, .pre, .pre, .pre, .pre, .setEnd, .cons], _, rfl, rfl, rfl, rfl, rfl, rfl, rfl⟩

-- a running state with work in the queue, and a schedule satisfying the delivery theorem
example : ∃ s s', qRun (fun x : Nat => x + 100) {} [.add 1, .cons, .add 2, .pre] = some s ∧ s.Running ∧
    qRun (fun x : Nat => x + 100) s (List.replicate 12 .pre ++ List.replicate 4 .cons) = some s' ∧
    s'.delivered = [101, 102] :=
  ⟨_, _, rfl, ⟨rfl, rfl, by simp, by simp⟩, rfl, rfl⟩

end Verif
