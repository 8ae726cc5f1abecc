import Verif.Model.Collector
import Mathlib.Tactic.Linarith
import Mathlib.Data.List.Basic
import Mathlib.Data.List.Induction
namespace Verif

section acc
variable {P : Type}

/-- invariant of accumulation after the inputs `cs`, for `n ≥ 2` -/
structure AccInv (n : Nat) (cs : List (InCloud P)) (st : AccState P) : Prop where
  count : st.count = cs.length % n
  outLen : st.out.length = cs.length / n
  acc : st.count ≠ 0 → st.acc = (cs.drop (cs.length / n * n)).flatMap InCloud.points
  first : st.count ≠ 0 → (cs[cs.length / n * n]?).map InCloud.stamp = some st.first
  out : ∀ k, k < cs.length / n → ∃ c0, cs[k * n]? = some c0 ∧
    st.out[k]? = some (withFactors c0.stamp (((cs.drop (k * n)).take n).flatMap InCloud.points))

theorem accInv_step (n : Nat) (hn : 2 ≤ n) (cs : List (InCloud P)) (st : AccState P) (c : InCloud P)
    (h : AccInv n cs st) : AccInv n (cs ++ [c]) (addCloud (n : Int) st c) := by
  obtain ⟨h1, h2, h3, h4, h5⟩ := h
  have hn1 : (n : Int) > 1 := by omega
  have hmod := Nat.mod_lt cs.length (by omega : 0 < n)
  have hdm := Nat.div_add_mod cs.length n
  rw [Nat.mul_comm] at hdm
  set q := cs.length / n with hq
  set r := cs.length % n with hr
  -- old outputs stay valid
  have hold : ∀ k, k < q → ∃ c0, (cs ++ [c])[k * n]? = some c0 ∧
      st.out[k]? = some (withFactors c0.stamp ((((cs ++ [c]).drop (k * n)).take n).flatMap InCloud.points)) := by
    intro k hk
    obtain ⟨c0, e1, e2⟩ := h5 k hk
    have hkl : (k + 1) * n ≤ q * n := Nat.mul_le_mul_right n hk
    rw [Nat.succ_mul] at hkl
    refine ⟨c0, ?_, ?_⟩
    · rw [List.getElem?_append_left (by omega)]; exact e1
    · rw [e2, List.drop_append_of_le_length (by omega), List.take_append_of_le_length (by simp; omega)]
  -- the state after appending the points
  let st1 : AccState P := if st.count = 0 then { st with acc := [], first := c.stamp } else st
  have hst1 : st1.count = st.count ∧ st1.out = st.out ∧
      st1.acc = (cs.drop (q * n)).flatMap InCloud.points ∧
      ((cs ++ [c])[q * n]?).map InCloud.stamp = some st1.first := by
    by_cases h0 : st.count = 0
    · have hr0 : r = 0 := by omega
      have hqn : q * n = cs.length := by omega
      simp only [st1, h0, if_true, hqn]
      simp
    · simp only [st1, h0, if_false]
      refine ⟨trivial, trivial, h3 h0, ?_⟩
      have hlt : q * n < cs.length := by omega
      rw [List.getElem?_append_left hlt]
      exact h4 h0
  obtain ⟨s1, s2, s3, s4⟩ := hst1
  have hlen : (cs ++ [c]).length = cs.length + 1 := by simp
  have hdropapp : (cs ++ [c]).drop (q * n) = cs.drop (q * n) ++ [c] :=
    List.drop_append_of_le_length (by omega)
  by_cases hlast : r + 1 = n
  · -- a cloud is emitted
    have hd : (cs.length + 1) / n = q + 1 := by
      have : cs.length + 1 = (q + 1) * n := by rw [Nat.succ_mul]; omega
      rw [this, Nat.mul_div_cancel _ (by omega)]
    have hm : (cs.length + 1) % n = 0 := by
      have : cs.length + 1 = (q + 1) * n := by rw [Nat.succ_mul]; omega
      rw [this, Nat.mul_mod_left]
    have hres : addCloud (n : Int) st c =
        { st1 with acc := st1.acc ++ c.points, count := 0, out := st1.out ++ [withFactors st1.first (st1.acc ++ c.points)] } := by
      have hnl : ¬ ((st1.count + 1 : Nat) : Int) < (n : Int) := by omega
      unfold addCloud
      rw [if_pos hn1]
      simp only
      rw [if_neg hnl]
    rw [hres]
    refine ⟨by rw [hlen, hm], ?_, by simp, by simp, ?_⟩
    · simp only [List.length_append, hlen, List.length_singleton, s2, h2, hd]
    · intro k hk
      rw [hlen, hd] at hk
      simp only [s2]
      rcases Nat.lt_succ_iff_lt_or_eq.1 hk with hk | rfl
      · obtain ⟨c0, e1, e2⟩ := hold k hk
        refine ⟨c0, e1, ?_⟩
        rw [List.getElem?_append_left (by rw [h2]; exact hk)]
        exact e2
      · rw [Option.map_eq_some_iff] at s4
        obtain ⟨c0, e1, e2⟩ := s4
        refine ⟨c0, e1, ?_⟩
        rw [List.getElem?_append_right (by omega), h2, Nat.sub_self]
        simp only [List.getElem?_cons_zero]
        rw [e2, s3, hdropapp, List.take_of_length_le (by simp; omega)]
        simp
  · have hd : (cs.length + 1) / n = q := by
      rw [Nat.div_eq_iff (by omega)]
      constructor
      · omega
      · omega
    have hm : (cs.length + 1) % n = r + 1 := by
      have := Nat.div_add_mod (cs.length + 1) n
      rw [hd, Nat.mul_comm] at this
      omega
    have hres : addCloud (n : Int) st c = { st1 with acc := st1.acc ++ c.points, count := st1.count + 1 } := by
      have hnl : ((st1.count + 1 : Nat) : Int) < (n : Int) := by omega
      unfold addCloud
      rw [if_pos hn1]
      simp only
      rw [if_pos hnl]
    rw [hres]
    refine ⟨by rw [hlen, hm]; simp only; omega, ?_, ?_, ?_, ?_⟩
    · simp only [hlen, hd, s2, h2]
    · intro _
      simp only [hlen, hd, s3, hdropapp]
      simp
    · intro _
      simp only [hlen, hd]
      exact s4
    · intro k hk
      rw [hlen, hd] at hk
      simp only [s2]
      exact hold k hk

theorem accInv_all (n : Nat) (hn : 2 ≤ n) (cs : List (InCloud P)) :
    AccInv n cs (addClouds (n : Int) cs) := by
  induction cs using List.reverseRecOn with
  | nil =>
    refine ⟨by simp [addClouds], by simp [addClouds], by simp [addClouds], by simp [addClouds],
      by simp⟩
  | append_singleton cs c ih =>
    have : addClouds (n : Int) (cs ++ [c]) = addCloud (n : Int) (addClouds (n : Int) cs) c := by
      simp [addClouds]
    rw [this]
    exact accInv_step n hn cs _ c ih

theorem addClouds_one (num : Int) (hn : num ≤ 1) (cs : List (InCloud P)) :
    (addClouds num cs).out = cs.map (fun c => withFactors c.stamp c.points) := by
  induction cs using List.reverseRecOn with
  | nil => rfl
  | append_singleton cs c ih =>
    have : addClouds num (cs ++ [c]) = addCloud num (addClouds num cs) c := by simp [addClouds]
    rw [this]
    unfold addCloud
    rw [if_neg (by omega)]
    simp [ih]

end acc

section queue
variable {C : Type}

/-- what the pre-processing thread holds, before filtering -/
def QState.held (s : QState C) : List C := match s.pre with | .filtering c => [c] | _ => []
/-- what it holds after filtering -/
def QState.heldF (s : QState C) : List C := match s.pre with | .push c => [c] | _ => []

structure QInv (filter : C → C) (s : QState C) : Prop where
  conserve : ∃ n, n ≤ s.added.length ∧
    s.delivered ++ s.ready ++ s.heldF = (s.added.take n).map filter ∧
    s.held ++ s.before = s.added.drop n
  popSafe : s.pre = .pop → s.before ≠ []

theorem qInv_init (filter : C → C) : QInv filter ({} : QState C) :=
  ⟨⟨0, by simp, by simp [QState.heldF], by simp [QState.held]⟩, by simp⟩

theorem qInv_step (filter : C → C) (s : QState C) (x : QStep C) (h : QInv filter s) :
    ∃ s', qStep filter s x = some s' ∧ QInv filter s' := by
  obtain ⟨⟨n, hn, h1, h2⟩, h3⟩ := h
  cases x with
  | add c =>
    refine ⟨_, rfl, ⟨⟨n, by simp; omega, ?_, ?_⟩, ?_⟩⟩
    · simp only [List.take_append_of_le_length hn]; exact h1
    · simp only [QState.held] at h2 ⊢
      rw [List.drop_append_of_le_length hn, ← h2, List.append_assoc]
    · intro hp; simp
  | setEnd => exact ⟨_, rfl, ⟨⟨n, hn, h1, h2⟩, h3⟩⟩
  | setKill => exact ⟨_, rfl, ⟨⟨n, hn, h1, h2⟩, h3⟩⟩
  | cons =>
    simp only [qStep]
    cases hc : s.cons with
    | get =>
      cases hr : s.ready with
      | nil =>
        refine ⟨_, rfl, ⟨⟨n, hn, ?_, h2⟩, h3⟩⟩
        rw [hr] at h1
        exact h1
      | cons c rest =>
        refine ⟨_, rfl, ⟨⟨n, hn, ?_, h2⟩, h3⟩⟩
        rw [hr] at h1
        simp only [List.append_assoc, List.cons_append, List.nil_append] at h1 ⊢
        exact h1
    | gotNull => exact ⟨_, rfl, ⟨⟨n, hn, h1, h2⟩, h3⟩⟩
    | done => exact ⟨_, rfl, ⟨⟨n, hn, h1, h2⟩, h3⟩⟩
  | pre =>
    simp only [qStep]
    cases hp : s.pre with
    | top =>
      simp only [QState.heldF, QState.held, hp] at h1 h2
      cases hk : s.kill with
      | false => exact ⟨_, rfl, ⟨⟨n, hn, h1, h2⟩, by simp⟩⟩
      | true => exact ⟨_, rfl, ⟨⟨n, hn, h1, h2⟩, by simp⟩⟩
    | checkEmpty =>
      simp only [QState.heldF, QState.held, hp] at h1 h2
      cases hb : s.before with
      | nil => rw [hb] at h2; exact ⟨_, rfl, ⟨⟨n, hn, h1, h2⟩, by simp⟩⟩
      | cons b bs => rw [hb] at h2; exact ⟨_, rfl, ⟨⟨n, hn, h1, h2⟩, by simp⟩⟩
    | pop =>
      cases hb : s.before with
      | nil => exact absurd hb (h3 hp)
      | cons c rest =>
        refine ⟨_, rfl, ⟨⟨n, hn, ?_, ?_⟩, by simp⟩⟩
        · simp only [QState.heldF, hp] at h1 ⊢; exact h1
        · simp only [QState.held, hp, hb] at h2 ⊢; exact h2
    | filtering c =>
      refine ⟨_, rfl, ⟨⟨n + 1, ?_, ?_, ?_⟩, by simp⟩⟩
      · simp only [QState.held, hp] at h2
        have := congrArg List.length h2
        simp at this; simp only; omega
      · simp only [QState.heldF, QState.held, hp] at h1 h2 ⊢
        rw [List.append_nil] at h1
        have hc : s.added[n]? = some c := by
          have := congrArg List.head? h2
          rw [List.head?_drop] at this
          simpa using this.symm
        rw [List.take_add_one, hc, List.map_append, ← h1]
        simp
      · simp only [QState.held, hp] at h2 ⊢
        have := congrArg List.tail h2
        simpa using this
    | push c =>
      refine ⟨_, rfl, ⟨⟨n, hn, ?_, ?_⟩, by simp⟩⟩
      · simp only [QState.heldF, hp] at h1 ⊢
        rw [List.append_nil, ← List.append_assoc]; exact h1
      · simp only [QState.held, hp] at h2 ⊢; exact h2
    | done => exact ⟨_, rfl, ⟨⟨n, hn, h1, h2⟩, h3⟩⟩

theorem qInv_run (filter : C → C) (s : QState C) (xs : List (QStep C)) (h : QInv filter s) :
    ∃ s', qRun filter s xs = some s' ∧ QInv filter s' := by
  induction xs generalizing s with
  | nil => exact ⟨s, rfl, h⟩
  | cons x xs ih =>
    obtain ⟨s1, e1, h1⟩ := qInv_step filter s x h
    obtain ⟨s2, e2, h2⟩ := ih s1 h1
    exact ⟨s2, by simp [qRun, e1, e2], h2⟩

/-- number of pre-processing steps still needed -/
def QState.preWork (s : QState C) : Nat :=
  match s.pre with
  | .top => 5 * s.before.length
  | .checkEmpty => 5 * s.before.length - 1
  | .pop => 5 * s.before.length - 2
  | .filtering _ => 5 * s.before.length + 2
  | .push _ => 5 * s.before.length + 1
  | .done => 0

/-- number of consumer steps still needed -/
def QState.consWork (s : QState C) : Nat :=
  if s.ready.length = 0 then 0
  else 2 * s.ready.length - (match s.cons with | .gotNull => 0 | _ => 1)

/-- nobody has been told to stop -/
def QState.Running (s : QState C) : Prop :=
  s.kill = false ∧ s.endAll = false ∧ s.pre ≠ .done ∧ s.cons ≠ .done

def QStep.isPre : QStep C → Bool
  | .pre => true
  | _ => false

def QStep.isCons : QStep C → Bool
  | .cons => true
  | _ => false

def QStep.isWork : QStep C → Bool
  | .pre => true
  | .cons => true
  | _ => false

theorem work_step (filter : C → C) (s s' : QState C) (x : QStep C) (hx : x.isWork = true)
    (hr : s.Running) (h : qStep filter s x = some s') :
    s'.Running ∧ s'.added = s.added ∧
    s'.preWork ≤ s.preWork - (if x.isPre then 1 else 0) ∧
    (s.preWork = 0 → s'.consWork ≤ s.consWork - (if x.isCons then 1 else 0)) := by
  obtain ⟨r1, r2, r3, r4⟩ := hr
  cases x with
  | add c => simp [QStep.isWork] at hx
  | setEnd => simp [QStep.isWork] at hx
  | setKill => simp [QStep.isWork] at hx
  | pre =>
    simp only [qStep] at h
    cases hp : s.pre with
    | top =>
      rw [hp] at h; simp only [r1, Option.some.injEq] at h; subst h
      refine ⟨⟨rfl, r2, by simp, r4⟩, rfl, ?_, ?_⟩
      · simp [QStep.isPre, QState.preWork, hp]
      · intro _; simp [QStep.isCons, QState.consWork]
    | checkEmpty =>
      rw [hp] at h; simp only [Option.some.injEq] at h; subst h
      refine ⟨⟨r1, r2, ?_, r4⟩, rfl, ?_, ?_⟩
      · simp only; split <;> simp
      · cases hb : s.before with
        | nil => simp [QStep.isPre, QState.preWork, hp, hb]
        | cons b bs => simp [QStep.isPre, QState.preWork, hp, hb]; omega
      · intro _; simp [QStep.isCons, QState.consWork]
    | pop =>
      rw [hp] at h
      cases hb : s.before with
      | nil => rw [hb] at h; simp at h
      | cons b bs =>
        rw [hb] at h; simp only [Option.some.injEq] at h; subst h
        refine ⟨⟨r1, r2, by simp, r4⟩, rfl, ?_, ?_⟩
        · simp [QStep.isPre, QState.preWork, hp, hb]; omega
        · intro _; simp [QStep.isCons, QState.consWork]
    | filtering c =>
      rw [hp] at h; simp only [Option.some.injEq] at h; subst h
      refine ⟨⟨r1, r2, by simp, r4⟩, rfl, ?_, ?_⟩
      · simp [QStep.isPre, QState.preWork, hp]
      · intro _; simp [QStep.isCons, QState.consWork]
    | push c =>
      rw [hp] at h; simp only [Option.some.injEq] at h; subst h
      refine ⟨⟨r1, r2, by simp, r4⟩, rfl, ?_, ?_⟩
      · simp [QStep.isPre, QState.preWork, hp]
      · intro h0; simp [QStep.isPre, QState.preWork, hp] at h0
    | done => exact absurd hp r3
  | cons =>
    simp only [qStep] at h
    cases hc : s.cons with
    | get =>
      rw [hc] at h
      cases hrd : s.ready with
      | nil =>
        rw [hrd] at h; simp only [Option.some.injEq] at h; subst h
        refine ⟨⟨r1, r2, r3, by simp⟩, rfl, ?_, ?_⟩
        · simp [QStep.isPre, QState.preWork]
        · intro _; simp [QStep.isCons, QState.consWork]
      | cons c rest =>
        rw [hrd] at h; simp only [Option.some.injEq] at h; subst h
        refine ⟨⟨r1, r2, r3, by simp [hc]⟩, rfl, ?_, ?_⟩
        · simp [QStep.isPre, QState.preWork]
        · intro _
          simp only [QStep.isCons, QState.consWork, hc, hrd, List.length_cons]
          split <;> simp <;> omega
    | gotNull =>
      rw [hc] at h; simp only [r2, Option.some.injEq] at h; subst h
      refine ⟨⟨r1, rfl, r3, by simp⟩, rfl, ?_, ?_⟩
      · simp [QStep.isPre, QState.preWork]
      · intro _
        simp only [QStep.isCons, QState.consWork, hc]
        split <;> simp
    | done => exact absurd hc r4

theorem work_run (filter : C → C) (s s' : QState C) (xs : List (QStep C))
    (hx : ∀ x ∈ xs, x.isWork = true) (hr : s.Running) (h : qRun filter s xs = some s') :
    s'.Running ∧ s'.added = s.added ∧
    s'.preWork ≤ s.preWork - xs.countP QStep.isPre ∧
    (s.preWork = 0 → s'.consWork ≤ s.consWork - xs.countP QStep.isCons) := by
  induction xs generalizing s with
  | nil => simp only [qRun, Option.some.injEq] at h; subst h; exact ⟨hr, rfl, by simp, by simp⟩
  | cons x xs ih =>
    simp only [qRun, Option.bind_eq_some_iff] at h
    obtain ⟨s1, h1, h2⟩ := h
    obtain ⟨a1, a2, a3, a4⟩ := work_step filter s s1 x (hx x (by simp)) hr h1
    obtain ⟨b1, b2, b3, b4⟩ := ih s1 (fun y hy => hx y (by simp [hy])) a1 h2
    refine ⟨b1, by rw [b2, a2], ?_, ?_⟩
    · rw [List.countP_cons]; omega
    · intro h0
      have := a4 h0
      have h0' : s1.preWork = 0 := by omega
      have := b4 h0'
      rw [List.countP_cons]; omega

theorem qRun_append (filter : C → C) (s : QState C) (xs ys : List (QStep C)) :
    qRun filter s (xs ++ ys) = (qRun filter s xs).bind (fun s => qRun filter s ys) := by
  induction xs generalizing s with
  | nil => rfl
  | cons x xs ih =>
    simp only [List.cons_append, qRun]
    cases qStep filter s x with
    | none => rfl
    | some s1 => simp [ih]

end queue
end Verif
