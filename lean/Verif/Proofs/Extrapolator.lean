import Verif.Spec.Extrapolator
import Mathlib.Tactic.Ring
import Mathlib.Tactic.FieldSimp
import Mathlib.Tactic.Linarith
import Mathlib.Tactic.ByContra
import Mathlib.Data.List.Infix
namespace Verif
variable {R W : Type}

theorem trimPoses_suffix (limit : Nat) (l : List (TPose R)) : trimPoses limit l <:+ l := by
  induction l with
  | nil => exact List.suffix_rfl
  | cons a l ih =>
    match l, ih with
    | [], _ => exact List.suffix_rfl
    | [b], _ => exact List.suffix_rfl
    | b :: c :: r, ih =>
      unfold trimPoses
      split
      · exact ih.trans (List.suffix_cons a _)
      · exact List.suffix_rfl

theorem trimPoses_two (limit : Nat) (l : List (TPose R)) :
    min 2 l.length ≤ (trimPoses limit l).length := by
  induction l with
  | nil => simp [trimPoses]
  | cons a l ih =>
    match l, ih with
    | [], _ => simp [trimPoses]
    | [b], _ => simp [trimPoses]
    | b :: c :: r, ih =>
      unfold trimPoses
      split
      · simp only [List.length_cons] at ih ⊢; omega
      · simp only [List.length_cons]; omega

theorem trimPoses_head (limit : Nat) (l : List (TPose R)) :
    trimPoses limit l = l ∨ ∃ a r, trimPoses limit l = a :: r ∧ a.time ≤ limit := by
  induction l with
  | nil => exact Or.inl rfl
  | cons a l ih =>
    match l, ih with
    | [], _ => exact Or.inl rfl
    | [b], _ => exact Or.inl rfl
    | b :: c :: r, ih =>
      unfold trimPoses
      split
      · rename_i h
        rcases ih with ih | ih
        · rw [ih]; exact Or.inr ⟨b, c :: r, rfl, h⟩
        · exact Or.inr ih
      · exact Or.inl rfl

theorem trimPoses_stop (limit : Nat) (l : List (TPose R)) :
    (trimPoses limit l).length ≤ 2 ∨
      ∃ a b r, trimPoses limit l = a :: b :: r ∧ limit < b.time := by
  induction l with
  | nil => exact Or.inl (by simp [trimPoses])
  | cons a l ih =>
    match l, ih with
    | [], _ => exact Or.inl (by simp [trimPoses])
    | [b], _ => exact Or.inl (by simp [trimPoses])
    | b :: c :: r, ih =>
      unfold trimPoses
      split
      · exact ih
      · rename_i h
        exact Or.inr ⟨a, b, c :: r, rfl, by omega⟩

theorem trimPoses_getLast (limit : Nat) (l : List (TPose R)) :
    (trimPoses limit l).getLast? = l.getLast? := by
  induction l with
  | nil => rfl
  | cons a l ih =>
    match l, ih with
    | [], _ => rfl
    | [b], _ => rfl
    | b :: c :: r, ih =>
      unfold trimPoses
      split
      · rw [ih]; simp
      · rfl

/-- What the queue is, given what was added. -/
structure QueueInv (dur : Nat) (added : List (TPose R)) (q : List (TPose R)) : Prop where
  suffix : q <:+ added
  two : min 2 added.length ≤ q.length
  dropped : ∀ newest, added.getLast? = some newest → q.length < added.length →
    ∃ a r, q = a :: r ∧ a.time + dur ≤ newest.time
  rest : ∀ newest, added.getLast? = some newest → 0 < dur →
    ∀ p ∈ q.tail, newest.time < p.time + dur

theorem updateVel_queue (ops : RotOps R W) (s : Extrap R W) :
    (updateVel ops s).queue = s.queue ∧ (updateVel ops s).dur = s.dur ∧
      (updateVel ops s).imuMode = s.imuMode ∧ (updateVel ops s).cache = s.cache ∧
      (updateVel ops s).tracker = s.tracker ∧ (updateVel ops s).imu = s.imu ∧
      (updateVel ops s).extTracker = s.extTracker := by
  unfold updateVel
  split
  · split
    · exact ⟨rfl, rfl, rfl, rfl, rfl, rfl, rfl⟩
    · split <;> exact ⟨rfl, rfl, rfl, rfl, rfl, rfl, rfl⟩
  · exact ⟨rfl, rfl, rfl, rfl, rfl, rfl, rfl⟩

/-- The queue after `AddPose`. -/
def queueAfter (dur : Nat) (q : List (TPose R)) (p : TPose R) : List (TPose R) :=
  trimPoses (p.time - dur) (q ++ [p])

theorem addPose_fields {ops : RotOps R W} {p : TPose R} {s s' : Extrap R W}
    (h : addPose ops p s = .ok s') :
    s'.queue = queueAfter s.dur s.queue p ∧ s'.dur = s.dur ∧ s'.imuMode = s.imuMode ∧
      (s'.cache = if s.queue = [] then p else s.cache) := by
  unfold addPose at h
  dsimp only at h
  by_cases h0 : s.queue = []
  · have hl : (s.queue ++ [p]).length = 1 := by simp [h0]
    rw [if_pos hl] at h
    simp only [Outcome.pure_eq, Outcome.ok.injEq] at h
    subst h
    refine ⟨?_, rfl, rfl, ?_⟩
    · simp [queueAfter, h0, trimPoses]
    · simp [h0]
  · have hl : ¬ (s.queue ++ [p]).length = 1 := by
      intro hc
      apply h0
      simpa using hc
    rw [if_neg hl] at h
    have hu := updateVel_queue ops
      { s with queue := trimPoses (p.time - s.dur) (s.queue ++ [p]) }
    rw [if_neg h0]
    split at h
    · simp only [Outcome.pure_eq, Outcome.ok.injEq] at h
      subst h
      exact ⟨hu.1, hu.2.1, hu.2.2.1, hu.2.2.2.1⟩
    · rw [Outcome.bind_eq_ok] at h
      obtain ⟨tt, _, h2⟩ := h
      simp only [Outcome.pure_eq, Outcome.ok.injEq] at h2
      subst h2
      exact ⟨hu.1, hu.2.1, hu.2.2.1, hu.2.2.2.1⟩

theorem queueAfter_inv {dur : Nat} {added q : List (TPose R)} {p : TPose R}
    (hg : Spec.GoodStamps (added ++ [p])) (hi : QueueInv dur added q) :
    QueueInv dur (added ++ [p]) (queueAfter dur q p) := by
  have hsq : q ++ [p] <:+ added ++ [p] := by
    obtain ⟨d, hd⟩ := hi.suffix
    exact ⟨d, by rw [← List.append_assoc, hd]⟩
  have hle : ∀ a ∈ added ++ [p], a.time ≤ p.time := by
    intro a ha
    rcases List.mem_append.mp ha with ha | ha
    · exact (List.pairwise_append.mp hg.2).2.2 a ha p (by simp)
    · simp only [List.mem_singleton] at ha; subst ha; exact Nat.le_refl _
  have hsuf : queueAfter dur q p <:+ added ++ [p] := (trimPoses_suffix _ _).trans hsq
  have hlast : ∀ n, (added ++ [p]).getLast? = some n → n = p := by
    intro n hn
    simp at hn
    exact hn.symm
  refine ⟨hsuf, ?_, ?_, ?_⟩
  · have h1 := trimPoses_two (p.time - dur) (q ++ [p])
    have h2 := hi.two
    simp only [List.length_append, List.length_cons, List.length_nil, queueAfter] at *
    omega
  · intro n hn hlt
    rw [hlast n hn]
    rcases trimPoses_head (p.time - dur) (q ++ [p]) with h | ⟨a, r, h, ha⟩
    · rw [show queueAfter dur q p = q ++ [p] from h] at hlt ⊢
      simp only [List.length_append, List.length_cons, List.length_nil] at hlt
      have hne : added ≠ [] := by
        rintro rfl
        simp at hlt
      obtain ⟨n0, hn0⟩ := Option.ne_none_iff_exists'.mp
        (show added.getLast? ≠ none by simpa using hne)
      obtain ⟨a, r, hq, ha⟩ := hi.dropped n0 hn0 (by omega)
      refine ⟨a, r ++ [p], by rw [hq]; rfl, ?_⟩
      have := hle n0 (List.mem_append_left _ (List.mem_of_getLast? hn0))
      omega
    · refine ⟨a, r, h, ?_⟩
      have hpos := hg.1 a (hsuf.subset (by rw [show queueAfter dur q p = _ from h]; simp))
      omega
  · intro n hn hd
    rw [hlast n hn]
    intro x hx
    rcases trimPoses_stop (p.time - dur) (q ++ [p]) with h | ⟨a, b, r, h, hb⟩
    · -- at most two poses: the rest is the newest one
      have hgl : (queueAfter dur q p).getLast? = some p := by
        unfold queueAfter
        rw [trimPoses_getLast]; simp
      have : x = p := by
        change (queueAfter dur q p).length ≤ 2 at h
        generalize queueAfter dur q p = l at *
        match l, h with
        | [], _ => simp at hx
        | [_], _ => simp at hx
        | [_, y], _ =>
          simp only [List.tail_cons, List.mem_singleton] at hx
          simp at hgl
          rw [hx, hgl]
      subst this
      omega
    · have hq : queueAfter dur q p = a :: b :: r := h
      rw [hq] at hx hsuf
      have hpw : (a :: b :: r).Pairwise (fun a b => a.time ≤ b.time) :=
        hg.2.sublist hsuf.sublist
      simp only [List.tail_cons] at hx
      have hbx : b.time ≤ x.time := by
        rcases List.mem_cons.mp hx with rfl | hx
        · exact Nat.le_refl _
        · exact (List.pairwise_cons.mp (List.pairwise_cons.mp hpw).2).1 x hx
      omega

theorem extrapolate_fields {ops : RotOps R W} {t : Nat} {s : Extrap R W}
    {r : TPose R × Extrap R W} (h : extrapolate ops t s = .ok r) :
    r.2.queue = s.queue ∧ r.2.dur = s.dur ∧ r.2.imuMode = s.imuMode ∧ r.2.linVel = s.linVel ∧
      r.2.tracker = s.tracker ∧ r.2.imu = s.imu := by
  unfold extrapolate at h
  split at h
  · cases h
  · rw [Outcome.check_bind_eq_ok] at h
    obtain ⟨_, h⟩ := h
    split at h
    · simp only [Outcome.pure_eq, Outcome.ok.injEq] at h
      subst h; exact ⟨rfl, rfl, rfl, rfl, rfl, rfl⟩
    · split at h
      · simp only [Outcome.pure_eq, Outcome.ok.injEq] at h
        subst h; exact ⟨rfl, rfl, rfl, rfl, rfl, rfl⟩
      · split at h
        · rw [Outcome.bind_eq_ok] at h
          obtain ⟨_, _, h⟩ := h
          simp only [Outcome.pure_eq, Outcome.ok.injEq] at h
          subst h; exact ⟨rfl, rfl, rfl, rfl, rfl, rfl⟩
        · cases h

theorem addImu_fields {t : Nat} {s s' : Extrap R W} (h : addImu t s = .ok s') :
    s'.queue = s.queue ∧ s'.dur = s.dur ∧ s'.imuMode = s.imuMode ∧ s'.linVel = s.linVel ∧
      s'.cache = s.cache ∧ s'.tracker = s.tracker ∧ s'.extTracker = s.extTracker := by
  unfold addImu at h
  split at h
  · simp only [Outcome.pure_eq, Outcome.ok.injEq] at h
    subst h; exact ⟨rfl, rfl, rfl, rfl, rfl, rfl, rfl⟩
  · split at h
    · simp only [Outcome.pure_eq, Outcome.ok.injEq] at h
      subst h; exact ⟨rfl, rfl, rfl, rfl, rfl, rfl, rfl⟩
    · rw [Outcome.check_bind_eq_ok] at h
      obtain ⟨_, h⟩ := h
      simp only [Outcome.pure_eq, Outcome.ok.injEq] at h
      subst h; exact ⟨rfl, rfl, rfl, rfl, rfl, rfl, rfl⟩

theorem extrapolate_angVel {ops : RotOps R W} {t : Nat} {s : Extrap R W}
    {r : TPose R × Extrap R W} (h : extrapolate ops t s = .ok r) :
    r.2.angVel = s.angVel := by
  unfold extrapolate at h
  split at h
  · cases h
  · rw [Outcome.check_bind_eq_ok] at h
    obtain ⟨_, h⟩ := h
    split at h
    · simp only [Outcome.pure_eq, Outcome.ok.injEq] at h
      subst h; exact rfl
    · split at h
      · simp only [Outcome.pure_eq, Outcome.ok.injEq] at h
        subst h; exact rfl
      · split at h
        · rw [Outcome.bind_eq_ok] at h
          obtain ⟨_, _, h⟩ := h
          simp only [Outcome.pure_eq, Outcome.ok.injEq] at h
          subst h; exact rfl
        · cases h

theorem addImu_angVel {t : Nat} {s s' : Extrap R W} (h : addImu t s = .ok s') :
    s'.angVel = s.angVel := by
  unfold addImu at h
  split at h
  · simp only [Outcome.pure_eq, Outcome.ok.injEq] at h
    subst h; exact rfl
  · split at h
    · simp only [Outcome.pure_eq, Outcome.ok.injEq] at h
      subst h; exact rfl
    · rw [Outcome.check_bind_eq_ok] at h
      obtain ⟨_, h⟩ := h
      simp only [Outcome.pure_eq, Outcome.ok.injEq] at h
      subst h; exact rfl

/-- What one call does to the queue. -/
theorem exStep_queue {ops : RotOps R W} {s s' : Extrap R W} {op : ExOp R}
    (h : exStep ops s op = .ok s') :
    s'.dur = s.dur ∧ s'.imuMode = s.imuMode ∧
      s'.queue = match op with
        | .add p => queueAfter s.dur s.queue p
        | _ => s.queue := by
  cases op with
  | add p =>
    have := addPose_fields h
    exact ⟨this.2.1, this.2.2.1, this.1⟩
  | query t =>
    simp only [exStep] at h
    rw [Outcome.bind_eq_ok] at h
    obtain ⟨r, h1, h⟩ := h
    simp only [Outcome.pure_eq, Outcome.ok.injEq] at h
    subst h
    have := extrapolate_fields h1
    exact ⟨this.2.1, this.2.2.1, this.1⟩
  | imu t =>
    have := addImu_fields h
    exact ⟨this.2.1, this.2.2.1, this.1⟩
  | rough v =>
    simp only [exStep, Outcome.pure_eq, Outcome.ok.injEq] at h
    subst h
    exact ⟨rfl, rfl, rfl⟩

theorem addedPoses_append (a b : List (ExOp R)) :
    Spec.addedPoses (a ++ b) = Spec.addedPoses a ++ Spec.addedPoses b := by
  induction a with
  | nil => rfl
  | cons op a ih => cases op <;> simp [Spec.addedPoses, ih]

theorem exRun_append {ops : RotOps R W} {s s' : Extrap R W} {a b : List (ExOp R)} :
    exRun ops s (a ++ b) = .ok s' ↔ ∃ m, exRun ops s a = .ok m ∧ exRun ops m b = .ok s' := by
  induction a generalizing s with
  | nil => simp [exRun]
  | cons op a ih =>
    simp only [List.cons_append, exRun]
    constructor
    · intro h
      rw [Outcome.bind_eq_ok] at h
      obtain ⟨x, hx, h⟩ := h
      obtain ⟨m, hm, hb⟩ := ih.mp h
      exact ⟨m, by rw [Outcome.bind_eq_ok]; exact ⟨x, hx, hm⟩, hb⟩
    · rintro ⟨m, hm, hb⟩
      rw [Outcome.bind_eq_ok] at hm
      obtain ⟨x, hx, hm⟩ := hm
      rw [Outcome.bind_eq_ok]; exact ⟨x, hx, ih.mpr ⟨m, hm, hb⟩⟩

theorem goodStamps_prefix {a b : List (TPose R)} (h : Spec.GoodStamps (a ++ b)) :
    Spec.GoodStamps a :=
  ⟨fun p hp => h.1 p (List.mem_append_left _ hp), (List.pairwise_append.mp h.2).1⟩

theorem exRun_queueInv {ops : RotOps R W} (todo : List (ExOp R)) :
    ∀ (done : List (ExOp R)) (s s' : Extrap R W) (dur : Nat), s.dur = dur →
      Spec.GoodStamps (Spec.addedPoses (done ++ todo)) →
      QueueInv dur (Spec.addedPoses done) s.queue → exRun ops s todo = .ok s' →
      QueueInv dur (Spec.addedPoses (done ++ todo)) s'.queue ∧ s'.dur = dur ∧
        s'.imuMode = s.imuMode := by
  induction todo with
  | nil =>
    intro done s s' dur hd hg hi hr
    simp only [exRun, Outcome.ok.injEq] at hr
    subst hr
    simpa using ⟨hi, hd⟩
  | cons op todo ih =>
    intro done s s' dur hd hg hi hr
    simp only [exRun] at hr
    rw [Outcome.bind_eq_ok] at hr
    obtain ⟨m, hm, hr⟩ := hr
    have hq := exStep_queue hm
    have e : done ++ op :: todo = (done ++ [op]) ++ todo := by simp
    rw [e] at hg ⊢
    have hg1 : Spec.GoodStamps (Spec.addedPoses (done ++ [op])) := by
      rw [addedPoses_append] at hg
      exact goodStamps_prefix hg
    have him : QueueInv dur (Spec.addedPoses (done ++ [op])) m.queue := by
      rw [addedPoses_append] at hg1 ⊢
      rw [hq.2.2]
      cases op with
      | add p => subst hd; exact queueAfter_inv hg1 hi
      | query t => simpa [Spec.addedPoses] using hi
      | imu t => simpa [Spec.addedPoses] using hi
      | rough v => simpa [Spec.addedPoses] using hi
    have := ih (done ++ [op]) m s' dur (hq.1.trans hd) hg him hr
    exact ⟨this.1, this.2.1, this.2.2.trans hq.2.1⟩

theorem queueInv_nil (dur : Nat) : QueueInv dur ([] : List (TPose R)) [] := by
  refine ⟨List.suffix_rfl, by simp, ?_, ?_⟩ <;> simp

/-- The newest pose in the queue is the newest added, whatever the stamps are. -/
theorem exRun_last {ops : RotOps R W} (todo : List (ExOp R)) :
    ∀ (done : List (ExOp R)) (s s' : Extrap R W),
      s.queue.getLast? = (Spec.addedPoses done).getLast? → exRun ops s todo = .ok s' →
      s'.queue.getLast? = (Spec.addedPoses (done ++ todo)).getLast? := by
  induction todo with
  | nil =>
    intro done s s' hi hr
    simp only [exRun, Outcome.ok.injEq] at hr
    subst hr
    simpa using hi
  | cons op todo ih =>
    intro done s s' hi hr
    simp only [exRun] at hr
    rw [Outcome.bind_eq_ok] at hr
    obtain ⟨m, hm, hr⟩ := hr
    have hq := exStep_queue hm
    have e : done ++ op :: todo = (done ++ [op]) ++ todo := by simp
    rw [e]
    refine ih (done ++ [op]) m s' ?_ hr
    rw [addedPoses_append, hq.2.2]
    cases op with
    | add p =>
      show (queueAfter _ _ _).getLast? = _
      unfold queueAfter
      rw [trimPoses_getLast]
      simp [Spec.addedPoses]
    | query t => simpa [Spec.addedPoses] using hi
    | imu t => simpa [Spec.addedPoses] using hi
    | rough v => simpa [Spec.addedPoses] using hi


/-! ### Queries -/

theorem extrapolate_early (ops : RotOps R W) {t : Nat} {s : Extrap R W} {n : TPose R}
    (hn : s.queue.getLast? = some n) (ht : t < n.time) : extrapolate ops t s = .abort := by
  unfold extrapolate
  rw [hn]
  dsimp only
  rw [Outcome.check_neg (by omega)]
  rfl

theorem extrapolate_cached (ops : RotOps R W) {t : Nat} {s : Extrap R W} {n : TPose R}
    (hn : s.queue.getLast? = some n) (ht : n.time ≤ t) (hc : nsEq s.cache.time t = true) :
    extrapolate ops t s = .ok (s.cache, s) := by
  unfold extrapolate
  rw [hn]
  dsimp only
  rw [Outcome.check_pos ht]
  simp only [Outcome.bind_ok]
  rw [if_pos hc]
  rfl

/-- The prediction made in the constant velocity mode. -/
def ctrvPose (ops : RotOps R W) (s : Extrap R W) (n : TPose R) (t : Nat) : TPose R :=
  ⟨t, vecAddScaled n.pos (nsToSec (t - n.time)) s.linVel,
    ops.turn n.rot s.angVel (nsToSec (t - n.time))⟩

theorem extrapolate_ctrv (ops : RotOps R W) {t : Nat} {s : Extrap R W} {n : TPose R}
    (hm : s.imuMode = false)
    (hn : s.queue.getLast? = some n) (ht : n.time ≤ t) (hc : nsEq s.cache.time t = false) :
    extrapolate ops t s = .ok (ctrvPose ops s n t, { s with cache := ctrvPose ops s n t }) := by
  unfold extrapolate
  rw [hn]
  dsimp only
  rw [Outcome.check_pos ht]
  simp only [Outcome.bind_ok]
  rw [if_neg (by simp [hc]), if_pos hm]
  rfl

theorem vecAddScaled_zero (a v : Vec3 Rat) : vecAddScaled a 0 v = a := by
  unfold vecAddScaled
  simp

theorem ctrvPose_now {ops : RotOps R W} (h0 : ∀ r w, ops.turn r w 0 = r) (s : Extrap R W)
    (n : TPose R) : ctrvPose ops s n n.time = n := by
  unfold ctrvPose
  have : nsToSec (n.time - n.time) = 0 := by simp [nsToSec]
  rw [this, vecAddScaled_zero, h0]

theorem nsEq_self (t : Nat) : nsEq t t = true := by simp [nsEq]

theorem nsEq_false_iff {a b : Nat} : nsEq a b = false ↔ Spec.Apart a b := by
  unfold nsEq Spec.Apart
  rw [decide_eq_false_iff_not]
  omega

/-- What may be cached: a stamp that is not the given one. -/
def CacheApart (t : Nat) (s : Extrap R W) : Prop := s.queue = [] ∨ nsEq s.cache.time t = false

theorem exStep_cacheApart {ops : RotOps R W} {s s' : Extrap R W} {op : ExOp R} {t : Nat}
    (h : exStep ops s op = .ok s') (hc : CacheApart t s)
    (hq : ∀ u, Spec.queryStamp op = some u → Spec.Apart u t)
    (ha : ∀ p, op = .add p → Spec.Apart p.time t) : CacheApart t s' := by
  cases op with
  | add p =>
    have hf := addPose_fields h
    right
    rw [hf.2.2.2]
    split
    · exact nsEq_false_iff.mpr (ha p rfl)
    · rename_i hne
      exact hc.resolve_left hne
  | query u =>
    simp only [exStep] at h
    rw [Outcome.bind_eq_ok] at h
    obtain ⟨r, h1, h⟩ := h
    simp only [Outcome.pure_eq, Outcome.ok.injEq] at h
    subst h
    have hu := hq u rfl
    right
    unfold extrapolate at h1
    split at h1
    · cases h1
    · rename_i n hn
      have hne : s.queue ≠ [] := by
        intro h0
        rw [h0] at hn
        simp at hn
      rw [Outcome.check_bind_eq_ok] at h1
      obtain ⟨_, h1⟩ := h1
      split at h1
      · simp only [Outcome.pure_eq, Outcome.ok.injEq] at h1
        subst h1
        exact hc.resolve_left hne
      · split at h1
        · simp only [Outcome.pure_eq, Outcome.ok.injEq] at h1
          subst h1
          exact nsEq_false_iff.mpr hu
        · split at h1
          · rw [Outcome.bind_eq_ok] at h1
            obtain ⟨_, _, h1⟩ := h1
            simp only [Outcome.pure_eq, Outcome.ok.injEq] at h1
            subst h1
            exact nsEq_false_iff.mpr hu
          · cases h1
  | imu u =>
    have hf := addImu_fields h
    unfold CacheApart
    rw [hf.1, hf.2.2.2.2.1]
    exact hc
  | rough v =>
    simp only [exStep, Outcome.pure_eq, Outcome.ok.injEq] at h
    subst h
    exact hc

theorem exRun_cacheApart {ops : RotOps R W} {t : Nat} (l : List (ExOp R)) :
    ∀ (s s' : Extrap R W), exRun ops s l = .ok s' → CacheApart t s →
      (∀ op ∈ l, ∀ u, Spec.queryStamp op = some u → Spec.Apart u t) →
      (∀ p, ExOp.add p ∈ l → Spec.Apart p.time t) → CacheApart t s' := by
  induction l with
  | nil =>
    intro s s' h hc _ _
    simp only [exRun, Outcome.ok.injEq] at h
    subst h
    exact hc
  | cons op l ih =>
    intro s s' h hc hq ha
    simp only [exRun] at h
    rw [Outcome.bind_eq_ok] at h
    obtain ⟨m, hm, h⟩ := h
    refine ih m s' h (exStep_cacheApart hm hc (hq op (by simp)) ?_)
      (fun o ho => hq o (by simp [ho])) (fun p hp => ha p (by simp [hp]))
    intro p hp
    exact ha p (by simp [hp])

/-- After the newest pose was added: no pose is added and every query is apart from its stamp or
at exactly its stamp. -/
def QuietAfter (t : Nat) : ExOp R → Prop
  | .add _ => False
  | .query u => u = t ∨ Spec.Apart u t
  | _ => True

theorem exRun_quiet {ops : RotOps R W} (h0 : ∀ r w, ops.turn r w 0 = r) {n : TPose R}
    (l : List (ExOp R)) :
    ∀ (s s' : Extrap R W), s.imuMode = false → s.queue.getLast? = some n →
      (nsEq s.cache.time n.time = true → s.cache = n) → (∀ op ∈ l, QuietAfter n.time op) →
      exRun ops s l = .ok s' →
      s'.imuMode = false ∧ s'.queue.getLast? = some n ∧
        (nsEq s'.cache.time n.time = true → s'.cache = n) := by
  induction l with
  | nil =>
    intro s s' hm hn hc _ h
    simp only [exRun, Outcome.ok.injEq] at h
    subst h
    exact ⟨hm, hn, hc⟩
  | cons op l ih =>
    intro s s' hm hn hc hq h
    simp only [exRun] at h
    rw [Outcome.bind_eq_ok] at h
    obtain ⟨m, hms, h⟩ := h
    have hs := exStep_queue hms
    have hop := hq op (by simp)
    refine ih m s' (hs.2.1.trans hm) ?_ ?_ (fun o ho => hq o (by simp [ho])) h
    · cases op with
      | add p => exact absurd hop id
      | query u => rw [hs.2.2]; exact hn
      | imu u => rw [hs.2.2]; exact hn
      | rough v => rw [hs.2.2]; exact hn
    · cases op with
      | add p => exact absurd hop id
      | query u =>
        simp only [exStep] at hms
        rw [Outcome.bind_eq_ok] at hms
        obtain ⟨r, h1, h2⟩ := hms
        simp only [Outcome.pure_eq, Outcome.ok.injEq] at h2
        subst h2
        by_cases hut : u < n.time
        · rw [extrapolate_early ops hn hut] at h1
          cases h1
        by_cases hcu : nsEq s.cache.time u = true
        · rw [extrapolate_cached ops hn (by omega) hcu] at h1
          simp only [Outcome.ok.injEq] at h1
          subst h1
          exact hc
        · rw [extrapolate_ctrv ops hm hn (by omega) (by simpa using hcu)] at h1
          simp only [Outcome.ok.injEq] at h1
          subst h1
          intro he
          rcases hop with hu | hu
          · subst hu
            exact ctrvPose_now h0 s n
          · have := nsEq_false_iff.mpr hu
            rw [show (ctrvPose ops s n u).time = u from rfl] at he
            rw [this] at he
            cases he
      | imu u =>
        have hf := addImu_fields hms
        rw [hf.2.2.2.2.1]
        exact hc
      | rough v =>
        simp only [exStep, Outcome.pure_eq, Outcome.ok.injEq] at hms
        subst hms
        exact hc

/-! ### Constant velocity -/

theorem vecSubDiv_line (x0 v : Vec3 Rat) {a b : Nat} (hab : a < b) :
    vecSubDiv (Spec.onLine x0 v b) (Spec.onLine x0 v a) (nsToSec (b - a)) = v := by
  have hs : (nsToSec (b - a)) = (b : Rat) / 1000000000 - (a : Rat) / 1000000000 := by
    unfold nsToSec
    rw [Nat.cast_sub (by omega)]
    ring
  have hne : (b : Rat) / 1000000000 - (a : Rat) / 1000000000 ≠ 0 := by
    have : (a : Rat) < b := by exact_mod_cast hab
    intro h
    have : (a : Rat) / 1000000000 < (b : Rat) / 1000000000 := by linarith
    linarith
  rw [hs]
  unfold vecSubDiv Spec.onLine
  have key : ∀ p q : Rat, (p + q * ((b : Rat) / 1000000000) - (p + q * ((a : Rat) / 1000000000))) /
      ((b : Rat) / 1000000000 - (a : Rat) / 1000000000) = q := by
    intro p q
    rw [div_eq_iff hne]
    ring
  rw [key, key, key]

theorem vecAddScaled_line (x0 v : Vec3 Rat) {a b : Nat} (hab : a ≤ b) :
    vecAddScaled (Spec.onLine x0 v a) (nsToSec (b - a)) v = Spec.onLine x0 v b := by
  have hs : (nsToSec (b - a)) = (b : Rat) / 1000000000 - (a : Rat) / 1000000000 := by
    unfold nsToSec
    rw [Nat.cast_sub hab]
    ring
  rw [hs]
  unfold vecAddScaled Spec.onLine
  have key : ∀ p q : Rat, p + q * ((a : Rat) / 1000000000) +
      ((b : Rat) / 1000000000 - (a : Rat) / 1000000000) * q = p + q * ((b : Rat) / 1000000000) := by
    intro p q
    ring
  simp only [key]

/-- `AddPose` in the constant velocity mode, when the queue already holds something. -/
theorem addPose_ctrv_vel {ops : RotOps R W} {p : TPose R} {s s' : Extrap R W}
    (hm : s.imuMode = false) (hne : s.queue ≠ []) (h : addPose ops p s = .ok s') :
    s' = updateVel ops { s with queue := queueAfter s.dur s.queue p } := by
  unfold addPose at h
  dsimp only at h
  have hl : ¬ (s.queue ++ [p]).length = 1 := by
    intro hc
    apply hne
    simpa using hc
  rw [if_neg hl] at h
  have hu := updateVel_queue ops { s with queue := trimPoses (p.time - s.dur) (s.queue ++ [p]) }
  rw [if_pos (hu.2.2.1.trans hm)] at h
  simp only [Outcome.pure_eq, Outcome.ok.injEq] at h
  exact h.symm

theorem updateVel_lin {ops : RotOps R W} {s : Extrap R W} {old new : TPose R}
    (ho : s.queue.head? = some old) (hn : s.queue.getLast? = some new)
    (hl : 2 ≤ s.queue.length) (hd : s.dur ≤ new.time - old.time) :
    (updateVel ops s).linVel = vecSubDiv new.pos old.pos (nsToSec (new.time - old.time)) := by
  unfold updateVel
  rw [ho, hn]
  dsimp only
  rw [if_neg (by omega), if_neg (by omega)]

theorem updateVel_ang {ops : RotOps R W} {s : Extrap R W} {old new : TPose R}
    (ho : s.queue.head? = some old) (hn : s.queue.getLast? = some new)
    (hl : 2 ≤ s.queue.length) (hd : s.dur ≤ new.time - old.time) :
    (updateVel ops s).angVel = ops.angVel old.rot new.rot (nsToSec (new.time - old.time)) := by
  unfold updateVel
  rw [ho, hn]
  dsimp only
  rw [if_neg (by omega), if_neg (by omega)]

theorem exRun_linVel {ops : RotOps R W} (l : List (ExOp R)) :
    ∀ (s s' : Extrap R W), (∀ op ∈ l, (∃ u, op = .query u) ∨ ∃ u, op = .imu u) →
      exRun ops s l = .ok s' → s'.linVel = s.linVel ∧ s'.queue = s.queue ∧
        s'.imuMode = s.imuMode := by
  induction l with
  | nil =>
    intro s s' _ h
    simp only [exRun, Outcome.ok.injEq] at h
    subst h
    exact ⟨rfl, rfl, rfl⟩
  | cons op l ih =>
    intro s s' hq h
    simp only [exRun] at h
    rw [Outcome.bind_eq_ok] at h
    obtain ⟨m, hms, h⟩ := h
    have hr := ih m s' (fun o ho => hq o (by simp [ho])) h
    have : m.linVel = s.linVel ∧ m.queue = s.queue ∧ m.imuMode = s.imuMode := by
      rcases hq op (by simp) with ⟨u, rfl⟩ | ⟨u, rfl⟩
      · simp only [exStep] at hms
        rw [Outcome.bind_eq_ok] at hms
        obtain ⟨r, h1, h2⟩ := hms
        simp only [Outcome.pure_eq, Outcome.ok.injEq] at h2
        subst h2
        have hf := extrapolate_fields h1
        exact ⟨hf.2.2.2.1, hf.1, hf.2.2.1⟩
      · have hf := addImu_fields hms
        exact ⟨hf.2.2.2.1, hf.1, hf.2.2.1⟩
    exact ⟨hr.1.trans this.1, hr.2.1.trans this.2.1, hr.2.2.trans this.2.2⟩

theorem exRun_angVel {ops : RotOps R W} (l : List (ExOp R)) :
    ∀ (s s' : Extrap R W), (∀ op ∈ l, (∃ u, op = .query u) ∨ ∃ u, op = .imu u) →
      exRun ops s l = .ok s' → s'.angVel = s.angVel := by
  induction l with
  | nil =>
    intro s s' _ h
    simp only [exRun, Outcome.ok.injEq] at h
    subst h
    rfl
  | cons op l ih =>
    intro s s' hq h
    simp only [exRun] at h
    rw [Outcome.bind_eq_ok] at h
    obtain ⟨m, hms, h⟩ := h
    refine (ih m s' (fun o ho => hq o (by simp [ho])) h).trans ?_
    rcases hq op (by simp) with ⟨u, rfl⟩ | ⟨u, rfl⟩
    · simp only [exStep] at hms
      rw [Outcome.bind_eq_ok] at hms
      obtain ⟨r, h1, h2⟩ := hms
      simp only [Outcome.pure_eq, Outcome.ok.injEq] at h2
      subst h2
      exact extrapolate_angVel h1
    · exact addImu_angVel hms

/-! ### Trackers -/

theorem advanceMsgs_ok (time : Nat) (l : List Nat) :
    ∀ tt, tt ≤ time → l.Pairwise (· ≤ ·) → (∀ m ∈ l, tt ≤ m) →
      ∃ t', advanceMsgs time tt l = .ok t' ∧ t' ≤ time := by
  induction l with
  | nil => intro tt h _ _; exact ⟨tt, rfl, h⟩
  | cons m l ih =>
    intro tt h hp hl
    unfold advanceMsgs
    by_cases hm : m < time
    · rw [if_pos hm, Outcome.check_pos (hl m (by simp))]
      simp only [Outcome.bind_ok]
      have hp' := List.pairwise_cons.mp hp
      exact ih m (by omega) hp'.2 hp'.1
    · rw [if_neg hm]
      exact ⟨tt, rfl, h⟩

theorem mem_dropWhile_lt {tt : Nat} {l : List Nat} (hp : l.Pairwise (· ≤ ·)) :
    ∀ m ∈ l.dropWhile (fun m => decide (m < tt)), tt ≤ m := by
  induction l with
  | nil => simp
  | cons a l ih =>
    intro m hm
    have hp' := List.pairwise_cons.mp hp
    rw [List.dropWhile_cons] at hm
    split at hm
    · exact ih hp'.2 m hm
    · rename_i h
      simp only [decide_eq_true_eq, Nat.not_lt] at h
      rcases List.mem_cons.mp hm with rfl | hm
      · exact h
      · exact Nat.le_trans h (hp'.1 m hm)

theorem advanceTracker_ok {time tt : Nat} {imu : List Nat} (h : tt ≤ time)
    (hp : imu.Pairwise (· ≤ ·)) : advanceTracker time imu tt = .ok time := by
  unfold advanceTracker
  rw [Outcome.check_pos h]
  simp only [Outcome.bind_ok]
  cases imu with
  | nil => rfl
  | cons f r =>
    dsimp only
    by_cases hf : time < f
    · rw [if_pos hf]; rfl
    · rw [if_neg hf]
      have ht1 : (if tt < f then f else tt) ≤ time := by split <;> omega
      obtain ⟨t', h1, h2⟩ := advanceMsgs_ok time
        ((f :: r).dropWhile (fun m => decide (m < (if tt < f then f else tt))))
        (if tt < f then f else tt) ht1
        (hp.sublist (List.dropWhile_sublist _)) (mem_dropWhile_lt hp)
      rw [h1]
      simp only [Outcome.bind_ok]
      rw [Outcome.check_pos h2]
      rfl

theorem trimImu_suffix (last : Nat) (l : List Nat) : trimImu last l <:+ l := by
  induction l with
  | nil => exact List.suffix_rfl
  | cons a l ih =>
    match l, ih with
    | [], _ => exact List.suffix_rfl
    | b :: r, ih =>
      unfold trimImu
      split
      · exact ih.trans (List.suffix_cons a _)
      · exact List.suffix_rfl

/-- The extrapolator as the mapping thread keeps it. -/
structure DrvEx (s : Extrap R W) : Prop where
  sorted : s.imu.Pairwise (· ≤ ·)
  trk : s.imuMode = true → s.queue ≠ [] ∧ s.tracker = some (lastPoseTime s)
  ext : s.imuMode = true → 2 ≤ s.queue.length →
    s.extTracker = some (lastPoseTime s)

theorem addPose_ok {ops : RotOps R W} {p : TPose R} {s : Extrap R W}
    (hso : s.imu.Pairwise (· ≤ ·))
    (htk : s.imuMode = true → s.queue ≠ [] ∧ s.tracker = some (lastPoseTime s))
    (hp : lastPoseTime s ≤ p.time) :
    ∃ s', addPose ops p s = .ok s' ∧ DrvEx s' ∧ lastPoseTime s' = p.time ∧
      s'.imuMode = s.imuMode ∧ (s.queue ≠ [] → 2 ≤ s'.queue.length) ∧ s'.queue ≠ [] := by
  by_cases h0 : s.queue = []
  · have hl : (s.queue ++ [p]).length = 1 := by simp [h0]
    refine ⟨{ s with queue := s.queue ++ [p], cache := p }, ?_, ?_, ?_, rfl, ?_, ?_⟩
    · unfold addPose
      dsimp only
      rw [if_pos hl]
      rfl
    · refine ⟨hso, ?_, ?_⟩
      · intro hm
        exact absurd h0 (htk hm).1
      · intro hm
        exact absurd h0 (htk hm).1
    · simp [lastPoseTime]
    · intro h; exact absurd h0 h
    · simp
  · have hl : ¬ (s.queue ++ [p]).length = 1 := by
      intro hc
      apply h0
      simpa using hc
    let s1 := updateVel ops { s with queue := trimPoses (p.time - s.dur) (s.queue ++ [p]) }
    have hu := updateVel_queue ops { s with queue := trimPoses (p.time - s.dur) (s.queue ++ [p]) }
    have hlast : ∀ s' : Extrap R W, s'.queue = trimPoses (p.time - s.dur) (s.queue ++ [p]) →
        lastPoseTime s' = p.time := by
      intro s' hs'
      unfold lastPoseTime
      rw [hs', trimPoses_getLast]
      simp
    have hlen : 2 ≤ (trimPoses (p.time - s.dur) (s.queue ++ [p])).length := by
      have h1 := trimPoses_two (p.time - s.dur) (s.queue ++ [p])
      have h2 : 0 < s.queue.length := List.length_pos_iff.mpr h0
      simp only [List.length_append, List.length_cons, List.length_nil] at h1
      omega
    have hne : ∀ s' : Extrap R W, s'.queue = trimPoses (p.time - s.dur) (s.queue ++ [p]) →
        2 ≤ s'.queue.length ∧ s'.queue ≠ [] := by
      intro s' hs'
      rw [hs']
      exact ⟨hlen, by intro hc; rw [hc] at hlen; simp at hlen⟩
    by_cases hm : s.imuMode = false
    · refine ⟨s1, ?_, ?_, hlast s1 hu.1, hu.2.2.1, fun _ => (hne s1 hu.1).1, (hne s1 hu.1).2⟩
      · unfold addPose
        dsimp only
        rw [if_neg hl, if_pos (hu.2.2.1.trans hm)]
        rfl
      · have hf : s1.imuMode = false := hu.2.2.1.trans hm
        refine ⟨?_, ?_, ?_⟩
        · show List.Pairwise _ (updateVel ops _).imu
          rw [hu.2.2.2.2.2.1]; exact hso
        · intro hc; rw [hf] at hc; cases hc
        · intro hc; rw [hf] at hc; cases hc
    · have hm' : s.imuMode = true := by simpa using hm
      have htr := (htk hm').2
      have hadv : advanceTracker p.time s.imu (lastPoseTime s) = .ok p.time :=
        advanceTracker_ok hp hso
      refine ⟨{ s1 with tracker := some p.time, extTracker := some p.time,
                        imu := trimImu p.time s1.imu }, ?_, ?_, hlast _ hu.1, hu.2.2.1,
        fun _ => (hne _ hu.1).1, (hne _ hu.1).2⟩
      · unfold addPose
        dsimp only
        rw [if_neg hl, if_neg (by rw [hu.2.2.1]; exact hm)]
        have hadv' : advanceTracker p.time s1.imu (trackerStart p.time s1.imu s1.tracker) =
            .ok p.time := by
          rw [show s1.imu = s.imu from hu.2.2.2.2.2.1, show s1.tracker = s.tracker from hu.2.2.2.2.1,
            htr]
          exact hadv
        show advanceTracker p.time s1.imu (trackerStart p.time s1.imu s1.tracker) >>= _ = _
        rw [hadv']
        rfl
      · refine ⟨?_, ?_, ?_⟩
        · show (trimImu p.time s1.imu).Pairwise _
          rw [show s1.imu = s.imu from hu.2.2.2.2.2.1]
          exact hso.sublist (trimImu_suffix _ _).sublist
        · intro _
          exact ⟨(hne _ hu.1).2, congrArg some (hlast _ hu.1).symm⟩
        · intro _ _
          exact congrArg some (hlast _ hu.1).symm


theorem addImu_ok {t : Nat} {s : Extrap R W} (hd : DrvEx s) (ht : lastPoseTime s ≤ t)
    (hm : ∀ m ∈ s.imu, m ≤ t) :
    ∃ s', addImu t s = .ok s' ∧ DrvEx s' ∧ s'.queue = s.queue ∧ s'.imuMode = s.imuMode ∧
      ∀ m ∈ s'.imu, m ≤ t := by
  unfold addImu
  by_cases hi : s.imuMode = false
  · rw [if_pos hi]
    exact ⟨s, rfl, hd, rfl, rfl, hm⟩
  · rw [if_neg hi]
    have hi' : s.imuMode = true := by simpa using hi
    have hsort : (s.imu ++ [t]).Pairwise (· ≤ ·) := by
      rw [List.pairwise_append]
      refine ⟨hd.sorted, by simp, ?_⟩
      intro a ha b hb
      simp only [List.mem_singleton] at hb
      subst hb
      exact hm a ha
    have hall : ∀ m ∈ s.imu ++ [t], m ≤ t := by
      intro m h
      rcases List.mem_append.mp h with h | h
      · exact hm m h
      · simp only [List.mem_singleton] at h; omega
    have hne := (hd.trk hi').1
    obtain ⟨n, hn⟩ := Option.ne_none_iff_exists'.mp
      (show s.queue.getLast? ≠ none by simpa using hne)
    have hlt : n.time ≤ t := by
      have : lastPoseTime s = n.time := by unfold lastPoseTime; rw [hn]
      omega
    rw [hn]
    dsimp only
    rw [Outcome.check_pos hlt]
    simp only [Outcome.bind_ok, Outcome.pure_eq]
    refine ⟨_, rfl, ⟨?_, ?_, ?_⟩, rfl, rfl, ?_⟩
    · exact hsort.sublist (trimImu_suffix _ _).sublist
    · exact hd.trk
    · exact hd.ext
    · intro m h
      exact hall m ((trimImu_suffix _ _).subset h)

theorem extrapolate_ok {ops : RotOps R W} {t : Nat} {s : Extrap R W} (hd : DrvEx s)
    (ht : lastPoseTime s ≤ t) (hne : s.queue ≠ [])
    (h2 : s.imuMode = true → 2 ≤ s.queue.length) :
    ∃ r, extrapolate ops t s = .ok r := by
  obtain ⟨n, hn⟩ := Option.ne_none_iff_exists'.mp
    (show s.queue.getLast? ≠ none by simpa using hne)
  have hl : lastPoseTime s = n.time := by unfold lastPoseTime; rw [hn]
  have hlt : n.time ≤ t := by omega
  by_cases hc : nsEq s.cache.time t = true
  · exact ⟨_, extrapolate_cached ops hn hlt hc⟩
  · by_cases hm : s.imuMode = false
    · exact ⟨_, extrapolate_ctrv ops hm hn hlt (by simpa using hc)⟩
    · have hm' : s.imuMode = true := by simpa using hm
      have htr := (hd.trk hm').2
      have hex := hd.ext hm' (h2 hm')
      unfold extrapolate
      rw [hn]
      dsimp only
      rw [Outcome.check_pos hlt]
      simp only [Outcome.bind_ok]
      rw [if_neg hc, if_neg hm, htr, hex]
      dsimp only
      rw [advanceTracker_ok ht hd.sorted]
      exact ⟨_, rfl⟩

/-- The driver's state, between events. -/
structure DrvInv (d : Driver R W) (now : Nat) : Prop where
  mode : ∀ s, d.ex = some s → s.imuMode = d.useImu
  noEx : d.ex = none → d.useImu = true ∧ d.first = false ∧ d.waiting = []
  ex : ∀ s, d.ex = some s → DrvEx s ∧ (∀ m ∈ s.imu, m ≤ now)
  wait : d.first = false → ∀ s, d.ex = some s → ∀ t ∈ d.waiting, lastPoseTime s ≤ t
  done : d.first = true → ∀ s, d.ex = some s → s.queue ≠ [] ∧
    (s.imuMode = true → 2 ≤ s.queue.length)

theorem exImu_ok {ops : RotOps R W} (dur : Nat) (r0 r1 : R) (w0 : W) (t : Nat) :
    ∃ s, exImu ops dur r0 r1 w0 t = .ok s ∧ DrvEx s ∧ s.imuMode = true ∧
      lastPoseTime s = t ∧ (∀ m ∈ s.imu, m ≤ t) := by
  refine ⟨{ exCtrv dur r0 w0 with
            imuMode := true
            imu := [t]
            tracker := some t
            queue := [⟨t, ⟨0, 0, 0⟩, r1⟩]
            cache := ⟨t, ⟨0, 0, 0⟩, r1⟩ }, rfl, ⟨by simp, ?_, ?_⟩, rfl, rfl, by simp⟩
  · intro _
    exact ⟨by simp, rfl⟩
  · intro _ h
    simp at h

theorem addPose_imu_mem {ops : RotOps R W} {p : TPose R} {s s' : Extrap R W} {b : Nat}
    (h : addPose ops p s = .ok s') (hb : ∀ m ∈ s.imu, m ≤ b) : ∀ m ∈ s'.imu, m ≤ b := by
  unfold addPose at h
  dsimp only at h
  have hu := updateVel_queue ops { s with queue := trimPoses (p.time - s.dur) (s.queue ++ [p]) }
  split at h
  · simp only [Outcome.pure_eq, Outcome.ok.injEq] at h
    subst h
    exact hb
  · split at h
    · simp only [Outcome.pure_eq, Outcome.ok.injEq] at h
      subst h
      rw [hu.2.2.2.2.2.1]
      exact hb
    · rw [Outcome.bind_eq_ok] at h
      obtain ⟨_, _, h⟩ := h
      simp only [Outcome.pure_eq, Outcome.ok.injEq] at h
      subst h
      intro m hm
      have := (trimImu_suffix _ _).subset hm
      rw [hu.2.2.2.2.2.1] at this
      exact hb m this

theorem drvStep_ok {ops : RotOps R W} {r0 : R} {w0 : W} {d : Driver R W} {now : Nat}
    (hi : DrvInv d now) (e : DrvEvent R) (now' : Nat) (hnow : now ≤ now')
    (he : ∀ t r1, e = .imu t r1 → t = now' ∧ ∀ s, d.ex = some s → lastPoseTime s ≤ t) :
    ∃ d', drvStep ops r0 w0 d e = .ok d' ∧ DrvInv d' now' := by
  have hmono : ∀ s, d.ex = some s → ∀ m ∈ s.imu, m ≤ now' := fun s hs m hm =>
    Nat.le_trans ((hi.ex s hs).2 m hm) hnow
  have hkeep : DrvInv d now' :=
    ⟨hi.mode, hi.noEx, fun s hs => ⟨(hi.ex s hs).1, hmono s hs⟩, hi.wait, hi.done⟩
  cases e with
  | arrive t =>
    cases hx : d.ex with
    | none =>
      have h := hi.noEx hx
      refine ⟨d, ?_, hkeep⟩
      simp only [drvStep, hx]
      rw [if_pos h.1]
    | some s =>
      simp only [drvStep, hx]
      by_cases hlt : t < lastPoseTime s
      · rw [if_pos hlt]
        exact ⟨d, rfl, hkeep⟩
      · rw [if_neg hlt]
        refine ⟨{ d with waiting := d.waiting ++ [t] }, by rw [hx],
          ⟨hkeep.mode, ?_, hkeep.ex, ?_, hkeep.done⟩⟩
        · intro hn
          rw [show d.ex = none from hn] at hx
          cases hx
        · intro hf s' hs' u hu
          rcases List.mem_append.mp hu with hu | hu
          · exact hkeep.wait hf s' hs' u hu
          · simp only [List.mem_singleton] at hu
            subst hu
            have : s' = s := by
              have h1 : d.ex = some s' := hs'
              rw [hx] at h1
              simpa using h1.symm
            subst this
            omega
  | imu t r1 =>
    obtain ⟨rfl, hle⟩ := he t r1 rfl
    simp only [drvStep]
    by_cases hu : d.useImu = false
    · rw [if_pos hu]
      exact ⟨d, rfl, hkeep⟩
    · rw [if_neg hu]
      have hu' : d.useImu = true := by simpa using hu
      cases hx : d.ex with
      | none =>
        obtain ⟨s, hs, hd, hm, hl, hb⟩ := exImu_ok (ops := ops) d.dur r0 r1 w0 t
        have hno := hi.noEx hx
        dsimp only
        rw [hs]
        simp only [Outcome.bind_ok, Outcome.pure_eq]
        refine ⟨_, rfl, ⟨?_, ?_, ?_, ?_, ?_⟩⟩
        · intro s' hs'
          simp only [Option.some.injEq] at hs'
          subst hs'
          exact hm.trans hu'.symm
        · intro h; cases h
        · intro s' hs'
          simp only [Option.some.injEq] at hs'
          subst hs'
          exact ⟨hd, hb⟩
        · intro _ s' _ u hu
          rw [show d.waiting = [] from hno.2.2] at hu
          cases hu
        · intro hf
          rw [show d.first = false from hno.2.1] at hf
          cases hf
      | some s =>
        obtain ⟨s1, h1, hd, hq, hm, hb⟩ := addImu_ok (hi.ex s hx).1 (hle s hx) (hmono s hx)
        have hl : lastPoseTime s1 = lastPoseTime s := by unfold lastPoseTime; rw [hq]
        dsimp only
        rw [h1]
        simp only [Outcome.bind_ok, Outcome.pure_eq]
        refine ⟨_, rfl, ⟨?_, ?_, ?_, ?_, ?_⟩⟩
        · intro s' hs'
          simp only [Option.some.injEq] at hs'
          subst hs'
          exact hm.trans (hi.mode s hx)
        · intro h; cases h
        · intro s' hs'
          simp only [Option.some.injEq] at hs'
          subst hs'
          exact ⟨hd, hb⟩
        · intro hf s' hs' u hu
          simp only [Option.some.injEq] at hs'
          subst hs'
          rw [hl]
          exact hi.wait hf s hx u hu
        · intro hf s' hs'
          simp only [Option.some.injEq] at hs'
          subst hs'
          rw [hq, hm]
          exact hi.done hf s hx
  | process pos rot =>
    simp only [drvStep]
    cases hw : d.waiting with
    | nil => exact ⟨d, rfl, hkeep⟩
    | cons t rest =>
      dsimp only
      cases hx : d.ex with
      | none =>
        have := (hi.noEx hx).2.2
        rw [hw] at this
        cases this
      | some s =>
        dsimp only
        have hs := hi.ex s hx
        by_cases hf : d.first = false
        · rw [if_pos hf]
          have hle : lastPoseTime s ≤ t := hi.wait hf s hx t (by rw [hw]; simp)
          obtain ⟨s1, h1, hd, hl, hm, h2, hne⟩ := addPose_ok (ops := ops)
            (p := ⟨t, ⟨0, 0, 0⟩, r0⟩) hs.1.sorted hs.1.trk hle
          have himu : ∀ m ∈ s1.imu, m ≤ now' := addPose_imu_mem h1 (hmono s hx)
          rw [h1]
          simp only [Outcome.bind_ok, Outcome.pure_eq]
          refine ⟨_, rfl, ⟨?_, ?_, ?_, ?_, ?_⟩⟩
          · intro s' hs'
            simp only [Option.some.injEq] at hs'
            subst hs'
            exact hm.trans (hi.mode s hx)
          · intro h; cases h
          · intro s' hs'
            simp only [Option.some.injEq] at hs'
            subst hs'
            exact ⟨hd, himu⟩
          · intro h; cases h
          · intro _ s' hs'
            simp only [Option.some.injEq] at hs'
            subst hs'
            exact ⟨hne, fun hm1 => h2 (hs.1.trk (hm ▸ hm1)).1⟩
        · rw [if_neg hf]
          have hf' : d.first = true := by simpa using hf
          by_cases hlt : t < lastPoseTime s
          · rw [if_pos hlt]
            refine ⟨{ d with waiting := rest }, by rw [hx],
              ⟨hkeep.mode, ?_, hkeep.ex, ?_, hkeep.done⟩⟩
            · intro hn
              rw [show d.ex = none from hn] at hx
              cases hx
            · intro h
              exact absurd h hf
          · rw [if_neg hlt]
            have hdn := hi.done hf' s hx
            obtain ⟨r, hr⟩ := extrapolate_ok (ops := ops) (t := t) hs.1 (by omega) hdn.1 hdn.2
            have hrf := extrapolate_fields hr
            have hlr : lastPoseTime r.2 = lastPoseTime s := by
              unfold lastPoseTime; rw [hrf.1]
            obtain ⟨s1, h1, hd, hl, hm, h2, hne⟩ := addPose_ok (ops := ops)
              (p := ⟨t, pos, rot⟩) (s := r.2) (by rw [hrf.2.2.2.2.2]; exact hs.1.sorted)
              (by rw [hrf.2.2.1, hrf.1, hlr, hrf.2.2.2.2.1]; exact hs.1.trk)
              (by rw [hlr]; show lastPoseTime s ≤ t; omega)
            have himu : ∀ m ∈ s1.imu, m ≤ now' :=
              addPose_imu_mem h1 (by rw [hrf.2.2.2.2.2]; exact hmono s hx)
            rw [hr]
            simp only [Outcome.bind_ok]
            rw [h1]
            simp only [Outcome.bind_ok, Outcome.pure_eq]
            refine ⟨_, rfl, ⟨?_, ?_, ?_, ?_, ?_⟩⟩
            · intro s' hs'
              simp only [Option.some.injEq] at hs'
              subst hs'
              exact hm.trans (hrf.2.2.1.trans (hi.mode s hx))
            · intro h; cases h
            · intro s' hs'
              simp only [Option.some.injEq] at hs'
              subst hs'
              exact ⟨hd, himu⟩
            · intro h
              exact absurd h hf
            · intro _ s' hs'
              simp only [Option.some.injEq] at hs'
              subst hs'
              exact ⟨hne, fun _ => h2 (by rw [hrf.1]; exact hdn.1)⟩

end Verif
