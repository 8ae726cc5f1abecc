import Verif.Spec.ImuQueue
import Mathlib.Data.List.Basic
import Mathlib.Order.Lattice
/-! Property theorems C70: IMU messages are used once, in order, at their own time. -/
namespace Verif
open Spec
variable {α : Type}

theorem used_append (a b : List (TrackOp α)) : used (a ++ b) = used a ++ used b := by
  induction a with
  | nil => rfl
  | cons x a ih => cases x <;> simp [used, ih]

/-- The time after a list of calls. -/
def endTime : Nat → List (TrackOp α) → Nat
  | τ, [] => τ
  | _, .advance t :: r => endTime t r
  | τ, _ :: r => endTime τ r

theorem onTime_append (a b : List (TrackOp α)) : ∀ τ, OnTime τ (a ++ b) ↔ OnTime τ a ∧ OnTime (endTime τ a) b := by
  induction a with
  | nil => intro τ; simp [OnTime, endTime]
  | cons x a ih =>
    intro τ
    cases x <;> simp [OnTime, endTime, ih, and_assoc]

theorem endTime_append (a b : List (TrackOp α)) : ∀ τ, endTime τ (a ++ b) = endTime (endTime τ a) b := by
  induction a with
  | nil => intro τ; rfl
  | cons x a ih =>
    intro τ
    cases x <;> simp [endTime, ih]

/-- What holds of a tracker that began with `m0`, when the messages `g` have been given. -/
structure QTrackerOk (m0 : ImuItem α) (g : List (ImuItem α)) (k : QTracker α) : Prop where
  uses : used k.log = m0 :: before k.time g
  timed : OnTime m0.stamp k.log
  ends : endTime m0.stamp k.log = k.time

theorem qMessages_spec (time : Nat) (l : List (ImuItem α)) : ∀ k k', StampsIncrease l → (∀ m ∈ l, k.time ≤ m.stamp) →
    qMessages time l k = .ok k' → ∃ add, k'.log = k.log ++ add ∧ used add = before time l ∧
      OnTime k.time add ∧ endTime k.time add = k'.time ∧ (k'.time = k.time ∨ k'.time < time) := by
  induction l with
  | nil =>
    intro k k' _ _ e
    cases e
    exact ⟨[], by simp, rfl, trivial, rfl, Or.inl rfl⟩
  | cons m l ih =>
    intro k k' hi hk e
    unfold qMessages at e
    have hi' := List.pairwise_cons.1 hi
    by_cases hm : m.stamp < time
    · rw [if_pos hm] at e
      unfold qAdvance at e
      rw [Outcome.check_pos (hk m (by simp))] at e
      have e2 : qMessages time l ⟨m.stamp, (k.log ++ [.advance m.stamp]) ++ [.message m]⟩ = .ok k' := e
      obtain ⟨add, h1, h2, h3, h4, h5⟩ := ih _ _ hi'.2 (fun x hx => le_of_lt (hi'.1 x hx)) e2
      refine ⟨[.advance m.stamp, .message m] ++ add, ?_, ?_, ?_, ?_, ?_⟩
      · rw [h1]
        simp
      · rw [used_append, h2]
        simp [used, before, hm]
      · refine ⟨hk m (by simp), rfl, h3⟩
      · exact h4
      · rcases h5 with h5 | h5
        · exact Or.inr (by rw [h5]; exact hm)
        · exact Or.inr h5
    · rw [if_neg hm] at e
      cases e
      refine ⟨[], by simp, ?_, trivial, rfl, Or.inl rfl⟩
      symm
      show before time (m :: l) = []
      unfold before
      rw [List.filter_eq_nil_iff]
      intro x hx
      rcases List.mem_cons.1 hx with rfl | hx
      · simpa using hm
      · have := hi'.1 x hx
        simp
        omega

theorem dropWhile_sorted (t : Nat) (l : List (ImuItem α)) (h : StampsIncrease l) :
    l.dropWhile (fun m => decide (m.stamp < t)) = l.filter (fun m => decide (t ≤ m.stamp)) := by
  induction l with
  | nil => rfl
  | cons m l ih =>
    have h' := List.pairwise_cons.1 h
    by_cases hm : m.stamp < t
    · have : ¬ t ≤ m.stamp := by omega
      simp [hm, this]
      exact ih h'.2
    · have hm' : t ≤ m.stamp := by omega
      rw [List.dropWhile_cons_of_neg (by simpa using hm)]
      symm
      rw [List.filter_eq_self]
      intro x hx
      rcases List.mem_cons.1 hx with rfl | hx
      · simpa using hm'
      · have := h'.1 x hx
        simp
        omega

/-- The queue holds every message that is not before the newest pose. -/
structure QueueOk (newest : Nat) (g queue : List (ImuItem α)) : Prop where
  split : ∃ pre, g = pre ++ queue ∧ ∀ m ∈ pre, m.stamp < newest
  head : ∃ f r, queue = f :: r ∧ f.stamp ≤ newest

theorem before_split (a b : Nat) (hab : a ≤ b) (l : List (ImuItem α)) (h : StampsIncrease l) :
    before b l = before a l ++ before b (l.filter fun m => decide (a ≤ m.stamp)) := by
  induction l with
  | nil => rfl
  | cons m l ih =>
    have h' := List.pairwise_cons.1 h
    by_cases hm : m.stamp < a
    · have h1 : m.stamp < b := by omega
      have h2 : ¬ a ≤ m.stamp := by omega
      have := ih h'.2
      simp only [before] at this ⊢
      simp [hm, h1, h2]
      simpa using this
    · have h2 : a ≤ m.stamp := by omega
      have h3 : before a (m :: l) = [] := by
        unfold before
        rw [List.filter_eq_nil_iff]
        intro x hx
        rcases List.mem_cons.1 hx with rfl | hx
        · simpa using h2
        · have := h'.1 x hx
          simp
          omega
      have h4 : (m :: l).filter (fun m => decide (a ≤ m.stamp)) = m :: l := by
        rw [List.filter_eq_self]
        intro x hx
        rcases List.mem_cons.1 hx with rfl | hx
        · simpa using h2
        · have := h'.1 x hx
          simp
          omega
      rw [h3, h4, List.nil_append]

theorem qAdvanceTracker_spec {m0 : ImuItem α} {g queue : List (ImuItem α)} {newest time : Nat} {k k' : QTracker α}
    (hg : StampsIncrease g) (hq : QueueOk newest g queue) (hk : QTrackerOk m0 g k) (hn : newest ≤ k.time)
    (e : qAdvanceTracker time queue k = .ok k') : QTrackerOk m0 g k' ∧ k'.time = time ∧ k.time ≤ time := by
  obtain ⟨pre, hpre, hlt⟩ := hq.split
  obtain ⟨f, r, hfr, hf⟩ := hq.head
  unfold qAdvanceTracker at e
  rw [Outcome.check_bind_eq_ok] at e
  obtain ⟨ht, e⟩ := e
  rw [hfr] at e
  dsimp only at e
  rw [if_neg (by omega), if_neg (by omega), Outcome.pure_eq, Outcome.bind_ok, Outcome.bind_eq_ok] at e
  obtain ⟨k1, e1, e2⟩ := e
  rw [← hfr] at e1
  have hq' : StampsIncrease queue := by
    have : StampsIncrease (pre ++ queue) := hpre ▸ hg
    exact (List.pairwise_append.1 this).2.1
  rw [dropWhile_sorted _ _ hq'] at e1
  obtain ⟨add, h1, h2, h3, h4, h5⟩ := qMessages_spec time _ k k1 (hq'.sublist List.filter_sublist)
    (fun m hm => by simpa using (List.mem_filter.1 hm).2) e1
  unfold qAdvance at e2
  rw [Outcome.check_bind_eq_ok] at e2
  obtain ⟨h6, e2⟩ := e2
  cases e2
  refine ⟨⟨?_, ?_, ?_⟩, rfl, ht⟩
  · show used (k1.log ++ [.advance time]) = _
    rw [used_append, h1, used_append, h2, hk.uses, before_split k.time time ht g hg]
    have : g.filter (fun m => decide (k.time ≤ m.stamp)) = queue.filter (fun m => decide (k.time ≤ m.stamp)) := by
      rw [hpre, List.filter_append]
      have : pre.filter (fun m => decide (k.time ≤ m.stamp)) = [] := by
        rw [List.filter_eq_nil_iff]
        intro x hx
        have := hlt x hx
        simp
        omega
      rw [this, List.nil_append]
    rw [this]
    simp [used]
  · show OnTime _ (k1.log ++ [.advance time])
    rw [onTime_append, h1, onTime_append, endTime_append, hk.ends, h4]
    exact ⟨⟨hk.timed, h3⟩, h6, trivial⟩
  · show endTime _ (k1.log ++ [.advance time]) = time
    rw [endTime_append]
    rfl

theorem qTrim_spec (last : Nat) (l : List (ImuItem α)) : ∀ pre g, g = pre ++ l → StampsIncrease g → (∀ m ∈ pre, m.stamp < last) →
    (∃ f r, l = f :: r ∧ f.stamp ≤ last) → QueueOk last g (qTrim last l) := by
  induction l with
  | nil =>
    rintro pre g _ _ _ ⟨f, r, h, _⟩
    cases h
  | cons a l ih =>
    intro pre g hg hi hp hh
    cases l with
    | nil => exact ⟨⟨pre, hg, hp⟩, hh⟩
    | cons b r =>
      unfold qTrim
      by_cases hb : b.stamp ≤ last
      · rw [if_pos hb]
        refine ih (pre ++ [a]) g (by rw [hg]; simp) hi ?_ ⟨b, r, rfl, hb⟩
        intro m hm
        rcases List.mem_append.1 hm with hm | hm
        · exact hp m hm
        · rw [List.mem_singleton] at hm
          subst hm
          have h1 : StampsIncrease (pre ++ (m :: b :: r)) := hg ▸ hi
          have h2 := (List.pairwise_append.1 h1).2.1
          have h3 := (List.pairwise_cons.1 h2).1 b (by simp)
          omega
      · rw [if_neg hb]
        exact ⟨⟨pre, hg, hp⟩, hh⟩

/-- What holds after a history that gave the messages `g`. -/
structure IqInv (m0 : ImuItem α) (g : List (ImuItem α)) (s : ImuQueue α) : Prop where
  queue : QueueOk s.newest g s.queue
  tracker : QTrackerOk m0 g s.tracker
  time : s.tracker.time = s.newest

theorem before_new (t : Nat) (g : List (ImuItem α)) (m : ImuItem α) (h : t ≤ m.stamp) : before t (g ++ [m]) = before t g := by
  unfold before
  rw [List.filter_append]
  have : ¬ m.stamp < t := by omega
  simp [this]

theorem qTrackerOk_new {m0 m : ImuItem α} {g : List (ImuItem α)} {k : QTracker α} (h : QTrackerOk m0 g k) (hm : k.time ≤ m.stamp) :
    QTrackerOk m0 (g ++ [m]) k := ⟨by rw [before_new _ _ _ hm]; exact h.uses, h.timed, h.ends⟩

theorem qStart_inv (m0 : ImuItem α) : IqInv m0 [m0] (qStart m0) := by
  refine ⟨⟨⟨[], rfl, by simp⟩, m0, [], rfl, le_refl _⟩, ⟨?_, ?_, ?_⟩, rfl⟩
  · simp [qStart, used, before]
  · exact ⟨rfl, le_refl _, trivial⟩
  · rfl

theorem qImu_spec {m0 m : ImuItem α} {g : List (ImuItem α)} {s s' : ImuQueue α} (hg : StampsIncrease (g ++ [m])) (h : IqInv m0 g s)
    (e : qImu m s = .ok s') : IqInv m0 (g ++ [m]) s' ∧ s'.ext = s.ext ∧ s'.newest = s.newest := by
  unfold qImu at e
  rw [Outcome.check_bind_eq_ok] at e
  obtain ⟨hm, e⟩ := e
  cases e
  refine ⟨⟨?_, qTrackerOk_new h.tracker (by rw [h.time]; exact hm), h.time⟩, rfl, rfl⟩
  obtain ⟨pre, h1, h2⟩ := h.queue.split
  obtain ⟨f, r, h3, h4⟩ := h.queue.head
  exact qTrim_spec _ _ pre _ (by rw [h1]; simp) hg h2 ⟨f, r ++ [m], by rw [h3]; rfl, h4⟩

theorem qPose_spec {m0 : ImuItem α} {g : List (ImuItem α)} {s s' : ImuQueue α} {t : Nat} (hg : StampsIncrease g) (h : IqInv m0 g s)
    (e : qPose t s = .ok s') : IqInv m0 g s' ∧ s'.newest = t ∧ s'.ext = some s'.tracker := by
  unfold qPose at e
  rw [Outcome.bind_eq_ok] at e
  obtain ⟨k, e1, e⟩ := e
  cases e
  obtain ⟨h1, h2, h3⟩ := qAdvanceTracker_spec hg h.queue h.tracker (by rw [h.time]) e1
  rw [h.time] at h3
  obtain ⟨pre, p1, p2⟩ := h.queue.split
  obtain ⟨f, r, p3, p4⟩ := h.queue.head
  refine ⟨⟨?_, h1, h2⟩, rfl, rfl⟩
  exact qTrim_spec t _ pre _ p1 hg (fun m hm => lt_of_lt_of_le (p2 m hm) h3) ⟨f, r, p3, le_trans p4 h3⟩

theorem qQuery_spec {m0 : ImuItem α} {g : List (ImuItem α)} {s s' : ImuQueue α} {t : Nat} (h : IqInv m0 g s)
    (e : qQuery t s = .ok s') : IqInv m0 g s' ∧ s'.newest = s.newest ∧ s.newest ≤ t ∧ (s' = s ∨ ∃ k k', s.ext = some k ∧ s'.ext = some k' ∧
      s'.cache = t ∧ qAdvanceTracker t s.queue k = .ok k') := by
  unfold qQuery at e
  rw [Outcome.check_bind_eq_ok] at e
  obtain ⟨hm, e⟩ := e
  by_cases hc : s.cache ≤ t + 1 ∧ t ≤ s.cache + 1
  · rw [if_pos hc] at e
    cases e
    exact ⟨h, rfl, hm, Or.inl rfl⟩
  · rw [if_neg hc] at e
    cases hx : s.ext with
    | none =>
      rw [hx] at e
      cases e
    | some k =>
      rw [hx] at e
      dsimp only at e
      rw [Outcome.check_bind_eq_ok] at e
      obtain ⟨h1, e⟩ := e
      rw [Outcome.bind_eq_ok] at e
      obtain ⟨k', e1, e⟩ := e
      cases e
      exact ⟨⟨h.queue, h.tracker, h.time⟩, rfl, hm, Or.inr ⟨k, k', rfl, rfl, rfl, e1⟩⟩

theorem imuGiven_append (a b : List (QEvent α)) : imuGiven (a ++ b) = imuGiven a ++ imuGiven b := by
  induction a with
  | nil => rfl
  | cons x a ih => cases x <;> simp [imuGiven, ih]

theorem iqRun_inv (m0 : ImuItem α) (es : List (QEvent α)) : ∀ g s s', StampsIncrease (g ++ imuGiven es) → IqInv m0 g s →
    iqRun s es = .ok s' → IqInv m0 (g ++ imuGiven es) s' := by
  induction es with
  | nil =>
    intro g s s' _ h e
    cases e
    simpa [imuGiven] using h
  | cons ev es ih =>
    intro g s s' hg h e
    unfold iqRun at e
    rw [Outcome.bind_eq_ok] at e
    obtain ⟨s1, e1, e2⟩ := e
    cases ev with
    | imu m =>
      have hg' : StampsIncrease ((g ++ [m]) ++ imuGiven es) := by simpa [imuGiven] using hg
      have := ih (g ++ [m]) s1 s' hg' (qImu_spec (hg'.sublist (List.sublist_append_left _ _)) h e1).1 e2
      simpa [imuGiven] using this
    | pose t => exact ih g s1 s' hg (qPose_spec (hg.sublist (List.sublist_append_left _ _)) h e1).1 e2
    | query t => exact ih g s1 s' hg (qQuery_spec h e1).1 e2

/-- C70, poses. After any history of messages (with increasing stamps), poses and guesses the tracker
stands at the newest pose and has used exactly the messages stamped before it, in order, each once and
at its own time, and no made-up observation. (The first message is also used when the tracker is made.)
Missing: messages with equal stamps, see `C70_same_stamp_fails`. -/
theorem C70_poses_partial (m0 : ImuItem α) (es : List (QEvent α)) (s : ImuQueue α) (hi : StampsIncrease (m0 :: imuGiven es))
    (h : iqRun (qStart m0) es = .ok s) :
    s.tracker.time = s.newest ∧ used s.tracker.log = m0 :: before s.newest (m0 :: imuGiven es) ∧ OnTime m0.stamp s.tracker.log := by
  have := iqRun_inv m0 es [m0] _ s hi (qStart_inv m0) h
  refine ⟨this.time, ?_, this.tracker.timed⟩
  rw [← this.time]
  exact this.tracker.uses

/-- The extrapolation tracker; `q` bounds its time. -/
theorem iqRun_ext (m0 : ImuItem α) (es : List (QEvent α)) : ∀ g s s' q, StampsIncrease (g ++ imuGiven es) → IqInv m0 g s → NoLate q es →
    (∀ k, s.ext = some k → QTrackerOk m0 g k ∧ s.newest ≤ k.time ∧ k.time ≤ q) →
    iqRun s es = .ok s' → ∀ k, s'.ext = some k → QTrackerOk m0 (g ++ imuGiven es) k ∧ s'.newest ≤ k.time := by
  induction es with
  | nil =>
    intro g s s' q _ _ _ hx e k hk
    cases e
    obtain ⟨h1, h2, _⟩ := hx k hk
    exact ⟨by simpa [imuGiven] using h1, h2⟩
  | cons ev es ih =>
    intro g s s' q hg h hl hx e
    unfold iqRun at e
    rw [Outcome.bind_eq_ok] at e
    obtain ⟨s1, e1, e2⟩ := e
    cases ev with
    | imu m =>
      have hg' : StampsIncrease ((g ++ [m]) ++ imuGiven es) := by simpa [imuGiven] using hg
      obtain ⟨i1, i2, i3⟩ := qImu_spec (hg'.sublist (List.sublist_append_left _ _)) h e1
      have := ih (g ++ [m]) s1 s' q hg' i1 hl.2 ?_ e2
      · simpa [imuGiven] using this
      · intro k hk
        rw [i2] at hk
        obtain ⟨h1, h2, h3⟩ := hx k hk
        exact ⟨qTrackerOk_new h1 (le_trans h3 hl.1), by rw [i3]; exact h2, h3⟩
    | pose t =>
      obtain ⟨i1, i2, i3⟩ := qPose_spec (hg.sublist (List.sublist_append_left _ _)) h e1
      refine ih g s1 s' t hg i1 hl ?_ e2
      intro k hk
      rw [i3] at hk
      cases hk
      exact ⟨i1.tracker, le_of_eq i1.time.symm, by rw [i1.time, i2]⟩
    | query t =>
      obtain ⟨i1, i2, i3, i4⟩ := qQuery_spec h e1
      refine ih g s1 s' (max q t) hg i1 hl ?_ e2
      intro k hk
      rcases i4 with rfl | ⟨k0, k1, j1, j2, j3, j4⟩
      · obtain ⟨h1, h2, h3⟩ := hx k hk
        exact ⟨h1, h2, le_trans h3 (le_max_left _ _)⟩
      · rw [j2] at hk
        cases hk
        obtain ⟨h1, h2, h3⟩ := hx k0 j1
        obtain ⟨a1, a2, a3⟩ := qAdvanceTracker_spec (hg.sublist (List.sublist_append_left _ _)) h.queue h1 h2 j4
        exact ⟨a1, by rw [i2, a2]; exact i3, by rw [a2]; exact le_max_right _ _⟩

theorem iqRun_append (a b : List (QEvent α)) : ∀ s, iqRun s (a ++ b) = iqRun s a >>= fun s => iqRun s b := by
  induction a with
  | nil => intro s; rfl
  | cons x a ih =>
    intro s
    show (iqStep s x >>= fun s => iqRun s (a ++ b)) = (iqStep s x >>= fun s => iqRun s a) >>= fun s => iqRun s b
    cases h : iqStep s x with
    | ok s1 => exact ih s1
    | abort => rfl
    | ub => rfl

/-- C70, guesses. If no message comes late (with a stamp before the time of a guess already made since the
newest pose), a new guess for time `t` is made from exactly the messages stamped before `t`, in order, each
once and at its own time. Missing: late messages, see `C70_late_fails`. -/
theorem C70_guesses_partial (m0 : ImuItem α) (es : List (QEvent α)) (t : Nat) (s s' : ImuQueue α) (hi : StampsIncrease (m0 :: imuGiven es))
    (hl : NoLate m0.stamp es) (h : iqRun (qStart m0) es = .ok s) (hn : ¬ (s.cache ≤ t + 1 ∧ t ≤ s.cache + 1))
    (h' : iqStep s (.query t) = .ok s') :
    ∃ k, s'.ext = some k ∧ k.time = t ∧ used k.log = m0 :: before t (m0 :: imuGiven es) ∧ OnTime m0.stamp k.log := by
  have hinv := iqRun_inv m0 es [m0] _ s hi (qStart_inv m0) h
  have hext := iqRun_ext m0 es [m0] _ s m0.stamp hi (qStart_inv m0) hl (by intro k hk; cases hk) h
  obtain ⟨i1, i2, i3, i4⟩ := qQuery_spec hinv h'
  rcases i4 with rfl | ⟨k0, k1, j1, j2, j3, j4⟩
  · exfalso
    change qQuery t s' = _ at h'
    unfold qQuery at h'
    rw [Outcome.check_pos i3, Outcome.bind_ok, if_neg hn] at h'
    cases hx : s'.ext with
    | none => rw [hx] at h'; cases h'
    | some k =>
      rw [hx] at h'
      dsimp only at h'
      rw [Outcome.check_bind_eq_ok] at h'
      obtain ⟨_, h'⟩ := h'
      rw [Outcome.bind_eq_ok] at h'
      obtain ⟨k', _, h'⟩ := h'
      have := congrArg (fun o => match o with | Outcome.ok (x : ImuQueue α) => x.cache | _ => 0) h'
      simp at this
      omega
  · obtain ⟨h1, h2⟩ := hext k0 j1
    obtain ⟨a1, a2, a3⟩ := qAdvanceTracker_spec hi hinv.queue h1 h2 j4
    refine ⟨k1, j2, a2, ?_, a1.timed⟩
    rw [← a2]
    exact a1.uses

/-- What a history leaves in the trackers: the stamps of the messages used. -/
def qView (m0 : ImuItem Nat) (es : List (QEvent Nat)) : Option (List Nat × Option (List Nat)) :=
  match iqRun (qStart m0) es with
  | .ok s => some ((used s.tracker.log).map (·.data), s.ext.map fun k => (used k.log).map (·.data))
  | _ => none

/-- Non-vacuity: a history with poses at 20 and 40 and guesses at 25 and 35. -/
example : qView ⟨10, 1⟩ [.imu ⟨15, 2⟩, .imu ⟨20, 3⟩, .pose 20, .imu ⟨24, 4⟩, .query 25, .imu ⟨30, 5⟩, .query 35, .imu ⟨40, 6⟩,
    .pose 40] = some ([1, 1, 2, 3, 4, 5], some [1, 1, 2, 3, 4, 5]) ∧
    qView ⟨10, 1⟩ [.imu ⟨15, 2⟩, .imu ⟨20, 3⟩, .pose 20, .imu ⟨24, 4⟩, .query 25, .imu ⟨30, 5⟩, .query 35] =
      some ([1, 1, 2], some [1, 1, 2, 3, 4, 5]) := by decide +kernel

/-- C70 fails for messages with the stamp of the newest pose: of two such messages the first is dropped
unused. -/
theorem C70_same_stamp_fails : qView ⟨10, 1⟩ [.pose 20, .imu ⟨20, 2⟩, .imu ⟨20, 3⟩, .pose 30] = some ([1, 1, 3], some [1, 1, 3]) := by
  decide +kernel

/-- C70 fails for guesses after a late message: the message stamped 22 comes after a guess for 25 and is not
used in the guess for 28, although it would be without the earlier guess. -/
theorem C70_late_fails :
    qView ⟨10, 1⟩ [.pose 20, .query 25, .imu ⟨22, 2⟩, .query 28] = some ([1, 1], some [1, 1]) ∧
    qView ⟨10, 1⟩ [.pose 20, .imu ⟨22, 2⟩, .query 28] = some ([1, 1], some [1, 1, 2]) := by
  decide +kernel

end Verif
