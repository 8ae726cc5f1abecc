import Verif.Proofs.Replay
import Verif.Props.ImuQueue
/-! Proofs for C128 with inertial messages: a run on a recording in order is the run of an extrapolator that knows
all messages from the start. -/
namespace Verif
open Spec

section
variable {G C α : Type} [Group G]

theorem qMessages_filter (time : Nat) : ∀ (l : List (ImuItem α)) (k : QTracker α), StampsIncrease l →
    qMessages time l k = qMessages time (l.filter fun m => decide (m.stamp < time)) k
  | [], _, _ => rfl
  | m :: l, k, h => by
    have h' := List.pairwise_cons.1 h
    by_cases hm : m.stamp < time
    · rw [List.filter_cons_of_pos (by simpa using hm)]
      unfold qMessages
      rw [if_pos hm, if_pos hm]
      cases qAdvance m.stamp k with
      | abort => rfl
      | ub => rfl
      | ok k' => exact qMessages_filter time l _ h'.2
    · have : (m :: l).filter (fun m => decide (m.stamp < time)) = [] := by
        rw [List.filter_eq_nil_iff]
        intro x hx
        rcases List.mem_cons.1 hx with rfl | hx
        · simpa using hm
        · have := h'.1 x hx
          simp
          omega
      rw [this]
      unfold qMessages
      rw [if_neg hm]

theorem advance_canon (t : Nat) (l : List (ImuItem α)) (k : QTracker α) (h : StampsIncrease l)
    (hh : ∃ f r, l = f :: r ∧ f.stamp ≤ k.time) :
    qAdvanceTracker t l k = (Outcome.check (k.time ≤ t) >>= fun _ =>
      qMessages t (l.filter fun m => decide (k.time ≤ m.stamp ∧ m.stamp < t)) k >>= fun k => qAdvance t k) := by
  obtain ⟨f, r, rfl, hf⟩ := hh
  unfold qAdvanceTracker
  by_cases hk : k.time ≤ t
  · rw [Outcome.check_pos hk, Outcome.bind_ok, Outcome.bind_ok]
    dsimp only
    rw [if_neg (by omega), if_neg (by omega)]
    show (qMessages t ((f :: r).dropWhile fun m => decide (m.stamp < k.time)) k >>= _) = _
    rw [dropWhile_sorted k.time _ h, qMessages_filter t _ k (List.Pairwise.filter _ h), List.filter_filter]
    have : (fun m : ImuItem α => decide (m.stamp < t) && decide (k.time ≤ m.stamp)) =
        fun m => decide (k.time ≤ m.stamp ∧ m.stamp < t) := by
      funext m
      by_cases h1 : m.stamp < t <;> by_cases h2 : k.time ≤ m.stamp <;> simp [h1, h2]
    rw [this]
  · rw [Outcome.check_neg hk]; rfl

/-- The tracker moves the same with the queue as with all messages. -/
theorem advance_same {m0 : ImuItem α} {g fut : List (ImuItem α)} {q : ImuQueue α} (hi : StampsIncrease (g ++ fut))
    (hq : IqInv m0 g q) {t : Nat} {k : QTracker α} (hk : q.newest ≤ k.time) (hf : ∀ m ∈ fut, t ≤ m.stamp) :
    qAdvanceTracker t (g ++ fut) k = qAdvanceTracker t q.queue k := by
  obtain ⟨pre, p1, p2⟩ := hq.queue.split
  obtain ⟨f, r, p3, p4⟩ := hq.queue.head
  have hg : StampsIncrease g := hi.sublist (List.sublist_append_left _ _)
  have hqs : StampsIncrease q.queue := by
    rw [p1] at hg
    exact hg.sublist (List.sublist_append_right _ _)
  rw [advance_canon t q.queue k hqs ⟨f, r, p3, p4.trans hk⟩]
  rw [advance_canon t (g ++ fut) k hi ?_]
  · have h1 : (g ++ fut).filter (fun m => decide (k.time ≤ m.stamp ∧ m.stamp < t)) =
        q.queue.filter fun m => decide (k.time ≤ m.stamp ∧ m.stamp < t) := by
      rw [p1, List.filter_append, List.filter_append]
      have e1 : pre.filter (fun m => decide (k.time ≤ m.stamp ∧ m.stamp < t)) = [] := by
        rw [List.filter_eq_nil_iff]
        intro m hm
        have := p2 m hm
        simp
        intro h
        omega
      have e2 : fut.filter (fun m => decide (k.time ≤ m.stamp ∧ m.stamp < t)) = [] := by
        rw [List.filter_eq_nil_iff]
        intro m hm
        have := hf m hm
        simp
        intro h
        omega
      rw [e1, e2, List.nil_append, List.append_nil]
    rw [h1]
  · cases pre with
    | nil => exact ⟨f, r ++ fut, by rw [p1, p3]; rfl, p4.trans hk⟩
    | cons a pre' =>
      exact ⟨a, pre' ++ q.queue ++ fut, by rw [p1]; simp, by have := p2 a (by simp); omega⟩

/-- The state of the extrapolator with another queue. -/
def withQueue (M : List (ImuItem α)) (x : ImuQueue α × G × G) : ImuQueue α × G × G := ({ x.1 with queue := M }, x.2)

/-- An extrapolator that knows all messages `M`. -/
def knowingExtr (turn : List (TrackOp α) → G) (M : List (ImuItem α)) : Extr (ImuQueue α × G × G) G (ImuItem α) where
  tell x t g := do
    let y ← (imuExtr turn).tell x t g
    return withQueue M y
  ask := (imuExtr turn).ask
  imu x _ := .ok x

theorem ask_same (turn : List (TrackOp α) → G) {m0 : ImuItem α} {g fut : List (ImuItem α)} {x : ImuQueue α × G × G}
    (hi : StampsIncrease (g ++ fut)) (hq : IqInv m0 g x.1) (hx : ∀ k, x.1.ext = some k → x.1.newest ≤ k.time) {t : Nat}
    (hf : ∀ m ∈ fut, t ≤ m.stamp) :
    (knowingExtr turn (g ++ fut)).ask (withQueue (g ++ fut) x) t =
      ((imuExtr turn).ask x t >>= fun a => .ok (withQueue (g ++ fut) a.1, a.2)) := by
  obtain ⟨q, p, c⟩ := x
  show (imuExtr turn).ask (withQueue (g ++ fut) (q, p, c)) t = _
  unfold imuExtr withQueue
  dsimp only
  unfold qQuery
  dsimp only
  by_cases hn : q.newest ≤ t
  · rw [Outcome.check_pos hn, Outcome.bind_ok, Outcome.bind_ok]
    by_cases hc : q.cache ≤ t + 1 ∧ t ≤ q.cache + 1
    · simp only [if_pos hc]; rfl
    · simp only [if_neg hc]
      cases he : q.ext with
      | none => rfl
      | some k =>
        dsimp only
        have hk : q.newest ≤ k.time := hx k he
        rw [advance_same hi hq hk hf]
        by_cases ht : k.time ≤ t
        · rw [Outcome.check_pos ht, Outcome.bind_ok, Outcome.bind_ok]
          cases qAdvanceTracker t q.queue k <;> rfl
        · rw [Outcome.check_neg ht]; rfl
  · rw [Outcome.check_neg hn]; rfl

theorem tell_same (turn : List (TrackOp α) → G) {m0 : ImuItem α} {g fut : List (ImuItem α)} {x : ImuQueue α × G × G}
    (hi : StampsIncrease (g ++ fut)) (hq : IqInv m0 g x.1) {t : Nat} (hf : ∀ m ∈ fut, t ≤ m.stamp) (pose : G) :
    (knowingExtr turn (g ++ fut)).tell (withQueue (g ++ fut) x) t pose =
      ((imuExtr turn).tell x t pose >>= fun y => .ok (withQueue (g ++ fut) y)) := by
  obtain ⟨q, p, c⟩ := x
  unfold knowingExtr imuExtr withQueue qPose
  dsimp only
  rw [advance_same hi hq (le_of_eq hq.time.symm) hf]
  cases qAdvanceTracker t q.queue q.tracker <;> rfl

/-- What holds during a run; `g` are the messages that have come. -/
structure ImuSim (m0 : ImuItem α) (g : List (ImuItem α)) (es : List (PlayEvent C (ImuItem α)))
    (s : PlayState G C (ImuQueue α × G × G)) : Prop where
  inv : IqInv m0 g s.ex.1
  ext : ∀ k, s.ex.1.ext = some k → s.ex.1.newest ≤ k.time
  fut : ∀ m ∈ imuOf es, s.ex.1.newest ≤ m.stamp ∧ (∀ a ∈ s.fe.waiting, a.2 ≤ m.stamp) ∧
    ∀ c t p, s.busy = some (c, t, p) → t ≤ m.stamp

/-- The same state with all messages in the queue. -/
def knowing (M : List (ImuItem α)) (s : PlayState G C (ImuQueue α × G × G)) : PlayState G C (ImuQueue α × G × G) :=
  ⟨s.fe, withQueue M s.ex, s.busy⟩

/-- The run without the arrivals of inertial messages. -/
def dropImu : List (PlayEvent C (ImuItem α)) → List (PlayEvent C (ImuItem α))
  | [] => []
  | .cloud c t :: es => .cloud c t :: dropImu es
  | .imu _ :: es => dropImu es
  | .take :: es => .take :: dropImu es
  | .done :: es => .done :: dropImu es

theorem dropImu_imu : ∀ es : List (PlayEvent C (ImuItem α)), imuOf (dropImu es) = []
  | [] => rfl
  | .cloud _ _ :: es => dropImu_imu es
  | .imu _ :: es => dropImu_imu es
  | .take :: es => dropImu_imu es
  | .done :: es => dropImu_imu es

theorem dropImu_clouds : ∀ es : List (PlayEvent C (ImuItem α)), cloudsOf (dropImu es) = cloudsOf es
  | [] => rfl
  | .cloud c t :: es => by show (c, t) :: _ = (c, t) :: _; rw [dropImu_clouds es]
  | .imu _ :: es => dropImu_clouds es
  | .take :: es => dropImu_clouds es
  | .done :: es => dropImu_clouds es

theorem feArrive_waiting (c : C) (t : Nat) (st : FeState G C) : ∀ a ∈ (feArrive c t st).waiting, a ∈ st.waiting ∨ a = (c, t) := by
  intro a ha
  unfold feArrive at ha
  split at ha
  · exact Or.inl ha
  · rcases List.mem_append.1 ha with h | h
    · exact Or.inl h
    · exact Or.inr (List.mem_singleton.1 h)

theorem ask_inv (turn : List (TrackOp α) → G) {m0 : ImuItem α} {g : List (ImuItem α)} {x : ImuQueue α × G × G} (hg : StampsIncrease g)
    (hq : IqInv m0 g x.1) (hx : ∀ k, x.1.ext = some k → x.1.newest ≤ k.time) {t : Nat} {a : (ImuQueue α × G × G) × G}
    (h : (imuExtr turn).ask x t = .ok a) :
    IqInv m0 g a.1.1 ∧ a.1.1.newest = x.1.newest ∧ ∀ k, a.1.1.ext = some k → a.1.1.newest ≤ k.time := by
  obtain ⟨q, p, c⟩ := x
  unfold imuExtr at h
  dsimp only at h
  obtain ⟨q', h1, h⟩ := (Outcome.bind_eq_ok _ _ _).mp h
  obtain ⟨i1, i2, i3, i4⟩ := qQuery_spec hq h1
  have hq' : a.1.1 = q' := by
    split at h
    · cases h; rfl
    · split at h
      · cases h
      · cases h; rfl
  rw [hq']
  refine ⟨i1, i2, ?_⟩
  rcases i4 with rfl | ⟨k0, k1, j1, j2, j3, j4⟩
  · exact hx
  · intro k hk
    rw [j2] at hk
    cases hk
    have hc := hx k0 j1
    obtain ⟨pre, p1, p2⟩ := hq.queue.split
    obtain ⟨f, r, p3, p4⟩ := hq.queue.head
    have hqs : StampsIncrease q.queue := by
      have := hg
      rw [p1] at this
      exact this.sublist (List.sublist_append_right _ _)
    rw [advance_canon t q.queue k0 hqs ⟨f, r, p3, p4.trans hc⟩, Outcome.check_bind_eq_ok] at j4
    obtain ⟨hkt, j4⟩ := j4
    obtain ⟨k2, _, j4⟩ := (Outcome.bind_eq_ok _ _ _).mp j4
    unfold qAdvance at j4
    rw [Outcome.check_bind_eq_ok] at j4
    obtain ⟨_, j4⟩ := j4
    cases j4
    rw [i2]
    exact i3

theorem tell_inv (turn : List (TrackOp α) → G) {m0 : ImuItem α} {g : List (ImuItem α)} {x y : ImuQueue α × G × G} (hg : StampsIncrease g)
    (hq : IqInv m0 g x.1) {t : Nat} {pose : G} (h : (imuExtr turn).tell x t pose = .ok y) :
    IqInv m0 g y.1 ∧ y.1.newest = t ∧ ∀ k, y.1.ext = some k → y.1.newest ≤ k.time := by
  obtain ⟨q, p, c⟩ := x
  unfold imuExtr at h
  dsimp only at h
  obtain ⟨q', h1, h⟩ := (Outcome.bind_eq_ok _ _ _).mp h
  obtain ⟨i1, i2, i3⟩ := qPose_spec hg hq h1
  cases h
  refine ⟨i1, i2, ?_⟩
  intro k hk
  have hk : q'.ext = some k := hk
  rw [i3] at hk
  cases hk
  exact le_of_eq i1.time.symm

/-- The simulation. -/
theorem imu_sim (cfg : FeCfg G C) (turn : List (TrackOp α) → G) (m0 : ImuItem α) :
    ∀ (es : List (PlayEvent C (ImuItem α))) (g : List (ImuItem α)) (s : PlayState G C (ImuQueue α × G × G)),
      StampsIncrease (g ++ imuOf es) → Timely es → ImuSim m0 g es s →
      playRun cfg (knowingExtr turn (g ++ imuOf es)) (dropImu es) (knowing (g ++ imuOf es) s) =
        (playRun cfg (imuExtr turn) es s >>= fun s' => .ok (knowing (g ++ imuOf es) s'))
  | [], g, s, _, _, _ => rfl
  | .cloud c t :: es, g, s, hi, ht, hs => by
    have hs' : ImuSim m0 g es { s with fe := feArrive c t s.fe } := by
      refine ⟨hs.inv, hs.ext, fun m hm => ⟨(hs.fut m hm).1, ?_, (hs.fut m hm).2.2⟩⟩
      intro a ha
      rcases feArrive_waiting c t s.fe a ha with h | h
      · exact (hs.fut m hm).2.1 a h
      · rw [h]; exact ht.1 m hm
    exact imu_sim cfg turn m0 es g _ hi ht.2 hs'
  | .imu m :: es, g, s, hi, ht, hs => by
    have hi' : StampsIncrease ((g ++ [m]) ++ imuOf es) := by
      rw [List.append_assoc]; exact hi
    have hm := hs.fut m (List.mem_cons_self ..)
    obtain ⟨q', hq'⟩ : ∃ q', qImu m s.ex.1 = .ok q' := by
      unfold qImu
      rw [Outcome.check_pos hm.1]
      exact ⟨_, rfl⟩
    obtain ⟨j1, j2, j3⟩ := qImu_spec (hi'.sublist (List.sublist_append_left _ _)) hs.inv hq'
    have hs' : ImuSim m0 (g ++ [m]) es { s with ex := (q', s.ex.2.1, s.ex.2.2) } := by
      refine ⟨j1, ?_, ?_⟩
      · intro k hk
        have hk : q'.ext = some k := hk
        rw [j2] at hk
        show q'.newest ≤ _
        rw [j3]
        exact hs.ext k hk
      · intro m' hm'
        show q'.newest ≤ _ ∧ _
        rw [j3]
        exact hs.fut m' (List.mem_cons_of_mem _ hm')
    have hM : g ++ imuOf (PlayEvent.imu m :: es : List (PlayEvent C (ImuItem α))) = (g ++ [m]) ++ imuOf es := by
      rw [List.append_assoc]; rfl
    have hstep : playStep cfg (imuExtr turn) s (.imu m) = .ok { s with ex := (q', s.ex.2.1, s.ex.2.2) } := by
      show ((qImu m s.ex.1 >>= fun q => Outcome.ok (q, s.ex.2.1, s.ex.2.2)) >>= _) = _
      rw [hq']; rfl
    have hk : knowing ((g ++ [m]) ++ imuOf es) s = knowing ((g ++ [m]) ++ imuOf es) { s with ex := (q', s.ex.2.1, s.ex.2.2) } := by
      unfold qImu at hq'
      rw [Outcome.check_bind_eq_ok] at hq'
      obtain ⟨_, h⟩ := hq'
      cases h
      rfl
    show playRun cfg _ (dropImu es) _ = ((playStep cfg (imuExtr turn) s (.imu m) >>= fun s => playRun cfg (imuExtr turn) es s) >>= _)
    rw [hM, hstep, Outcome.bind_ok, hk]
    exact imu_sim cfg turn m0 es (g ++ [m]) _ hi' ht hs'
  | .take :: es, g, s, hi, ht, hs => by
    show (playTake (knowingExtr turn (g ++ imuOf es)) (knowing (g ++ imuOf es) s) >>= fun s =>
        playRun cfg (knowingExtr turn (g ++ imuOf es)) (dropImu es) s) =
      ((playTake (imuExtr turn) s >>= fun s => playRun cfg (imuExtr turn) es s) >>= _)
    have hi2 : StampsIncrease (g ++ imuOf es) := hi
    have hg : StampsIncrease g := hi2.sublist (List.sublist_append_left _ _)
    have hfut := hs.fut
    change ∀ m ∈ imuOf es, _ at hfut
    have key : playTake (knowingExtr turn (g ++ imuOf es)) (knowing (g ++ imuOf es) s) =
        (playTake (imuExtr turn) s >>= fun s' => .ok (knowing (g ++ imuOf es) s')) ∧
        ∀ s', playTake (imuExtr turn) s = .ok s' → ImuSim m0 g es s' := by
      obtain ⟨⟨w, last, got, target, pt, acc, fr⟩, x, busy⟩ := s
      cases busy with
      | some b => exact ⟨by unfold playTake knowing; rfl, fun s' h => by unfold playTake at h; cases h; exact ⟨hs.inv, hs.ext, hfut⟩⟩
      | none =>
        cases w with
        | nil => exact ⟨by unfold playTake knowing; rfl, fun s' h => by unfold playTake at h; cases h; exact ⟨hs.inv, hs.ext, hfut⟩⟩
        | cons a rest =>
          obtain ⟨c, t⟩ := a
          have hft : ∀ m ∈ imuOf es, t ≤ m.stamp := fun m hm => (hfut m hm).2.1 (c, t) (List.mem_cons_self ..)
          constructor
          · unfold playTake knowing
            dsimp only
            by_cases hc : got = true ∧ last ≤ t
            · rw [if_pos hc, if_pos hc, ask_same turn hi2 hs.inv hs.ext hft]
              cases (imuExtr turn).ask x t <;> rfl
            · rw [if_neg hc, if_neg hc]; rfl
          · intro s' h
            unfold playTake at h
            dsimp only at h
            split at h
            · obtain ⟨a, h1, h⟩ := (Outcome.bind_eq_ok _ _ _).mp h
              cases h
              obtain ⟨i1, i2, i3⟩ := ask_inv turn hg hs.inv hs.ext h1
              refine ⟨i1, i3, fun m hm => ⟨?_, ?_, ?_⟩⟩
              · show a.1.1.newest ≤ _
                rw [i2]; exact (hfut m hm).1
              · intro b hb
                exact (hfut m hm).2.1 b (List.mem_cons_of_mem _ hb)
              · intro c' t' p' hb
                cases hb
                exact hft m hm
            · cases h
              refine ⟨hs.inv, hs.ext, fun m hm => ⟨(hfut m hm).1, ?_, ?_⟩⟩
              · intro b hb
                exact (hfut m hm).2.1 b (List.mem_cons_of_mem _ hb)
              · intro c' t' p' hb
                cases hb
                exact hft m hm
    rw [key.1]
    cases hr : playTake (imuExtr turn) s with
    | abort => rfl
    | ub => rfl
    | ok s' => exact imu_sim cfg turn m0 es g s' hi ht (key.2 s' hr)
  | .done :: es, g, s, hi, ht, hs => by
    show (playDone cfg (knowingExtr turn (g ++ imuOf es)) (knowing (g ++ imuOf es) s) >>= fun s =>
        playRun cfg (knowingExtr turn (g ++ imuOf es)) (dropImu es) s) =
      ((playDone cfg (imuExtr turn) s >>= fun s => playRun cfg (imuExtr turn) es s) >>= _)
    have hi2 : StampsIncrease (g ++ imuOf es) := hi
    have hg : StampsIncrease g := hi2.sublist (List.sublist_append_left _ _)
    have hfut := hs.fut
    change ∀ m ∈ imuOf es, _ at hfut
    have key : playDone cfg (knowingExtr turn (g ++ imuOf es)) (knowing (g ++ imuOf es) s) =
        (playDone cfg (imuExtr turn) s >>= fun s' => .ok (knowing (g ++ imuOf es) s')) ∧
        ∀ s', playDone cfg (imuExtr turn) s = .ok s' → ImuSim m0 g es s' := by
      obtain ⟨fe, x, busy⟩ := s
      cases busy with
      | none => exact ⟨by unfold playDone knowing; rfl, fun s' h => by unfold playDone at h; cases h; exact ⟨hs.inv, hs.ext, hfut⟩⟩
      | some b =>
        obtain ⟨c, t, p⟩ := b
        have hft : ∀ m ∈ imuOf es, t ≤ m.stamp := fun m hm => (hfut m hm).2.2 c t p rfl
        unfold playDone knowing
        dsimp only
        cases hp : feProcess cfg p c t fe with
        | abort => exact ⟨rfl, fun s' h => by cases h⟩
        | ub => exact ⟨rfl, fun s' h => by cases h⟩
        | ok r =>
          obtain ⟨st, en⟩ := r
          have hw := (feProcess_last hp).1
          rw [Outcome.bind_ok, Outcome.bind_ok]
          cases en with
          | late raw =>
            refine ⟨rfl, fun s' h => ?_⟩
            cases h
            refine ⟨hs.inv, hs.ext, fun m hm => ⟨(hfut m hm).1, ?_, fun c' t' p' hb => by cases hb⟩⟩
            show ∀ a ∈ st.waiting, _
            rw [hw]
            exact (hfut m hm).2.1
          | placed raw ref pose cloud ins =>
            dsimp only
            rw [tell_same turn hi2 hs.inv hft]
            cases hx : (imuExtr turn).tell x t pose with
            | abort => exact ⟨rfl, fun s' h => by cases h⟩
            | ub => exact ⟨rfl, fun s' h => by cases h⟩
            | ok y =>
              refine ⟨rfl, fun s' h => ?_⟩
              cases h
              obtain ⟨i1, i2, i3⟩ := tell_inv turn hg hs.inv hx
              refine ⟨i1, i3, fun m hm => ⟨?_, ?_, fun c' t' p' hb => by cases hb⟩⟩
              · show y.1.newest ≤ _
                rw [i2]; exact hft m hm
              · show ∀ a ∈ st.waiting, _
                rw [hw]
                exact (hfut m hm).2.1
    rw [key.1]
    cases hr : playDone cfg (imuExtr turn) s with
    | abort => rfl
    | ub => rfl
    | ok s' => exact imu_sim cfg turn m0 es g s' hi ht (key.2 s' hr)

end
end Verif
