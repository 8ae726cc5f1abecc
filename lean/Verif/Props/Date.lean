import Verif.Spec.Date
import Verif.Props.Replay
import Verif.Props.ImuTracker
import Verif.Model.TrackerLog
/-! C138: the date of a recording does not change the map. -/
namespace Verif
open Spec

theorem okMap_bind {A B C : Type} (f : B → C) (x : Outcome A) (k : A → Outcome B) :
    okMap f (x >>= k) = x >>= fun a => okMap f (k a) := by
  cases x <;> rfl

theorem bind_okMap {A B C : Type} (f : A → B) (x : Outcome A) (k : B → Outcome C) :
    (okMap f x >>= k) = x >>= fun a => k (f a) := by
  cases x <;> rfl

theorem check_same {p q : Prop} [Decidable p] [Decidable q] (h : p ↔ q) : Outcome.check p = Outcome.check q := by
  by_cases hp : p
  · rw [Outcome.check_pos hp, Outcome.check_pos (h.1 hp)]
  · rw [Outcome.check_neg hp, Outcome.check_neg fun x => hp (h.2 x)]

/-! ### queue of inertial messages -/
section
variable {α : Type}

theorem qAdvance_later (d t : Nat) (k : QTracker α) : qAdvance (t + d) (laterTracker d k) = okMap (laterTracker d) (qAdvance t k) := by
  unfold qAdvance
  rw [okMap_bind, check_same (p := (laterTracker d k).time ≤ t + d) (q := k.time ≤ t) (by simp [laterTracker])]
  congr 1
  funext _
  simp [okMap, laterTracker, laterTrackOp]

theorem qMessages_later (d time : Nat) : ∀ (l : List (ImuItem α)) (k : QTracker α),
    qMessages (time + d) (l.map (laterItem d)) (laterTracker d k) = okMap (laterTracker d) (qMessages time l k)
  | [], k => rfl
  | m :: r, k => by
    rw [List.map_cons, qMessages, qMessages]
    by_cases h : m.stamp < time
    · rw [if_pos h, if_pos (by simpa [laterItem] using h), okMap_bind]
      have := qAdvance_later d m.stamp k
      rw [show (laterItem d m).stamp = m.stamp + d from rfl, this, bind_okMap]
      congr 1
      funext k'
      have ih := qMessages_later d time r ⟨k'.time, k'.log ++ [.message m]⟩
      rw [← ih]
      simp [laterTracker, laterTrackOp]
    · rw [if_neg h, if_neg (by simpa [laterItem] using h)]
      rfl

theorem dropWhile_later (d t : Nat) (l : List (ImuItem α)) :
    (l.map (laterItem d)).dropWhile (fun m => decide (m.stamp < t + d)) = (l.dropWhile (fun m => decide (m.stamp < t))).map (laterItem d) := by
  rw [List.dropWhile_map]
  congr 1
  congr 1
  funext m
  simp [laterItem]

theorem qAdvanceTracker_later (d time : Nat) (l : List (ImuItem α)) (k : QTracker α) :
    qAdvanceTracker (time + d) (l.map (laterItem d)) (laterTracker d k) = okMap (laterTracker d) (qAdvanceTracker time l k) := by
  unfold qAdvanceTracker
  rw [okMap_bind, check_same (p := (laterTracker d k).time ≤ time + d) (q := k.time ≤ time) (by simp [laterTracker])]
  congr 1
  funext _
  have pre : ∀ k : QTracker α, (do
      let k ← qAdvance (time + d) (laterTracker d k)
      return (⟨k.time, k.log ++ [.pretend]⟩ : QTracker α)) = okMap (laterTracker d) (do
      let k ← qAdvance time k
      return (⟨k.time, k.log ++ [.pretend]⟩ : QTracker α)) := by
    intro k
    rw [qAdvance_later, bind_okMap, okMap_bind]
    congr 1
    funext k'
    simp [okMap, laterTracker, laterTrackOp]
  cases l with
  | nil => exact pre k
  | cons f r =>
    rw [List.map_cons]
    dsimp only
    by_cases h : time < f.stamp
    · rw [if_pos h, if_pos (by simpa [laterItem] using h)]
      exact pre k
    · rw [if_neg h, if_neg (by simpa [laterItem] using h)]
      have tail : ∀ k : QTracker α, (do
          let k ← qMessages (time + d) ((laterItem d f :: r.map (laterItem d)).dropWhile fun m => decide (m.stamp < (laterTracker d k).time))
            (laterTracker d k)
          qAdvance (time + d) k) = okMap (laterTracker d) (do
          let k ← qMessages time ((f :: r).dropWhile fun m => decide (m.stamp < k.time)) k
          qAdvance time k) := by
        intro k'
        have e2 := dropWhile_later d k'.time (f :: r)
        rw [List.map_cons] at e2
        rw [okMap_bind, show (laterTracker d k').time = k'.time + d from rfl, e2, qMessages_later, bind_okMap]
        congr 1
        funext k''
        exact qAdvance_later d time k''
      by_cases h2 : k.time < f.stamp
      · rw [if_pos h2, if_pos (by simpa [laterItem, laterTracker] using h2), okMap_bind,
          show (laterItem d f).stamp = f.stamp + d from rfl, qAdvance_later, bind_okMap]
        congr 1
        funext k'
        exact tail k'
      · rw [if_neg h2, if_neg (by simpa [laterItem, laterTracker] using h2), okMap_bind]
        exact tail k

theorem qTrim_later (d last : Nat) : ∀ l : List (ImuItem α), qTrim (last + d) (l.map (laterItem d)) = (qTrim last l).map (laterItem d)
  | [] => rfl
  | [_] => rfl
  | a :: b :: r => by
    have ih := qTrim_later d last (b :: r)
    simp only [List.map_cons] at ih ⊢
    rw [qTrim, qTrim]
    by_cases h : b.stamp ≤ last
    · rw [if_pos h, if_pos (by simpa [laterItem] using h), ih]
    · rw [if_neg h, if_neg (by simpa [laterItem] using h)]
      rfl

theorem qImu_later (d : Nat) (m : ImuItem α) (s : ImuQueue α) :
    qImu (laterItem d m) (laterQueue d s) = okMap (laterQueue d) (qImu m s) := by
  unfold qImu
  rw [okMap_bind, check_same (p := (laterQueue d s).newest ≤ (laterItem d m).stamp) (q := s.newest ≤ m.stamp)
    (by simp [laterQueue, laterItem])]
  congr 1
  funext _
  have := qTrim_later d s.newest (s.queue ++ [m])
  rw [List.map_append] at this
  simp only [okMap, laterQueue, Outcome.pure_eq]
  rw [← this]
  rfl

theorem qPose_later (d t : Nat) (s : ImuQueue α) : qPose (t + d) (laterQueue d s) = okMap (laterQueue d) (qPose t s) := by
  unfold qPose
  rw [okMap_bind]
  have := qAdvanceTracker_later d t s.queue s.tracker
  rw [show (laterQueue d s).queue = s.queue.map (laterItem d) from rfl,
    show (laterQueue d s).tracker = laterTracker d s.tracker from rfl, this, bind_okMap]
  congr 1
  funext k
  rw [qTrim_later]
  rfl

theorem qQuery_later (d t : Nat) (s : ImuQueue α) : qQuery (t + d) (laterQueue d s) = okMap (laterQueue d) (qQuery t s) := by
  unfold qQuery
  rw [okMap_bind, check_same (p := (laterQueue d s).newest ≤ t + d) (q := s.newest ≤ t) (by simp [laterQueue])]
  congr 1
  funext _
  by_cases h : s.cache ≤ t + 1 ∧ t ≤ s.cache + 1
  · rw [if_pos h, if_pos (by simp only [laterQueue]; omega)]
    rfl
  · rw [if_neg h, if_neg (by simp only [laterQueue]; omega)]
    cases he : s.ext with
    | none => simp [laterQueue, he, okMap]
    | some k =>
      have e1 : (laterQueue d s).ext = some (laterTracker d k) := by simp [laterQueue, he]
      rw [e1]
      dsimp only
      rw [okMap_bind, check_same (p := (laterTracker d k).time ≤ t + d) (q := k.time ≤ t) (by simp [laterTracker])]
      congr 1
      funext _
      rw [okMap_bind, show (laterQueue d s).queue = s.queue.map (laterItem d) from rfl, qAdvanceTracker_later, bind_okMap]
      rfl

/-- A tracker goes on from where it was. -/
def Continues (k k' : QTracker α) : Prop := k.log <+: k'.log

theorem qAdvance_cont (t : Nat) (k k' : QTracker α) (h : qAdvance t k = .ok k') : Continues k k' := by
  unfold qAdvance at h
  rw [Outcome.check_bind_eq_ok] at h
  obtain ⟨-, h⟩ := h
  simp only [Outcome.pure_eq, Outcome.ok.injEq] at h
  rw [← h]
  exact List.prefix_append _ _

theorem qMessages_cont (time : Nat) : ∀ (l : List (ImuItem α)) (k k' : QTracker α), qMessages time l k = .ok k' → Continues k k'
  | [], k, k', h => by
    simp only [qMessages, Outcome.ok.injEq] at h
    rw [← h]
    exact List.prefix_refl _
  | m :: r, k, k', h => by
    rw [qMessages] at h
    by_cases hm : m.stamp < time
    · rw [if_pos hm, Outcome.bind_eq_ok] at h
      obtain ⟨k1, h1, h2⟩ := h
      exact ((qAdvance_cont _ _ _ h1).trans (List.prefix_append _ _)).trans (qMessages_cont time r _ _ h2)
    · rw [if_neg hm, Outcome.ok.injEq] at h
      rw [← h]
      exact List.prefix_refl _

theorem qAdvanceTracker_cont (time : Nat) (l : List (ImuItem α)) (k k' : QTracker α) (h : qAdvanceTracker time l k = .ok k') :
    Continues k k' := by
  unfold qAdvanceTracker at h
  rw [Outcome.check_bind_eq_ok] at h
  obtain ⟨-, h⟩ := h
  have pre : ∀ k k' : QTracker α, ((do
      let k ← qAdvance time k
      return ⟨k.time, k.log ++ [TrackOp.pretend]⟩) : Outcome (QTracker α)) = .ok k' → Continues k k' := by
    intro k k' h
    rw [Outcome.bind_eq_ok] at h
    obtain ⟨k1, h1, h2⟩ := h
    simp only [Outcome.pure_eq, Outcome.ok.injEq] at h2
    rw [← h2]
    exact (qAdvance_cont _ _ _ h1).trans (List.prefix_append _ _)
  cases l with
  | nil => exact pre _ _ h
  | cons f r =>
    dsimp only at h
    by_cases hf : time < f.stamp
    · rw [if_pos hf] at h
      exact pre _ _ h
    · rw [if_neg hf] at h
      by_cases h2 : k.time < f.stamp
      · rw [if_pos h2, Outcome.bind_eq_ok] at h
        obtain ⟨k1, h1, h⟩ := h
        rw [Outcome.bind_eq_ok] at h
        obtain ⟨k2, h3, h4⟩ := h
        exact ((qAdvance_cont _ _ _ h1).trans (qMessages_cont _ _ _ _ h3)).trans (qAdvance_cont _ _ _ h4)
      · rw [if_neg h2] at h
        simp only [Outcome.pure_eq, Outcome.bind_ok] at h
        rw [Outcome.bind_eq_ok] at h
        obtain ⟨k2, h3, h4⟩ := h
        exact (qMessages_cont _ _ _ _ h3).trans (qAdvance_cont _ _ _ h4)

theorem begun_cont {k k' : QTracker α} (h : Continues k k') (hk : BegunAfterZero k) : BegunAfterZero k' := by
  obtain ⟨m, l, h1, h2⟩ := hk
  obtain ⟨r, hr⟩ := h
  exact ⟨m, l ++ r, by rw [← hr, h1, List.cons_append], h2⟩

variable {G : Type} [Group G]

/-- The state of the extrapolator after it was started with a message after the beginning of time. -/
def ImuBegun (x : ImuQueue α × G × G) : Prop := BegunAfterZero x.1.tracker ∧ ∀ k, x.1.ext = some k → BegunAfterZero k

/-- The extrapolator with inertial messages sees no date, if the orientation after the calls on a tracker does not depend on
it (`C138_turn`). -/
theorem C138_imu (d : Nat) (turn : List (TrackOp α) → G)
    (ht : ∀ k : QTracker α, BegunAfterZero k → turn (k.log.map (laterTrackOp d)) = turn k.log) :
    SeesNoDate d ImuBegun (fun x : ImuQueue α × G × G => (laterQueue d x.1, x.2)) (laterItem d) (imuExtr turn) := by
  have hquery : ∀ (x : ImuQueue α × G × G) t q, ImuBegun x → qQuery t x.1 = .ok q → ImuBegun (q, x.2) := by
    intro x t q hx h
    unfold qQuery at h
    rw [Outcome.check_bind_eq_ok] at h
    obtain ⟨-, h⟩ := h
    by_cases hc : x.1.cache ≤ t + 1 ∧ t ≤ x.1.cache + 1
    · rw [if_pos hc] at h
      simp only [Outcome.pure_eq, Outcome.ok.injEq] at h
      rw [← h]
      exact hx
    · rw [if_neg hc] at h
      cases he : x.1.ext with
      | none =>
        rw [he] at h
        cases h
      | some k =>
        rw [he] at h
        dsimp only at h
        rw [Outcome.check_bind_eq_ok] at h
        obtain ⟨-, h⟩ := h
        rw [Outcome.bind_eq_ok] at h
        obtain ⟨k1, h1, h2⟩ := h
        simp only [Outcome.pure_eq, Outcome.ok.injEq] at h2
        rw [← h2]
        refine ⟨hx.1, fun k2 hk2 => ?_⟩
        simp only [Option.some.injEq] at hk2
        rw [← hk2]
        exact begun_cont (qAdvanceTracker_cont _ _ _ _ h1) (hx.2 k he)
  refine ⟨fun x t g hx => ?_, fun x t hx => ?_, fun x i hx => ?_, fun x t g x' hx h => ?_, fun x t r hx h => ?_, fun x i x' hx h => ?_⟩
  · simp only [imuExtr]
    rw [qPose_later, bind_okMap, okMap_bind]
    rfl
  · simp only [imuExtr]
    rw [qQuery_later, bind_okMap, okMap_bind]
    cases hqq : qQuery t x.1 with
    | abort => rfl
    | ub => rfl
    | ok q =>
      have hb := hquery x t q hx hqq
      simp only [Outcome.bind_ok]
      by_cases h : x.1.cache ≤ t + 1 ∧ t ≤ x.1.cache + 1
      · rw [if_pos h, if_pos (by simp only [laterQueue]; omega)]
        rfl
      · rw [if_neg h, if_neg (by simp only [laterQueue]; omega)]
        cases hq : q.ext with
        | none => simp [laterQueue, hq, okMap]
        | some k =>
          have e1 : (laterQueue d q).ext = some (laterTracker d k) := by simp [laterQueue, hq]
          rw [e1]
          simp only [okMap, Outcome.pure_eq]
          rw [show (laterQueue d q).tracker.log = q.tracker.log.map (laterTrackOp d) from rfl,
            show (laterTracker d k).log = k.log.map (laterTrackOp d) from rfl, ht _ hb.1, ht _ (hb.2 k hq)]
  · simp only [imuExtr]
    rw [qImu_later, bind_okMap, okMap_bind]
    rfl
  · simp only [imuExtr] at h
    rw [Outcome.bind_eq_ok] at h
    obtain ⟨q, hq, h⟩ := h
    simp only [Outcome.pure_eq, Outcome.ok.injEq] at h
    unfold qPose at hq
    rw [Outcome.bind_eq_ok] at hq
    obtain ⟨k, hk, hq⟩ := hq
    simp only [Outcome.pure_eq, Outcome.ok.injEq] at hq
    rw [← h, ← hq]
    have hk' := begun_cont (qAdvanceTracker_cont _ _ _ _ hk) hx.1
    refine ⟨hk', fun k2 hk2 => ?_⟩
    simp only [Option.some.injEq] at hk2
    rw [← hk2]
    exact hk'
  · simp only [imuExtr] at h
    rw [Outcome.bind_eq_ok] at h
    obtain ⟨q, hq, h⟩ := h
    have hb := hquery x t q hx hq
    by_cases hc : x.1.cache ≤ t + 1 ∧ t ≤ x.1.cache + 1
    · rw [if_pos hc] at h
      simp only [Outcome.pure_eq, Outcome.ok.injEq] at h
      rw [← h]
      exact hb
    · rw [if_neg hc] at h
      cases he : q.ext with
      | none =>
        rw [he] at h
        cases h
      | some k =>
        rw [he] at h
        simp only [Outcome.pure_eq, Outcome.ok.injEq] at h
        rw [← h]
        exact hb
  · simp only [imuExtr] at h
    rw [Outcome.bind_eq_ok] at h
    obtain ⟨q, hq, h⟩ := h
    simp only [Outcome.pure_eq, Outcome.ok.injEq] at h
    unfold qImu at hq
    rw [Outcome.check_bind_eq_ok] at hq
    obtain ⟨-, hq⟩ := hq
    simp only [Outcome.pure_eq, Outcome.ok.injEq] at hq
    rw [← h, ← hq]
    exact hx
end

/-! ### the run -/
section
variable {G C X I : Type} [Group G]

/-- The state of the front end with later times. -/
def laterFe (d : Nat) (s : FeState G C) : FeState G C :=
  { s with waiting := s.waiting.map (fun w => (w.1, w.2 + d)), last := s.last + d }

def laterState (d : Nat) (lx : X → X) (s : PlayState G C X) : PlayState G C X :=
  ⟨laterFe d s.fe, lx s.ex, s.busy.map fun b => (b.1, b.2.1 + d, b.2.2)⟩

theorem feArrive_later (d : Nat) (c : C) (t : Nat) (s : FeState G C) : feArrive c (t + d) (laterFe d s) = laterFe d (feArrive c t s) := by
  unfold feArrive
  by_cases h : t < s.last
  · rw [if_pos h, if_pos (by simpa [laterFe] using h)]
  · rw [if_neg h, if_neg (by simpa [laterFe] using h)]
    simp [laterFe]

theorem feProcess_later (cfg : FeCfg G C) (d : Nat) (pred : G) (raw : C) (t : Nat) (s : FeState G C) :
    feProcess cfg pred raw (t + d) (laterFe d s) = okMap (fun r => (laterFe d r.1, r.2)) (feProcess cfg pred raw t s) := by
  unfold feProcess
  by_cases h0 : s.got = false
  · rw [if_pos h0, if_pos (by simpa [laterFe] using h0), okMap_bind]
    rfl
  · rw [if_neg h0, if_neg (by simpa [laterFe] using h0)]
    by_cases h1 : t < s.last
    · rw [if_pos h1, if_pos (by simpa [laterFe] using h1)]
      rfl
    · rw [if_neg h1, if_neg (by simpa [laterFe] using h1)]
      rw [show (laterFe d s).target = s.target from rfl]
      cases s.target with
      | none => rfl
      | some tg =>
        dsimp only
        rw [show (laterFe d s).poseTarget = s.poseTarget from rfl, show (laterFe d s).acc = s.acc from rfl, okMap_bind]
        congr 1
        funext _
        rw [okMap_bind]
        congr 1
        funext source
        rw [okMap_bind]
        congr 1
        funext cloud
        by_cases hk : cfg.key (feResult cfg (cfg.align tg.1 source (s.poseTarget⁻¹ * pred)) (s.poseTarget⁻¹ * pred)) = true
        · rw [if_pos hk, if_pos hk, okMap_bind]
          rfl
        · rw [if_neg hk, if_neg hk]
          rfl

theorem playStep_later (cfg : FeCfg G C) (d : Nat) {lx : X → X} {li : I → I} {ok : X → Prop} {e : Extr X G I} (he : SeesNoDate d ok lx li e)
    (s : PlayState G C X) (hs : ok s.ex) (ev : PlayEvent C I) :
    playStep cfg e (laterState d lx s) (laterPlay d li ev) = okMap (laterState d lx) (playStep cfg e s ev) := by
  cases ev with
  | cloud c t =>
    simp only [playStep, laterPlay, okMap]
    congr 1
    simp [laterState, feArrive_later]
  | imu i =>
    simp only [playStep, laterPlay]
    rw [show (laterState d lx s).ex = lx s.ex from rfl, he.imu _ _ hs, bind_okMap, okMap_bind]
    rfl
  | take =>
    simp only [playStep, laterPlay]
    unfold playTake
    obtain ⟨fe, ex, busy⟩ := s
    cases busy with
    | some b => rfl
    | none =>
      obtain ⟨waiting, last, got, target, poseTarget, acc, frames⟩ := fe
      cases waiting with
      | nil => rfl
      | cons w rest =>
        obtain ⟨c, t⟩ := w
        simp only [laterState, laterFe, Option.map_none, List.map_cons]
        by_cases h : got = true ∧ last ≤ t
        · rw [if_pos h, if_pos ⟨h.1, by omega⟩, he.ask _ _ hs, bind_okMap, okMap_bind]
          rfl
        · rw [if_neg h, if_neg (fun x => h ⟨x.1, by omega⟩)]
          rfl
  | done =>
    simp only [playStep, laterPlay]
    unfold playDone
    obtain ⟨fe, ex, busy⟩ := s
    cases busy with
    | none => rfl
    | some b =>
      obtain ⟨c, t, pred⟩ := b
      simp only [laterState, Option.map_some]
      rw [feProcess_later, bind_okMap, okMap_bind]
      congr 1
      funext r
      obtain ⟨r1, r2⟩ := r
      cases r2 with
      | late raw => rfl
      | placed raw reference pose cloud inserted =>
        dsimp only
        rw [he.tell _ _ _ hs, bind_okMap, okMap_bind]
        rfl

theorem playStep_ok (cfg : FeCfg G C) (d : Nat) {lx : X → X} {li : I → I} {ok : X → Prop} {e : Extr X G I} (he : SeesNoDate d ok lx li e)
    (s : PlayState G C X) (hs : ok s.ex) (ev : PlayEvent C I) (s' : PlayState G C X) (h : playStep cfg e s ev = .ok s') : ok s'.ex := by
  cases ev with
  | cloud c t =>
    simp only [playStep, Outcome.ok.injEq] at h
    rw [← h]
    exact hs
  | imu i =>
    simp only [playStep] at h
    rw [Outcome.bind_eq_ok] at h
    obtain ⟨x, hx, h⟩ := h
    simp only [Outcome.pure_eq, Outcome.ok.injEq] at h
    rw [← h]
    exact he.heard _ _ _ hs hx
  | take =>
    simp only [playStep, playTake] at h
    obtain ⟨fe, ex, busy⟩ := s
    cases busy with
    | some b =>
      simp only [Outcome.ok.injEq] at h
      rw [← h]
      exact hs
    | none =>
      obtain ⟨waiting, last, got, target, poseTarget, acc, frames⟩ := fe
      cases waiting with
      | nil =>
        simp only [Outcome.ok.injEq] at h
        rw [← h]
        exact hs
      | cons w rest =>
        obtain ⟨c, t⟩ := w
        dsimp only at h
        by_cases hc : got = true ∧ last ≤ t
        · rw [if_pos hc, Outcome.bind_eq_ok] at h
          obtain ⟨x, hx, h⟩ := h
          simp only [Outcome.pure_eq, Outcome.ok.injEq] at h
          rw [← h]
          exact he.asked _ _ _ hs hx
        · rw [if_neg hc, Outcome.ok.injEq] at h
          rw [← h]
          exact hs
  | done =>
    simp only [playStep, playDone] at h
    obtain ⟨fe, ex, busy⟩ := s
    cases busy with
    | none =>
      simp only [Outcome.ok.injEq] at h
      rw [← h]
      exact hs
    | some b =>
      obtain ⟨c, t, pred⟩ := b
      dsimp only at h
      rw [Outcome.bind_eq_ok] at h
      obtain ⟨⟨r1, r2⟩, hr, h⟩ := h
      cases r2 with
      | late raw =>
        simp only [Outcome.pure_eq, Outcome.ok.injEq] at h
        rw [← h]
        exact hs
      | placed raw reference pose cloud inserted =>
        dsimp only at h
        rw [Outcome.bind_eq_ok] at h
        obtain ⟨x, hx, h⟩ := h
        simp only [Outcome.pure_eq, Outcome.ok.injEq] at h
        rw [← h]
        exact he.told _ _ _ _ hs hx

/-- C138: the recording at a later date, with an extrapolator that sees no date, gives the same run: the same failure, or the
same frames at the same poses. -/
theorem C138_run (cfg : FeCfg G C) (d : Nat) {lx : X → X} {li : I → I} {ok : X → Prop} {e : Extr X G I} (he : SeesNoDate d ok lx li e) :
    ∀ (es : List (PlayEvent C I)) (s : PlayState G C X), ok s.ex →
    playRun cfg e (es.map (laterPlay d li)) (laterState d lx s) = okMap (laterState d lx) (playRun cfg e es s)
  | [], s, _ => rfl
  | ev :: es, s, hs => by
    rw [List.map_cons, playRun, playRun, playStep_later cfg d he s hs, bind_okMap, okMap_bind]
    cases hx : playStep cfg e s ev with
    | abort => rfl
    | ub => rfl
    | ok s' =>
      simp only [Outcome.bind_ok]
      exact C138_run cfg d he es s' (playStep_ok cfg d he s hs ev s' hx)

/-- C138, the map: key frames, submaps, results of the optimiser and saved files are the same. -/
theorem C138_map {P E : Type} (r : RunCfg G P C E) (d : Nat) {lx : X → X} {li : I → I} {ok : X → Prop} {e : Extr X G I}
    (he : SeesNoDate d ok lx li e) (x0 : X) (h0 : ok x0) (n start : Nat) (es : List (PlayEvent C I)) (sched : List WeaveStep) (obs : List (Submap G P) → List (IsamFrame G E))
    (est : List (Submap G P) → Nat → G) (coord : List (Submap G P) → G) :
    playMap r e (lx x0) n (start + d) (es.map (laterPlay d li)) sched obs est coord = playMap r e x0 n start es sched obs est coord := by
  unfold playMap
  have h := C138_run r.fe d he es ⟨feInit start, x0, none⟩ h0
  rw [show laterState d lx ⟨feInit start, x0, none⟩ = (⟨feInit (start + d), lx x0, none⟩ : PlayState G C X) from rfl] at h
  rw [h, bind_okMap]
  rfl

/-! Without inertial messages the first time known is zero, at any date. -/

/-- Before the first pose no time is known. -/
def noLast (s : PlayState G C X) : PlayState G C X := if s.fe.got = false then { s with fe := { s.fe with last := 0 } } else s

/-- All clouds of the recording have a stamp not before `d`. -/
def NotBefore (d : Nat) : PlayEvent C I → Prop
  | .cloud _ t => d ≤ t
  | _ => True

theorem fe_got (cfg : FeCfg G C) (pred : G) (raw : C) (t : Nat) (s : FeState G C) (r : FeState G C × FeEntry G C)
    (h : feProcess cfg pred raw t s = .ok r) : r.1.got = true := by
  unfold feProcess at h
  by_cases h0 : s.got = false
  · rw [if_pos h0, Outcome.bind_eq_ok] at h
    obtain ⟨tg, -, h⟩ := h
    simp only [Outcome.pure_eq, Outcome.ok.injEq] at h
    rw [← h]
  · have hg : s.got = true := by simpa using h0
    rw [if_neg h0] at h
    by_cases h1 : t < s.last
    · rw [if_pos h1, Outcome.ok.injEq] at h
      rw [← h]
      exact hg
    · rw [if_neg h1] at h
      cases ht : s.target with
      | none =>
        rw [ht] at h
        cases h
      | some tg =>
        rw [ht] at h
        dsimp only at h
        rw [Outcome.check_bind_eq_ok] at h
        obtain ⟨-, h⟩ := h
        rw [Outcome.bind_eq_ok] at h
        obtain ⟨source, -, h⟩ := h
        rw [Outcome.bind_eq_ok] at h
        obtain ⟨cloud, -, h⟩ := h
        by_cases hk : cfg.key (feResult cfg (cfg.align tg.1 source (s.poseTarget⁻¹ * pred)) (s.poseTarget⁻¹ * pred)) = true
        · rw [if_pos hk, Outcome.bind_eq_ok] at h
          obtain ⟨tg', -, h⟩ := h
          simp only [Outcome.pure_eq, Outcome.ok.injEq] at h
          rw [← h]
          exact hg
        · rw [if_neg hk] at h
          simp only [Outcome.pure_eq, Outcome.ok.injEq] at h
          rw [← h]
          exact hg

theorem playStep_noLast (cfg : FeCfg G C) (e : Extr X G I) (d : Nat) (s : PlayState G C X) (hs : s.fe.got = false → s.fe.last = d)
    (ev : PlayEvent C I) (hev : NotBefore d ev) :
    playStep cfg e (noLast s) ev = okMap noLast (playStep cfg e s ev) ∧
    ∀ s', playStep cfg e s ev = .ok s' → s'.fe.got = false → s'.fe.last = d := by
  obtain ⟨⟨waiting, last, got, target, poseTarget, acc, frames⟩, ex, busy⟩ := s
  cases got with
  | true =>
    have hn : ∀ s : PlayState G C X, s.fe.got = true → noLast s = s := fun s h => by
      unfold noLast
      rw [if_neg (by simp [h])]
    rw [hn _ rfl]
    have keep : ∀ s', playStep cfg e (⟨⟨waiting, last, true, target, poseTarget, acc, frames⟩, ex, busy⟩ : PlayState G C X) ev = .ok s' →
        s'.fe.got = true := by
      intro s' h
      cases ev with
      | cloud c t =>
        simp only [playStep, Outcome.ok.injEq, feArrive] at h
        rw [← h]
        by_cases hc : t < last
        · simp [hc]
        · simp [hc]
      | imu i =>
        simp only [playStep] at h
        rw [Outcome.bind_eq_ok] at h
        obtain ⟨x, -, h⟩ := h
        simp only [Outcome.pure_eq, Outcome.ok.injEq] at h
        rw [← h]
      | take =>
        simp only [playStep, playTake] at h
        cases busy with
        | some b =>
          simp only [Outcome.ok.injEq] at h
          rw [← h]
        | none =>
          cases waiting with
          | nil =>
            simp only [Outcome.ok.injEq] at h
            rw [← h]
          | cons w rest =>
            obtain ⟨c, t⟩ := w
            dsimp only at h
            by_cases hc : True ∧ last ≤ t
            · simp only [hc.2, and_self, if_true] at h
              rw [Outcome.bind_eq_ok] at h
              obtain ⟨x, -, h⟩ := h
              simp only [Outcome.pure_eq, Outcome.ok.injEq] at h
              rw [← h]
            · have hc' : ¬ last ≤ t := fun x => hc ⟨True.intro, x⟩
              simp only [hc', and_false, if_false, Outcome.ok.injEq] at h
              rw [← h]
      | done =>
        simp only [playStep, playDone] at h
        cases busy with
        | none =>
          simp only [Outcome.ok.injEq] at h
          rw [← h]
        | some b =>
          obtain ⟨c, t, pred⟩ := b
          dsimp only at h
          rw [Outcome.bind_eq_ok] at h
          obtain ⟨r, hr, h⟩ := h
          have hg : r.1.got = true := fe_got cfg pred c t _ r hr
          obtain ⟨r1, r2⟩ := r
          cases r2 with
          | late raw =>
            simp only [Outcome.pure_eq, Outcome.ok.injEq] at h
            rw [← h]
            exact hg
          | placed raw reference pose cloud inserted =>
            dsimp only at h
            rw [Outcome.bind_eq_ok] at h
            obtain ⟨x, -, h⟩ := h
            simp only [Outcome.pure_eq, Outcome.ok.injEq] at h
            rw [← h]
            exact hg
    refine ⟨?_, fun s' h h2 => by rw [keep s' h] at h2; cases h2⟩
    cases hx : playStep cfg e (⟨⟨waiting, last, true, target, poseTarget, acc, frames⟩, ex, busy⟩ : PlayState G C X) ev with
    | abort => rfl
    | ub => rfl
    | ok s' => simp only [okMap, hn _ (keep s' hx)]
  | false =>
    have hd : last = d := hs rfl
    subst hd
    rw [show noLast (⟨⟨waiting, last, false, target, poseTarget, acc, frames⟩, ex, busy⟩ : PlayState G C X) =
      ⟨⟨waiting, 0, false, target, poseTarget, acc, frames⟩, ex, busy⟩ from rfl]
    cases ev with
    | cloud c t =>
      have ht : ¬ t < last := by
        simp only [NotBefore] at hev
        omega
      simp only [playStep, feArrive, Nat.not_lt_zero, if_false, if_neg ht, okMap]
      refine ⟨rfl, fun s' h _ => ?_⟩
      simp only [Outcome.ok.injEq] at h
      rw [← h]
    | imu i =>
      simp only [playStep]
      refine ⟨?_, fun s' h _ => ?_⟩
      · rw [okMap_bind]
        rfl
      · rw [Outcome.bind_eq_ok] at h
        obtain ⟨x, -, h⟩ := h
        simp only [Outcome.pure_eq, Outcome.ok.injEq] at h
        rw [← h]
    | take =>
      simp only [playStep, playTake]
      cases busy with
      | some b =>
        refine ⟨rfl, fun s' h _ => ?_⟩
        simp only [Outcome.ok.injEq] at h
        rw [← h]
      | none =>
        cases waiting with
        | nil =>
          refine ⟨rfl, fun s' h _ => ?_⟩
          simp only [Outcome.ok.injEq] at h
          rw [← h]
        | cons w rest =>
          obtain ⟨c, t⟩ := w
          simp only [Bool.false_eq_true, false_and, if_false]
          refine ⟨rfl, fun s' h _ => ?_⟩
          simp only [Outcome.ok.injEq] at h
          rw [← h]
    | done =>
      simp only [playStep, playDone]
      cases busy with
      | none =>
        refine ⟨rfl, fun s' h _ => ?_⟩
        simp only [Outcome.ok.injEq] at h
        rw [← h]
      | some b =>
        obtain ⟨c, t, pred⟩ := b
        simp only [feProcess, if_true]
        cases feTarget cfg c with
        | abort => exact ⟨rfl, fun s' h => by cases h⟩
        | ub => exact ⟨rfl, fun s' h => by cases h⟩
        | ok tg =>
          simp only [Outcome.bind_ok, Outcome.pure_eq]
          refine ⟨?_, fun s' h h2 => ?_⟩
          · rw [okMap_bind]
            rfl
          · rw [Outcome.bind_eq_ok] at h
            obtain ⟨x, -, h⟩ := h
            simp only [Outcome.ok.injEq] at h
            rw [← h] at h2
            cases h2

theorem playRun_noLast (cfg : FeCfg G C) (e : Extr X G I) (d : Nat) : ∀ (es : List (PlayEvent C I)) (s : PlayState G C X),
    (s.fe.got = false → s.fe.last = d) → (∀ ev ∈ es, NotBefore d ev) →
    playRun cfg e es (noLast s) = okMap noLast (playRun cfg e es s)
  | [], s, _, _ => rfl
  | ev :: es, s, hs, he => by
    obtain ⟨h1, h2⟩ := playStep_noLast cfg e d s hs ev (he ev (by simp))
    rw [playRun, playRun, h1, bind_okMap, okMap_bind]
    cases hx : playStep cfg e s ev with
    | abort => rfl
    | ub => rfl
    | ok s' =>
      simp only [Outcome.bind_ok]
      exact playRun_noLast cfg e d es s' (h2 s' hx) fun ev' h => he ev' (by simp [h])

/-- C138, the map without inertial messages: the run begins without any date. -/
theorem C138_map_start {P E : Type} (r : RunCfg G P C E) (d : Nat) {lx : X → X} {li : I → I} {ok : X → Prop} {e : Extr X G I}
    (he : SeesNoDate d ok lx li e) (x0 : X) (h0 : ok x0) (n : Nat) (es : List (PlayEvent C I)) (sched : List WeaveStep) (obs : List (Submap G P) → List (IsamFrame G E))
    (est : List (Submap G P) → Nat → G) (coord : List (Submap G P) → G) :
    playMap r e (lx x0) n 0 (es.map (laterPlay d li)) sched obs est coord = playMap r e x0 n 0 es sched obs est coord := by
  have hl : ∀ ev ∈ es.map (laterPlay d li), NotBefore d ev := by
    intro ev hev
    obtain ⟨a, -, rfl⟩ := List.mem_map.1 hev
    cases a with
    | cloud c t => exact Nat.le_add_left d t
    | imu i => exact True.intro
    | take => exact True.intro
    | done => exact True.intro
  have h := playRun_noLast r.fe e d (es.map (laterPlay d li)) ⟨feInit d, lx x0, none⟩ (fun _ => rfl) hl
  rw [show noLast (⟨feInit d, lx x0, none⟩ : PlayState G C X) = ⟨feInit 0, lx x0, none⟩ from rfl] at h
  rw [← C138_map r d he x0 h0 n 0 es sched obs est coord]
  unfold playMap
  rw [h, bind_okMap, Nat.zero_add]
  congr 1
  funext s
  have : (noLast s).fe.frames = s.fe.frames := by
    unfold noLast
    split <;> rfl
  rw [this]

end

/-! ### the extrapolator without inertial messages, and with both -/
section
variable {R W : Type}

theorem trimPoses_later (d t dur : Nat) : ∀ l : List (TPose R), (∀ p ∈ l, 0 < p.time) →
    trimPoses (t + d - dur) (l.map (laterPose d)) = (trimPoses (t - dur) l).map (laterPose d)
  | [], _ => rfl
  | [_], _ => rfl
  | [_, _], _ => rfl
  | a :: b :: c :: r, h => by
    have ih := trimPoses_later d t dur (b :: c :: r) fun p hp => h p (by simp [hp])
    have hb := h b (by simp)
    simp only [List.map_cons] at ih ⊢
    rw [trimPoses, trimPoses]
    by_cases hc : b.time ≤ t - dur
    · rw [if_pos hc, if_pos (by simp only [laterPose]; omega), ih]
    · rw [if_neg hc, if_neg (by simp only [laterPose]; omega)]
      rfl

theorem trimPoses_mem (n : Nat) : ∀ l : List (TPose R), ∀ p ∈ trimPoses n l, p ∈ l
  | [], _, h => h
  | [_], _, h => h
  | [_, _], _, h => h
  | a :: b :: c :: r, p, h => by
    rw [trimPoses] at h
    by_cases hc : b.time ≤ n
    · rw [if_pos hc] at h
      exact List.mem_cons_of_mem _ (trimPoses_mem n (b :: c :: r) p h)
    · rwa [if_neg hc] at h

theorem trimPoses_ne (n : Nat) : ∀ l : List (TPose R), l ≠ [] → trimPoses n l ≠ []
  | [], h => h
  | [_], h => h
  | [_, _], h => h
  | a :: b :: c :: r, h => by
    rw [trimPoses]
    by_cases hc : b.time ≤ n
    · rw [if_pos hc]
      exact trimPoses_ne n (b :: c :: r) (by simp)
    · rw [if_neg hc]
      simp

theorem updateVel_later {ops ops' : RotOps R W} {d : Nat} (ho : LaterOps d ops ops') (s : Extrap R W) :
    updateVel ops' (laterExtrap d s) = laterExtrap d (updateVel ops s) := by
  unfold updateVel
  have e1 : (laterExtrap d s).queue = s.queue.map (laterPose d) := rfl
  rw [e1, List.head?_map, List.getLast?_map, List.length_map]
  cases s.queue.head? with
  | none => rfl
  | some old =>
    cases s.queue.getLast? with
    | none => rfl
    | some new =>
      simp only [Option.map_some]
      by_cases h1 : s.queue.length < 2
      · rw [if_pos h1, if_pos h1]
      · rw [if_neg h1, if_neg h1]
        have e2 : (laterPose d new).time - (laterPose d old).time = new.time - old.time := by
          simp only [laterPose]
          omega
        rw [e2]
        by_cases h2 : new.time - old.time < s.dur
        · rw [if_pos h2, if_pos (by exact h2)]
        · rw [if_neg h2, if_neg (by exact h2), ho.angVel]
          rfl

theorem updateVel_queue_date (ops : RotOps R W) (s : Extrap R W) : (updateVel ops s).queue = s.queue := by
  unfold updateVel
  split
  · split
    · rfl
    · split <;> rfl
  · rfl

theorem updateVel_rest (ops : RotOps R W) (s : Extrap R W) : (updateVel ops s).imuMode = s.imuMode ∧ (updateVel ops s).imu = s.imu ∧
    (updateVel ops s).tracker = s.tracker := by
  unfold updateVel
  split
  · split
    · exact ⟨rfl, rfl, rfl⟩
    · split <;> exact ⟨rfl, rfl, rfl⟩
  · exact ⟨rfl, rfl, rfl⟩

theorem trimImu_later (d last : Nat) : ∀ l : List Nat, trimImu (last + d) (l.map (· + d)) = (trimImu last l).map (· + d)
  | [] => rfl
  | [_] => rfl
  | a :: b :: r => by
    have ih := trimImu_later d last (b :: r)
    simp only [List.map_cons] at ih ⊢
    rw [trimImu, trimImu]
    by_cases h : b ≤ last
    · rw [if_pos h, if_pos (by omega), ih]
    · rw [if_neg h, if_neg (by omega)]
      rfl

theorem advanceMsgs_later (d time : Nat) : ∀ (l : List Nat) (tt : Nat),
    advanceMsgs (time + d) (tt + d) (l.map (· + d)) = okMap (· + d) (advanceMsgs time tt l)
  | [], tt => rfl
  | m :: r, tt => by
    rw [List.map_cons, advanceMsgs, advanceMsgs]
    by_cases h : m < time
    · rw [if_pos h, if_pos (by omega), okMap_bind, check_same (p := tt + d ≤ m + d) (q := tt ≤ m) (by omega)]
      congr 1
      funext _
      exact advanceMsgs_later d time r m
    · rw [if_neg h, if_neg (by omega)]
      rfl

theorem advanceTracker_later (d time : Nat) (l : List Nat) (tt : Nat) :
    advanceTracker (time + d) (l.map (· + d)) (tt + d) = okMap (· + d) (advanceTracker time l tt) := by
  unfold advanceTracker
  rw [okMap_bind, check_same (p := tt + d ≤ time + d) (q := tt ≤ time) (by omega)]
  congr 1
  funext _
  cases l with
  | nil => rfl
  | cons f r =>
    rw [List.map_cons]
    dsimp only
    by_cases h : time < f
    · rw [if_pos h, if_pos (by omega)]
      rfl
    · rw [if_neg h, if_neg (by omega)]
      obtain ⟨t1, ht1⟩ : ∃ t1, t1 = if tt < f then f else tt := ⟨_, rfl⟩
      have e1 : (if tt + d < f + d then f + d else tt + d) = t1 + d := by
        rw [ht1]
        by_cases hh : tt < f
        · rw [if_pos hh, if_pos (by omega)]
        · rw [if_neg hh, if_neg (by omega)]
      rw [e1, ← ht1]
      have e2 : ((f + d) :: r.map (· + d)).dropWhile (fun m => decide (m < t1 + d)) =
          ((f :: r).dropWhile (fun m => decide (m < t1))).map (fun x => x + d) := by
        rw [show ((f + d) :: r.map (fun x => x + d)) = (f :: r).map (fun x => x + d) from rfl, List.dropWhile_map]
        congr 1
        congr 1
        funext m
        simp
      rw [e2, advanceMsgs_later, bind_okMap, okMap_bind]
      congr 1
      funext t2
      rw [okMap_bind, check_same (p := t2 + d ≤ time + d) (q := t2 ≤ time) (by omega)]
      rfl

theorem trackerStart_later (d time : Nat) (l : List Nat) (k : Option Nat) :
    trackerStart (time + d) (l.map (· + d)) (k.map (· + d)) = trackerStart time l k + d := by
  cases k with
  | some tt => rfl
  | none =>
    cases l with
    | nil => rfl
    | cons f r => simp only [trackerStart, Option.map_none, List.map_cons]; omega

theorem laterEx_queue (d : Nat) (s : Extrap R W) : (laterEx d s).queue = s.queue.map (laterPose d) := by
  unfold laterEx
  split <;> rfl

theorem addPose_later {ops ops' : RotOps R W} {d : Nat} (ho : LaterOps d ops ops') (s : Extrap R W) (hs : ∀ p ∈ s.queue, 0 < p.time)
    (p : TPose R) (hp : 0 < p.time) : addPose ops' (laterPose d p) (laterEx d s) = okMap (laterEx d) (addPose ops p s) := by
  by_cases h0 : s.queue = []
  · obtain ⟨imuMode, dur, queue, cache, linVel, angVel, tracker, extTracker, imu⟩ := s
    simp only at h0
    subst h0
    unfold addPose
    simp [laterEx, laterExtrap, okMap]
  · have e1 : laterEx d s = laterExtrap d s := if_neg h0
    have hlen : ¬ (s.queue ++ [p]).length = 1 := by
      have := List.length_pos_iff.2 h0
      simp only [List.length_append, List.length_cons, List.length_nil]
      omega
    have hlen' : ¬ ((laterExtrap d s).queue ++ [laterPose d p]).length = 1 := by
      simpa [laterExtrap] using hlen
    rw [e1]
    unfold addPose
    dsimp only
    rw [if_neg hlen, if_neg hlen']
    have e2 : trimPoses ((laterPose d p).time - (laterExtrap d s).dur) ((laterExtrap d s).queue ++ [laterPose d p]) =
        (trimPoses (p.time - s.dur) (s.queue ++ [p])).map (laterPose d) := by
      rw [← trimPoses_later d p.time s.dur (s.queue ++ [p])]
      · simp only [List.map_append, List.map_cons, List.map_nil]
        rfl
      · intro q hq
        rcases List.mem_append.1 hq with h | h
        · exact hs q h
        · rw [List.mem_singleton.1 h]
          exact hp
    obtain ⟨s1, hs1⟩ : ∃ s1 : Extrap R W, s1 = { s with queue := trimPoses (p.time - s.dur) (s.queue ++ [p]) } := ⟨_, rfl⟩
    have e3 : ({ laterExtrap d s with
        queue := trimPoses ((laterPose d p).time - (laterExtrap d s).dur) ((laterExtrap d s).queue ++ [laterPose d p]) } : Extrap R W) =
        laterExtrap d s1 := by
      rw [e2, hs1]
      rfl
    have hq1 : s1.queue ≠ [] := by
      rw [hs1]
      exact trimPoses_ne _ _ (by simp)
    rw [e3, updateVel_later ho, ← hs1]
    obtain ⟨s2, hs2⟩ : ∃ s2, s2 = updateVel ops s1 := ⟨_, rfl⟩
    have hq2 : s2.queue ≠ [] := by
      rw [hs2, updateVel_queue_date]
      exact hq1
    rw [← hs2]
    by_cases hm : s2.imuMode = false
    · rw [if_pos hm, if_pos (by exact hm)]
      simp only [okMap, Outcome.pure_eq]
      rw [show laterEx d s2 = laterExtrap d s2 from if_neg hq2]
    · rw [if_neg hm, if_neg (by exact hm), okMap_bind]
      have e4 := advanceTracker_later d p.time s2.imu (trackerStart p.time s2.imu s2.tracker)
      rw [← trackerStart_later] at e4
      rw [show (laterPose d p).time = p.time + d from rfl, show (laterExtrap d s2).imu = s2.imu.map (· + d) from rfl,
        show (laterExtrap d s2).tracker = s2.tracker.map (· + d) from rfl, e4, bind_okMap]
      congr 1
      funext tt
      simp only [okMap, Outcome.pure_eq]
      rw [trimImu_later]
      congr 1
      rw [show laterEx d { s2 with tracker := some tt, extTracker := some tt, imu := trimImu p.time s2.imu } =
        laterExtrap d { s2 with tracker := some tt, extTracker := some tt, imu := trimImu p.time s2.imu } from if_neg hq2]
      rfl

theorem addPose_pos (ops : RotOps R W) (s : Extrap R W) (hs : ∀ p ∈ s.queue, 0 < p.time) (p : TPose R) (hp : 0 < p.time) (s' : Extrap R W)
    (h : addPose ops p s = .ok s') : ∀ q ∈ s'.queue, 0 < q.time := by
  have hall : ∀ q ∈ s.queue ++ [p], 0 < q.time := by
    intro q hq
    rcases List.mem_append.1 hq with h | h
    · exact hs q h
    · rw [List.mem_singleton.1 h]
      exact hp
  unfold addPose at h
  dsimp only at h
  by_cases hl : (s.queue ++ [p]).length = 1
  · rw [if_pos hl] at h
    simp only [Outcome.pure_eq, Outcome.ok.injEq] at h
    rw [← h]
    exact hall
  · rw [if_neg hl] at h
    have hq : ∀ q ∈ (updateVel ops { s with queue := trimPoses (p.time - s.dur) (s.queue ++ [p]) }).queue, 0 < q.time := by
      intro q hq
      rw [updateVel_queue_date] at hq
      exact hall q (trimPoses_mem _ _ _ hq)
    revert h hq
    generalize updateVel ops { s with queue := trimPoses (p.time - s.dur) (s.queue ++ [p]) } = s2
    intro h hq
    by_cases hm : s2.imuMode = false
    · rw [if_pos hm] at h
      simp only [Outcome.pure_eq, Outcome.ok.injEq] at h
      rw [← h]
      exact hq
    · rw [if_neg hm] at h
      rw [Outcome.bind_eq_ok] at h
      obtain ⟨tt, -, h2⟩ := h
      simp only [Outcome.pure_eq, Outcome.ok.injEq] at h2
      rw [← h2]
      exact hq

theorem addImu_later (d t : Nat) (s : Extrap R W) : addImu (t + d) (laterEx d s) = okMap (laterEx d) (addImu t s) := by
  obtain ⟨imuMode, dur, queue, cache, linVel, angVel, tracker, extTracker, imu⟩ := s
  unfold addImu
  by_cases hm : imuMode = false
  · subst hm
    by_cases h0 : queue = [] <;> simp [laterEx, laterExtrap, okMap, h0]
  · have hm' : imuMode = true := by simpa using hm
    subst hm'
    by_cases h0 : queue = []
    · subst h0
      simp [laterEx, laterExtrap, okMap]
    · obtain ⟨n, hn⟩ := Option.isSome_iff_exists.1 (List.getLast?_isSome.2 h0)
      simp only [laterEx, if_neg h0, laterExtrap, List.getLast?_map, hn, Option.map_some, Bool.true_eq_false, if_false]
      rw [okMap_bind, check_same (p := (laterPose d n).time ≤ t + d) (q := n.time ≤ t) (by simp [laterPose])]
      congr 1
      funext _
      have := trimImu_later d n.time (imu ++ [t])
      rw [List.map_append] at this
      simp only [Outcome.pure_eq, okMap]
      rw [show laterEx d (⟨true, dur, queue, cache, linVel, angVel, tracker, extTracker, trimImu n.time (imu ++ [t])⟩ : Extrap R W) =
        laterExtrap d ⟨true, dur, queue, cache, linVel, angVel, tracker, extTracker, trimImu n.time (imu ++ [t])⟩ from if_neg h0]
      unfold laterExtrap
      rw [← this]
      rfl

theorem addImu_queue (t : Nat) (s s' : Extrap R W) (h : addImu t s = .ok s') : s'.queue = s.queue := by
  unfold addImu at h
  split at h
  · simp only [Outcome.pure_eq, Outcome.ok.injEq] at h
    rw [← h]
  · split at h
    · simp only [Outcome.pure_eq, Outcome.ok.injEq] at h
      rw [← h]
    · rw [Outcome.bind_eq_ok] at h
      obtain ⟨_, -, h2⟩ := h
      simp only [Outcome.pure_eq, Outcome.ok.injEq] at h2
      rw [← h2]

theorem extrapolate_later {ops ops' : RotOps R W} {d : Nat} (ho : LaterOps d ops ops') (t : Nat) (s : Extrap R W) :
    extrapolate ops' (t + d) (laterEx d s) = okMap (fun r => (laterPose d r.1, laterEx d r.2)) (extrapolate ops t s) := by
  obtain ⟨imuMode, dur, queue, cache, linVel, angVel, tracker, extTracker, imu⟩ := s
  unfold extrapolate
  by_cases h0 : queue = []
  · subst h0
    simp [laterEx, laterExtrap, okMap]
  · obtain ⟨n, hn⟩ := Option.isSome_iff_exists.1 (List.getLast?_isSome.2 h0)
    simp only [laterEx, if_neg h0, laterExtrap, List.getLast?_map, hn, Option.map_some]
    rw [okMap_bind, check_same (p := (laterPose d n).time ≤ t + d) (q := n.time ≤ t) (by simp [laterPose])]
    congr 1
    funext _
    have hc : nsEq (laterPose d cache).time (t + d) = nsEq cache.time t := by
      unfold nsEq
      simp only [laterPose]
      congr 1
      rw [eq_iff_iff]
      constructor <;> intro h <;> omega
    have hd : t + d - (laterPose d n).time = t - n.time := by
      simp only [laterPose]
      omega
    rw [hc, hd]
    by_cases hcc : nsEq cache.time t = true
    · rw [if_pos hcc, if_pos hcc]
      simp [okMap, h0]
    · rw [if_neg hcc, if_neg hcc]
      by_cases hm : imuMode = false
      · rw [if_pos hm, if_pos hm, ho.turn]
        simp [okMap, h0, laterPose]
      · rw [if_neg hm, if_neg hm]
        cases extTracker with
        | none => rfl
        | some et =>
          cases tracker with
          | none => rfl
          | some tt =>
            simp only [Option.map_some]
            rw [advanceTracker_later, bind_okMap, okMap_bind]
            congr 1
            funext et'
            simp [okMap, h0, laterPose, ho.imuTurn]

theorem extrapolate_queue (ops : RotOps R W) (t : Nat) (s : Extrap R W) (r : TPose R × Extrap R W) (h : extrapolate ops t s = .ok r) :
    r.2.queue = s.queue := by
  unfold extrapolate at h
  split at h
  · cases h
  · rw [Outcome.check_bind_eq_ok] at h
    obtain ⟨-, h⟩ := h
    split at h
    · simp only [Outcome.pure_eq, Outcome.ok.injEq] at h
      rw [← h]
    · split at h
      · simp only [Outcome.pure_eq, Outcome.ok.injEq] at h
        rw [← h]
      · split at h
        · rw [Outcome.bind_eq_ok] at h
          obtain ⟨_, -, h2⟩ := h
          simp only [Outcome.pure_eq, Outcome.ok.injEq] at h2
          rw [← h2]
        · cases h

/-- C138, one prediction: the extrapolator in its state at a later date predicts the same pose for the later time. -/
theorem C138_predict {ops ops' : RotOps R W} {d : Nat} (ho : LaterOps d ops ops') (t : Nat) (s : Extrap R W) :
    extrapolate ops' (t + d) (laterEx d s) = okMap (fun r => (laterPose d r.1, laterEx d r.2)) (extrapolate ops t s) :=
  extrapolate_later ho t s

/-- C138, the extrapolator: every history of calls, all later by `d`, ends in the same state at the later date, for stamps
after zero (`C138_zero_fails`). -/
theorem C138_calls_partial {ops ops' : RotOps R W} {d : Nat} (ho : LaterOps d ops ops') : ∀ (l : List (ExOp R)) (s : Extrap R W),
    (∀ p ∈ s.queue, 0 < p.time) → (∀ o ∈ l, OpAfterZero o) →
    exRun ops' (laterEx d s) (l.map (laterOp d)) = okMap (laterEx d) (exRun ops s l)
  | [], s, _, _ => rfl
  | o :: l, s, hs, hl => by
    have ho' := hl o (by simp)
    have step : exStep ops' (laterEx d s) (laterOp d o) = okMap (laterEx d) (exStep ops s o) ∧
        ∀ s', exStep ops s o = .ok s' → ∀ p ∈ s'.queue, 0 < p.time := by
      cases o with
      | add p => exact ⟨addPose_later ho s hs p ho', fun s' h => addPose_pos ops s hs p ho' s' h⟩
      | query t =>
        refine ⟨?_, fun s' h => ?_⟩
        · simp only [exStep, laterOp]
          rw [extrapolate_later ho, bind_okMap, okMap_bind]
          rfl
        · simp only [exStep] at h
          rw [Outcome.bind_eq_ok] at h
          obtain ⟨r, h1, h2⟩ := h
          simp only [Outcome.pure_eq, Outcome.ok.injEq] at h2
          rw [← h2, extrapolate_queue ops t s r h1]
          exact hs
      | imu t =>
        refine ⟨addImu_later d t s, fun s' h => ?_⟩
        rw [addImu_queue t s s' h]
        exact hs
      | rough v =>
        refine ⟨?_, fun s' h => ?_⟩
        · simp only [exStep, laterOp, okMap, Outcome.pure_eq, initRoughVel, laterEx]
          by_cases h0 : s.queue = [] <;> simp [h0, laterExtrap]
        · simp only [exStep, Outcome.pure_eq, Outcome.ok.injEq, initRoughVel] at h
          rw [← h]
          exact hs
    rw [List.map_cons, exRun, exRun, step.1, bind_okMap, okMap_bind]
    cases hx : exStep ops s o with
    | abort => rfl
    | ub => rfl
    | ok s' =>
      simp only [Outcome.bind_ok]
      exact C138_calls_partial ho l s' (step.2 s' hx) fun o' ho' => hl o' (by simp [ho'])

/-- Stamps in the state of the driver are after zero. -/
def DriverAfterZero (s : Driver R W) : Prop := (∀ t ∈ s.waiting, 0 < t) ∧ ∀ e, s.ex = some e → ∀ p ∈ e.queue, 0 < p.time

theorem exImu_later {ops ops' : RotOps R W} {d : Nat} (ho : LaterOps d ops ops') (dur : Nat) (r0 r1 : R) (w0 : W) (t : Nat) (ht : 0 < t) :
    exImu ops' dur r0 r1 w0 (t + d) = okMap (laterEx d) (exImu ops dur r0 r1 w0 t) ∧
    ∀ s, exImu ops dur r0 r1 w0 t = .ok s → ∀ p ∈ s.queue, 0 < p.time := by
  simp [exImu, exCtrv, addImu, addPose, okMap, laterEx, laterExtrap, laterPose, ht]

theorem lastPose_later (d t : Nat) (s : Extrap R W) : t + d < lastPoseTime (laterEx d s) ↔ t < lastPoseTime s := by
  unfold lastPoseTime
  rw [laterEx_queue, List.getLast?_map]
  cases s.queue.getLast? with
  | none => simp
  | some p => simp [laterPose]

theorem drvStep_later {ops ops' : RotOps R W} {d : Nat} (ho : LaterOps d ops ops') (r0 : R) (w0 : W) (s : Driver R W) (hs : DriverAfterZero s)
    (e : DrvEvent R) (he : EventAfterZero e) :
    drvStep ops' r0 w0 (laterDriver d s) (laterEvent d e) = okMap (laterDriver d) (drvStep ops r0 w0 s e) ∧
    ∀ s', drvStep ops r0 w0 s e = .ok s' → DriverAfterZero s' := by
  obtain ⟨useImu, dur, ex, waiting, first⟩ := s
  obtain ⟨hw, hq⟩ := hs
  cases e with
  | arrive t =>
    have hpos : ∀ x ∈ waiting ++ [t], 0 < x := by
      intro x hx
      rcases List.mem_append.1 hx with h | h
      · exact hw x h
      · rw [List.mem_singleton.1 h]
        exact he
    cases ex with
    | none =>
      cases useImu
      · refine ⟨by simp [drvStep, laterDriver, laterEvent, okMap], fun s' h => ?_⟩
        simp only [drvStep, Bool.false_eq_true, if_false, Outcome.ok.injEq] at h
        rw [← h]
        exact ⟨hpos, hq⟩
      · refine ⟨by simp [drvStep, laterDriver, laterEvent, okMap], fun s' h => ?_⟩
        simp only [drvStep, if_true, Outcome.ok.injEq] at h
        rw [← h]
        exact ⟨hw, hq⟩
    | some x =>
      by_cases hl : t < lastPoseTime x
      · refine ⟨?_, fun s' h => ?_⟩
        · simp only [drvStep, laterDriver, laterEvent, Option.map_some]
          rw [if_pos hl, if_pos ((lastPose_later d t x).2 hl)]
          rfl
        · simp only [drvStep, if_pos hl, Outcome.ok.injEq] at h
          rw [← h]
          exact ⟨hw, hq⟩
      · refine ⟨?_, fun s' h => ?_⟩
        · simp only [drvStep, laterDriver, laterEvent, Option.map_some]
          rw [if_neg hl, if_neg fun h => hl ((lastPose_later d t x).1 h)]
          simp [okMap, laterDriver]
        · simp only [drvStep, if_neg hl, Outcome.ok.injEq] at h
          rw [← h]
          exact ⟨hpos, hq⟩
  | imu t r1 =>
    cases useImu
    · refine ⟨by simp [drvStep, laterDriver, laterEvent, okMap], fun s' h => ?_⟩
      simp only [drvStep, if_true, Outcome.ok.injEq] at h
      rw [← h]
      exact ⟨hw, hq⟩
    · cases ex with
      | none =>
        obtain ⟨h1, h2⟩ := exImu_later ho dur r0 r1 w0 t he
        refine ⟨?_, fun s' h => ?_⟩
        · simp only [drvStep, laterDriver, laterEvent, Option.map_none, Bool.true_eq_false, if_false]
          rw [h1, bind_okMap, okMap_bind]
          rfl
        · simp only [drvStep, Bool.true_eq_false, if_false] at h
          rw [Outcome.bind_eq_ok] at h
          obtain ⟨x, hx, h⟩ := h
          simp only [Outcome.pure_eq, Outcome.ok.injEq] at h
          rw [← h]
          exact ⟨hw, fun y hy => by
            simp only [Option.some.injEq] at hy
            rw [← hy]
            exact h2 x hx⟩
      | some x =>
        refine ⟨?_, fun s' h => ?_⟩
        · simp only [drvStep, laterDriver, laterEvent, Option.map_some, Bool.true_eq_false, if_false]
          rw [addImu_later, bind_okMap, okMap_bind]
          rfl
        · simp only [drvStep, Bool.true_eq_false, if_false] at h
          rw [Outcome.bind_eq_ok] at h
          obtain ⟨y, hy, h⟩ := h
          simp only [Outcome.pure_eq, Outcome.ok.injEq] at h
          rw [← h]
          exact ⟨hw, fun z hz => by
            simp only [Option.some.injEq] at hz
            rw [← hz, addImu_queue t x y hy]
            exact hq x rfl⟩
  | process pos rot =>
    cases waiting with
    | nil =>
      refine ⟨by simp [drvStep, laterDriver, laterEvent, okMap], fun s' h => ?_⟩
      simp only [drvStep, Outcome.ok.injEq] at h
      rw [← h]
      exact ⟨hw, hq⟩
    | cons t rest =>
      have hrest : ∀ x ∈ rest, 0 < x := fun x hx => hw x (by simp [hx])
      have htp : 0 < t := hw t (by simp)
      cases ex with
      | none =>
        refine ⟨by simp [drvStep, laterDriver, laterEvent, okMap], fun s' h => ?_⟩
        simp only [drvStep, Outcome.ok.injEq] at h
        rw [← h]
        exact ⟨hrest, hq⟩
      | some x =>
        have hx := hq x rfl
        cases first
        · refine ⟨?_, fun s' h => ?_⟩
          · simp only [drvStep, laterDriver, laterEvent, Option.map_some, List.map_cons, if_true]
            have := addPose_later ho x hx ⟨t, ⟨0, 0, 0⟩, r0⟩ htp
            rw [show (⟨t + d, ⟨0, 0, 0⟩, r0⟩ : TPose R) = laterPose d ⟨t, ⟨0, 0, 0⟩, r0⟩ from rfl, this, bind_okMap, okMap_bind]
            rfl
          · simp only [drvStep, if_true] at h
            rw [Outcome.bind_eq_ok] at h
            obtain ⟨y, hy, h⟩ := h
            simp only [Outcome.pure_eq, Outcome.ok.injEq] at h
            rw [← h]
            exact ⟨hrest, fun z hz => by
              simp only [Option.some.injEq] at hz
              rw [← hz]
              exact addPose_pos ops x hx _ htp y hy⟩
        · by_cases hl : t < lastPoseTime x
          · refine ⟨?_, fun s' h => ?_⟩
            · simp only [drvStep, laterDriver, laterEvent, Option.map_some, List.map_cons, Bool.true_eq_false, if_false]
              rw [if_pos hl, if_pos ((lastPose_later d t x).2 hl)]
              rfl
            · simp only [drvStep, Bool.true_eq_false, if_false, if_pos hl, Outcome.ok.injEq] at h
              rw [← h]
              exact ⟨hrest, hq⟩
          · refine ⟨?_, fun s' h => ?_⟩
            · simp only [drvStep, laterDriver, laterEvent, Option.map_some, List.map_cons, Bool.true_eq_false, if_false]
              rw [if_neg hl, if_neg fun h => hl ((lastPose_later d t x).1 h), extrapolate_later ho, bind_okMap, okMap_bind]
              cases hr : extrapolate ops t x with
              | abort => rfl
              | ub => rfl
              | ok r =>
                simp only [Outcome.bind_ok]
                have hrq : ∀ p ∈ r.2.queue, 0 < p.time := by
                  rw [extrapolate_queue ops t x r hr]
                  exact hx
                have := addPose_later ho r.2 hrq ⟨t, pos, rot⟩ htp
                rw [show (⟨t + d, pos, rot⟩ : TPose R) = laterPose d ⟨t, pos, rot⟩ from rfl, this, bind_okMap, okMap_bind]
                rfl
            · simp only [drvStep, Bool.true_eq_false, if_false, if_neg hl] at h
              rw [Outcome.bind_eq_ok] at h
              obtain ⟨r, hr, h⟩ := h
              rw [Outcome.bind_eq_ok] at h
              obtain ⟨y, hy, h⟩ := h
              simp only [Outcome.pure_eq, Outcome.ok.injEq] at h
              have hrq : ∀ p ∈ r.2.queue, 0 < p.time := by
                rw [extrapolate_queue ops t x r hr]
                exact hx
              rw [← h]
              exact ⟨hrest, fun z hz => by
                simp only [Option.some.injEq] at hz
                rw [← hz]
                exact addPose_pos ops r.2 hrq _ htp y hy⟩

/-- C138, the mapping loop as the extrapolator sees it: every history of clouds, inertial messages and matches, all later by
`d`, ends in the same state at the later date, or fails in the same way. -/
theorem C138_driver_partial {ops ops' : RotOps R W} {d : Nat} (ho : LaterOps d ops ops') (r0 : R) (w0 : W) :
    ∀ (es : List (DrvEvent R)) (s : Driver R W), DriverAfterZero s → (∀ e ∈ es, EventAfterZero e) →
    drvRun ops' r0 w0 (laterDriver d s) (es.map (laterEvent d)) = okMap (laterDriver d) (drvRun ops r0 w0 s es)
  | [], s, _, _ => rfl
  | e :: es, s, hs, he => by
    obtain ⟨h1, h2⟩ := drvStep_later ho r0 w0 s hs e (he e (by simp))
    rw [List.map_cons, drvRun, drvRun, h1, bind_okMap, okMap_bind]
    cases hx : drvStep ops r0 w0 s e with
    | abort => rfl
    | ub => rfl
    | ok s' =>
      simp only [Outcome.bind_ok]
      exact C138_driver_partial ho r0 w0 es s' (h2 s' hx) fun e' he' => he e' (by simp [he'])
end

/-! ### the inertial tracker -/

/-- C138, the tracker: orientation and gravity estimate do not depend on the date, for times after zero
(`C138_tracker_fails`). -/
theorem C138_tracker_partial (axis : (Fin 3 → ℝ) → (Fin 3 → ℝ) → Fin 3 → ℝ) (tau d : ℝ) (hd : 0 ≤ d) : ∀ (es : List ImuEvent) (s : ImuState),
    0 < s.time → 0 ≤ s.lastAcc →
    imuRun axis tau (laterImu d s) (es.map (laterImuEvent d)) = okMap (laterImu d) (imuRun axis tau s es)
  | [], s, _, _ => rfl
  | e :: es, s, ht, hl => by
    have hal : imuAlpha tau (laterImu d s) = imuAlpha tau s := by
      unfold imuAlpha laterImu
      dsimp only
      by_cases h0 : s.lastAcc = 0
      · rw [if_pos h0, h0]
        simp
      · have hp : 0 < s.lastAcc := lt_of_le_of_ne hl (Ne.symm h0)
        rw [if_neg h0, if_pos hp, if_pos (by linarith)]
        congr 3
        ring
    have step : imuStep axis tau (laterImu d s) (laterImuEvent d e) = okMap (laterImu d) (imuStep axis tau s e) ∧
        ∀ s', imuStep axis tau s e = .ok s' → 0 < s'.time ∧ 0 ≤ s'.lastAcc := by
      cases e with
      | advance t =>
        refine ⟨?_, fun s' h => ?_⟩
        · simp only [imuStep, laterImuEvent]
          rw [okMap_bind, check_same (p := (laterImu d s).time ≤ t + d) (q := s.time ≤ t) (by simp [laterImu])]
          congr 1
          funext _
          have e1 : t + d - (laterImu d s).time = t - s.time := by
            simp only [laterImu]
            ring
          rw [e1]
          rfl
        · simp only [imuStep] at h
          rw [Outcome.check_bind_eq_ok] at h
          obtain ⟨h1, h2⟩ := h
          simp only [Outcome.pure_eq, Outcome.ok.injEq] at h2
          rw [← h2]
          exact ⟨lt_of_lt_of_le ht h1, hl⟩
      | acceleration a =>
        have hg : imuGravity tau (laterImu d s) a = imuGravity tau s a := by
          unfold imuGravity
          rw [hal]
          rfl
        refine ⟨?_, fun s' h => ?_⟩
        · simp only [imuStep, laterImuEvent]
          rw [hg, show (laterImu d s).o = s.o from rfl, okMap_bind]
          congr 1
          funext _
          rw [okMap_bind]
          congr 1
          funext _
          simp only [Outcome.pure_eq, okMap, laterImu]
          rw [if_neg ht.ne']
        · simp only [imuStep] at h
          rw [Outcome.check_bind_eq_ok, Outcome.check_bind_eq_ok] at h
          obtain ⟨-, -, h2⟩ := h
          simp only [Outcome.pure_eq, Outcome.ok.injEq] at h2
          rw [← h2]
          exact ⟨ht, ht.le⟩
      | rotation w =>
        refine ⟨rfl, fun s' h => ?_⟩
        simp only [imuStep, Outcome.pure_eq, Outcome.ok.injEq] at h
        rw [← h]
        exact ⟨ht, hl⟩
    rw [List.map_cons, imuRun, imuRun, step.1, bind_okMap, okMap_bind]
    cases hx : imuStep axis tau s e with
    | abort => rfl
    | ub => rfl
    | ok s' =>
      simp only [Outcome.bind_ok]
      exact C138_tracker_partial axis tau d hd es s' (step.2 s' hx).1 (step.2 s' hx).2

/-- C138, the orientation of a tracker in the extrapolator does not depend on the date. -/
theorem C138_turn {G : Type} (axis : (Fin 3 → ℝ) → (Fin 3 → ℝ) → Fin 3 → ℝ) (tau : ℝ) (w : Fin 3 → ℝ) (f : Outcome Quat → G) (d : Nat)
    (k : QTracker ((Fin 3 → ℝ) × (Fin 3 → ℝ))) (hk : BegunAfterZero k) :
    trackerTurn axis tau w (fun o => f (okMap ImuState.o o)) (k.log.map (laterTrackOp d)) =
      trackerTurn axis tau w (fun o => f (okMap ImuState.o o)) k.log := by
  have hsec : ∀ t, stampSec (t + d) = stampSec t + stampSec d := by
    intro t
    unfold stampSec
    push_cast
    ring
  have hev : ∀ l : List (TrackOp ((Fin 3 → ℝ) × (Fin 3 → ℝ))),
      (l.map (laterTrackOp d)).flatMap (trackEvents w) = (l.flatMap (trackEvents w)).map (laterImuEvent (stampSec d)) := by
    intro l
    induction l with
    | nil => rfl
    | cons a l ih =>
      rw [List.map_cons, List.flatMap_cons, List.flatMap_cons, List.map_append, ih]
      congr 1
      cases a with
      | advance t => simp [laterTrackOp, trackEvents, laterImuEvent, hsec]
      | message m => rfl
      | pretend => rfl
  obtain ⟨m, l, hl, hm⟩ := hk
  rw [hl]
  have hp : 0 < stampSec m.stamp := by
    unfold stampSec
    positivity
  have hd : 0 ≤ stampSec d := by
    unfold stampSec
    positivity
  have e := hev (.message m :: l)
  have run := C138_tracker_partial axis tau (stampSec d) hd ((.message m :: l).flatMap (trackEvents w)) (imuStart (stampSec m.stamp)) hp (le_refl _)
  rw [← e, show laterImu (stampSec d) (imuStart (stampSec m.stamp)) = imuStart (stampSec (m.stamp + d)) from by
    rw [hsec]
    simp [laterImu, imuStart]] at run
  rw [List.map_cons] at run ⊢
  show f (okMap ImuState.o (imuRun axis tau (imuStart (stampSec (m.stamp + d)))
    ((.message (laterItem d m) :: l.map (laterTrackOp d)).flatMap (trackEvents w)))) =
    f (okMap ImuState.o (imuRun axis tau (imuStart (stampSec m.stamp)) ((.message m :: l).flatMap (trackEvents w))))
  rw [show laterTrackOp d (.message m) = .message (laterItem d m) from rfl] at run
  rw [run]
  congr 1
  generalize imuRun axis tau (imuStart (stampSec m.stamp)) ((.message m :: l).flatMap (trackEvents w)) = o
  cases o <;> rfl

/-- C138, the map with inertial messages: a run of the builder with its queue of messages and its trackers, started with a
message after the beginning of time, gives the same map at any later date. -/
theorem C138_map_imu_partial {G P C E : Type} [Group G] (r : RunCfg G P C E) (axis : (Fin 3 → ℝ) → (Fin 3 → ℝ) → Fin 3 → ℝ) (tau : ℝ)
    (w : Fin 3 → ℝ) (f : Outcome Quat → G) (d : Nat) (m : ImuItem ((Fin 3 → ℝ) × (Fin 3 → ℝ))) (hm : 0 < m.stamp) (first : G) (n : Nat)
    (es : List (PlayEvent C (ImuItem ((Fin 3 → ℝ) × (Fin 3 → ℝ))))) (sched : List WeaveStep)
    (obs : List (Submap G P) → List (IsamFrame G E)) (est : List (Submap G P) → Nat → G) (coord : List (Submap G P) → G) :
    playMap r (imuExtr (trackerTurn axis tau w fun o => f (okMap ImuState.o o))) (qStart (laterItem d m), first, first) n (m.stamp + d)
      (es.map (laterPlay d (laterItem d))) sched obs est coord =
    playMap r (imuExtr (trackerTurn axis tau w fun o => f (okMap ImuState.o o))) (qStart m, first, first) n m.stamp es sched obs est coord := by
  have h := C138_map r d (C138_imu d _ fun k hk => C138_turn axis tau w f d k hk) (qStart m, first, first)
    ⟨⟨m, _, rfl, hm⟩, fun k hk => by cases hk⟩ n m.stamp es sched obs est coord
  rw [← h]
  rfl

theorem ez_ne : (![0, 0, 1] : Fin 3 → ℝ) ≠ 0 := fun h => by
  have := congrFun h 2
  simp at this

/-- C138 is false at the beginning of time: there an acceleration is forgotten, and the next one replaces it altogether instead
of being averaged.  Two messages with the stamp zero, of which the second reads nothing, stop the program; at any other date they
do not. -/
theorem C138_tracker_fails (axis : (Fin 3 → ℝ) → (Fin 3 → ℝ) → Fin 3 → ℝ) (hp : PerpAxis axis) (tau d : ℝ) (hd : 0 < d) :
    ∃ es : List ImuEvent, imuRun axis tau (imuStart 0) es = .abort ∧
      ∃ s, imuRun axis tau (laterImu d (imuStart 0)) (es.map (laterImuEvent d)) = .ok s := by
  have hg : ∀ t : ℝ, imuGravity tau (imuStart t) ![0, 0, 1] = ![0, 0, 1] := by
    intro t
    funext i
    simp [imuGravity, imuAlpha, imuStart]
  have hstep : ∀ t : ℝ, ∃ s1 : ImuState, imuStep axis tau (imuStart t) (.acceleration ![0, 0, 1]) = .ok s1 ∧
      s1.time = t ∧ s1.lastAcc = t ∧ s1.g = ![0, 0, 1] ∧ (0 ≤ t → ImuInv s1) := by
    intro t
    obtain ⟨o, h1, h2, h3⟩ := (imu_acceleration axis hp tau (imuStart t) (imu_start t) ![0, 0, 1]).2 (by rw [hg t]; exact ez_ne)
    refine ⟨_, h1, rfl, rfl, hg t, fun _ => ⟨h2, h3, Or.inr (le_refl _)⟩⟩
  refine ⟨[.acceleration ![0, 0, 1], .acceleration 0], ?_, ?_⟩
  · obtain ⟨s1, e1, -, hl, -, hi⟩ := hstep 0
    rw [imuRun, e1, Outcome.bind_ok, imuRun, (imu_acceleration axis hp tau s1 (hi (le_refl _)) 0).1]
    · rfl
    · funext i
      simp [imuGravity, imuAlpha, hl]
  · have e0 : laterImu d (imuStart 0) = imuStart d := by
      simp [laterImu, imuStart]
    obtain ⟨s1, e1, ht, hl, hgv, hi⟩ := hstep d
    obtain ⟨o, h1, -, -⟩ := (imu_acceleration axis hp tau s1 (hi hd.le) 0).2 (by
      have : imuGravity tau s1 0 = ![0, 0, 1] := by
        funext i
        simp [imuGravity, imuAlpha, hl, ht, hgv, hd]
      rw [this]
      exact ez_ne)
    refine ⟨{ s1 with lastAcc := s1.time, g := imuGravity tau s1 0, o := o }, ?_⟩
    rw [e0]
    simp only [List.map_cons, List.map_nil, laterImuEvent]
    rw [imuRun, e1, Outcome.bind_ok, imuRun, h1]
    rfl

/-! ### examples -/

def dateOps : RotOps Nat Nat := ⟨fun a b _ => a + b, fun r w _ => r + w, fun r a b => r + (b - a)⟩

example : LaterOps 1000 dateOps dateOps := ⟨rfl, rfl, fun r a b => by simp only [dateOps]; omega⟩

def dateEvents : List (DrvEvent Nat) :=
  [.imu 5 1, .arrive 7, .imu 8 1, .process ⟨1, 0, 0⟩ 3, .arrive 10, .imu 12 2, .process ⟨2, 0, 0⟩ 4, .arrive 20, .process ⟨3, 0, 0⟩ 5]

example : DriverAfterZero (⟨true, 4, none, [], false⟩ : Driver Nat Nat) ∧ ∀ e ∈ dateEvents, EventAfterZero e := by
  refine ⟨⟨by simp, by simp⟩, ?_⟩
  simp [dateEvents, EventAfterZero]

/-- What is left of the poses, and the velocity. -/
def dateView (o : Outcome (Driver Nat Nat)) : Option (List (Nat × Rat) × Nat) :=
  match o with
  | .ok s => s.ex.map fun e => (e.queue.map (fun p => (p.time, p.pos.x)), e.angVel)
  | _ => none

example : dateView (drvRun dateOps 0 0 ⟨true, 4, none, [], false⟩ dateEvents) = some ([(10, 2), (20, 3)], 9) := by decide +kernel

/-- C138 is false at the beginning of time for the extrapolator too: with two poses at the stamp zero a difference of times
below zero counts as zero, and a pose that is young enough is thrown away. -/
theorem C138_zero_fails : ∃ (l : List (ExOp Nat)) (n m : Nat), n ≠ m ∧
    (match exRun dateOps (exCtrv 5 0 0) l with | .ok s => some s.queue.length | _ => none) = some n ∧
    (match exRun dateOps (laterEx 10 (exCtrv 5 0 0)) (l.map (laterOp 10)) with | .ok s => some s.queue.length | _ => none) = some m :=
  ⟨[.add ⟨0, ⟨0, 0, 0⟩, 0⟩, .add ⟨0, ⟨1, 0, 0⟩, 0⟩, .add ⟨1, ⟨2, 0, 0⟩, 0⟩], 2, 3, by decide, by decide +kernel, by decide +kernel⟩

/-- The messages a tracker has seen do not depend on the date. -/
theorem logTurn_later (d : Nat) : ∀ l, logTurn (l.map (laterTrackOp d)) = logTurn l
  | [] => rfl
  | a :: l => by cases a <;> simp [laterTrackOp, logTurn, laterItem, logTurn_later d l]

example : SeesNoDate 1000 ImuBegun (fun x : ImuQueue Int × Multiplicative Int × Multiplicative Int => (laterQueue 1000 x.1, x.2))
    (laterItem 1000) (imuExtr logTurn) := C138_imu 1000 logTurn fun k _ => logTurn_later 1000 k.log

example : ImuBegun ((qStart ⟨10, 1⟩, 1, 1) : ImuQueue Int × Multiplicative Int × Multiplicative Int) :=
  ⟨⟨⟨10, 1⟩, _, rfl, by decide⟩, fun k hk => by cases hk⟩

example : SeesNoDate 1000 (fun _ => True) id id stillExtr :=
  ⟨fun _ _ _ _ => rfl, fun _ _ _ => rfl, fun _ _ _ => rfl, fun _ _ _ _ _ _ => True.intro, fun _ _ _ _ _ => True.intro,
    fun _ _ _ _ _ => True.intro⟩

example : stillRun (playFast.map (laterPlay 1000 id)) = some ([(0, 0), (2, 2), (5, 5)], 0, false) := by decide
end Verif
