import Verif.Props.Replay
import Verif.Model.Collector
import Verif.Props.Loop
import Verif.Props.Gps
/-! C145: recording more adds to what was found and changes none of it. -/
namespace Verif
open Spec

section
variable {G C X I : Type}

theorem recording_append : ∀ a b : List (PlayEvent C I), recording (a ++ b) = recording a ++ recording b
  | [], _ => rfl
  | .cloud c t :: a, b => congrArg (PlayEvent.cloud c t :: ·) (recording_append a b)
  | .imu i :: a, b => congrArg (PlayEvent.imu i :: ·) (recording_append a b)
  | .take :: a, b => recording_append a b
  | .done :: a, b => recording_append a b

theorem recording_twice : ∀ a : List (PlayEvent C I), recording (recording a) = recording a
  | [] => rfl
  | .cloud c t :: a => congrArg (PlayEvent.cloud c t :: ·) (recording_twice a)
  | .imu i :: a => congrArg (PlayEvent.imu i :: ·) (recording_twice a)
  | .take :: a => recording_twice a
  | .done :: a => recording_twice a

/-- The scan-matching thread works off `n` clouds. -/
def workOff : Nat → List (PlayEvent C I)
  | 0 => []
  | n + 1 => .take :: .done :: workOff n

theorem recording_workOff : ∀ n : Nat, recording (workOff n : List (PlayEvent C I)) = []
  | 0 => rfl
  | n + 1 => recording_workOff n

variable [Group G]

theorem playRun_append (cfg : FeCfg G C) (e : Extr X G I) : ∀ (a b : List (PlayEvent C I)) (s : PlayState G C X),
    playRun cfg e (a ++ b) s = (playRun cfg e a s >>= fun s => playRun cfg e b s)
  | [], _, _ => rfl
  | ev :: a, b, s => by
    show (playStep cfg e s ev >>= fun s => playRun cfg e (a ++ b) s) =
      ((playStep cfg e s ev >>= fun s => playRun cfg e a s) >>= _)
    cases playStep cfg e s ev with
    | ok s1 => exact playRun_append cfg e a b s1
    | abort => rfl
    | ub => rfl

theorem process_frames {cfg : FeCfg G C} {p : G} {c : C} {t : Nat} {st : FeState G C} {r : FeState G C × FeEntry G C}
    (h : feProcess cfg p c t st = .ok r) : st.frames <+: r.1.frames := by
  unfold feProcess at h
  split at h
  · obtain ⟨tg, _, h⟩ := (Outcome.bind_eq_ok _ _ _).mp h
    cases h; exact List.prefix_append _ _
  split at h
  · cases h; exact List.prefix_refl _
  split at h
  · cases h
  · obtain ⟨_, _, h⟩ := (Outcome.bind_eq_ok _ _ _).mp h
    obtain ⟨source, _, h⟩ := (Outcome.bind_eq_ok _ _ _).mp h
    obtain ⟨cloud, _, h⟩ := (Outcome.bind_eq_ok _ _ _).mp h
    dsimp only at h
    split at h
    · obtain ⟨tg, _, h⟩ := (Outcome.bind_eq_ok _ _ _).mp h
      cases h; exact List.prefix_append _ _
    · cases h; exact List.prefix_refl _

theorem playStep_frames {cfg : FeCfg G C} {e : Extr X G I} {s s' : PlayState G C X} {ev : PlayEvent C I}
    (h : playStep cfg e s ev = .ok s') : s.fe.frames <+: s'.fe.frames := by
  cases ev with
  | cloud c t =>
    cases h
    show s.fe.frames <+: (feArrive c t s.fe).frames
    unfold feArrive
    split <;> exact List.prefix_refl _
  | imu i =>
    obtain ⟨x, _, h⟩ := (Outcome.bind_eq_ok _ _ _).mp h
    cases h; exact List.prefix_refl _
  | take =>
    replace h : playTake e s = .ok s' := h
    unfold playTake at h
    split at h
    · split at h
      · obtain ⟨a, _, h⟩ := (Outcome.bind_eq_ok _ _ _).mp h
        cases h; exact List.prefix_refl _
      · cases h; exact List.prefix_refl _
    · cases h; exact List.prefix_refl _
  | done =>
    replace h : playDone cfg e s = .ok s' := h
    unfold playDone at h
    split at h
    · cases h; exact List.prefix_refl _
    · obtain ⟨r, hr, h⟩ := (Outcome.bind_eq_ok _ _ _).mp h
      split at h
      · cases h; exact process_frames hr
      · obtain ⟨x, _, h⟩ := (Outcome.bind_eq_ok _ _ _).mp h
        cases h; exact process_frames hr

theorem playRun_frames {cfg : FeCfg G C} {e : Extr X G I} : ∀ {es : List (PlayEvent C I)} {s s' : PlayState G C X},
    playRun cfg e es s = .ok s' → s.fe.frames <+: s'.fe.frames
  | [], s, s', h => by cases h; exact List.prefix_refl _
  | ev :: es, s, s', h => by
    obtain ⟨s1, h1, h2⟩ := (Outcome.bind_eq_ok _ _ _).mp h
    exact (playStep_frames h1).trans (playRun_frames h2)

theorem take_shorter {e : Extr X G I} {s s' : PlayState G C X} (hb : s.busy = none) (h : playTake e s = .ok s') :
    s'.fe.waiting.length ≤ s.fe.waiting.length - 1 := by
  unfold playTake at h
  split at h
  · rename_i c t rest _ hw
    split at h
    · obtain ⟨a, _, h⟩ := (Outcome.bind_eq_ok _ _ _).mp h
      cases h; rw [hw]; simp
    · cases h; rw [hw]; simp
  · rename_i hn
    cases h
    cases hw : s.fe.waiting with
    | nil => simp
    | cons a l => exact absurd hw (hn a.1 a.2 l hb)

theorem workOff_all {cfg : FeCfg G C} {e : Extr X G I} : ∀ (n : Nat) {s s' : PlayState G C X}, s.busy = none →
    s.fe.waiting.length ≤ n → playRun cfg e (workOff n) s = .ok s' → AllMatched s'
  | 0, s, s', hb, hl, h => by
    cases h; exact ⟨List.length_eq_zero_iff.1 (by omega), hb⟩
  | n + 1, s, s', hb, hl, h => by
    obtain ⟨s1, h1, h⟩ := (Outcome.bind_eq_ok _ _ _).mp h
    obtain ⟨s2, h2, h⟩ := (Outcome.bind_eq_ok _ _ _).mp h
    have a := take_shorter hb h1
    obtain ⟨b1, b2, _⟩ := done_ok h2
    exact workOff_all n b1 (by rw [b2]; omega) h

/-- If all runs on a recording that work on all clouds end with the same frames, a run on the beginning of the
recording has the beginning of the frames. -/
theorem longer_frames {cfg : FeCfg G C} {e : Extr X G I} {s0 : PlayState G C X} {es es' : List (PlayEvent C I)}
    {s' : PlayState G C X} (hrec : recording es <+: recording es')
    (hall : ∀ l : List (PlayEvent C I), recording l = recording es' →
      ∃ s, playRun cfg e l s0 = .ok s ∧ (AllMatched s → s.fe = s'.fe)) :
    ∃ s, playRun cfg e es s0 = .ok s ∧ s.fe.frames <+: s'.fe.frames := by
  obtain ⟨rest, hrest⟩ := hrec
  have hr : recording rest = rest := by
    have h := congrArg recording hrest
    rw [recording_append, recording_twice, recording_twice, ← hrest] at h
    exact List.append_cancel_left h
  have h1 : recording (es ++ rest) = recording es' := by rw [recording_append, hr, hrest]
  obtain ⟨s2, hs2, _⟩ := hall _ h1
  have h2 : recording ((es ++ rest) ++ (.done :: workOff s2.fe.waiting.length)) = recording es' := by
    rw [recording_append, h1]
    show recording es' ++ recording (workOff _) = _
    rw [recording_workOff, List.append_nil]
  obtain ⟨s3, hs3, hsame⟩ := hall _ h2
  rw [playRun_append, hs2, Outcome.bind_ok] at hs3
  obtain ⟨s4, hs4, hs5⟩ := (Outcome.bind_eq_ok _ _ _).mp hs3
  obtain ⟨b1, b2, _⟩ := done_ok (s := s2) hs4
  have hm : AllMatched s3 := workOff_all _ b1 (by rw [b2]) hs5
  rw [playRun_append] at hs2
  obtain ⟨s, hs, hs6⟩ := (Outcome.bind_eq_ok _ _ _).mp hs2
  refine ⟨s, hs, ?_⟩
  rw [← hsame hm]
  exact (playRun_frames hs6).trans (playRun_frames hs3)

/-- C145 without IMU, clouds in the order of their stamps.  `es'` is a run on a recording that goes through and works on
all clouds; `es` is a run on the beginning of it, with any timing.  Then `es` goes through, and its frames and their
poses are the first ones of `es'`. -/
theorem C145_clouds (cfg : FeCfg G C) (e : Extr X G I) (x0 : X) (start : Nat) {es es' : List (PlayEvent C I)}
    (hrec : recording es <+: recording es') (hi : imuOf es' = []) (ho : InOrder start (cloudsOf es'))
    {s' : PlayState G C X} (h : playRun cfg e es' ⟨feInit start, x0, none⟩ = .ok s') (hm : AllMatched s') :
    ∃ s, playRun cfg e es ⟨feInit start, x0, none⟩ = .ok s ∧ s.fe.frames <+: s'.fe.frames := by
  refine longer_frames hrec fun l hl => ?_
  obtain ⟨s, h1, h2⟩ := C128_clouds cfg e x0 start hl hi ho h hm
  exact ⟨s, h1, fun hs => congrArg PlayState.fe (h2 hs)⟩

/-- C145 with IMU, partial: under the conditions of `C128_imu_partial` on the longer recording (missing: inertial
messages that are late, `C145_imu_fails`). -/
theorem C145_imu_partial {α : Type} (cfg : FeCfg G C) (turn : List (TrackOp α) → G) (first : G) (m : ImuItem α)
    {es es' : List (PlayEvent C (ImuItem α))} (hrec : recording es <+: recording es')
    (hinc : StampsIncrease (m :: imuOf es')) (ho : InOrder m.stamp (cloudsOf es')) (ht : Timely es')
    {s' : PlayState G C (ImuQueue α × G × G)} (h : playRun cfg (imuExtr turn) es' (playImu first m) = .ok s')
    (hm : AllMatched s') :
    ∃ s, playRun cfg (imuExtr turn) es (playImu first m) = .ok s ∧ s.fe.frames <+: s'.fe.frames :=
  longer_frames hrec fun _ hl => C128_imu_partial cfg turn first m hl hinc ho ht h hm

end

/-! ### the submaps -/

section
variable {G P C X I E : Type} [Group G]

theorem longer_map {r : RunCfg G P C E} {e : Extr X G I} {x0 : X} {n start : Nat} (hn : 1 ≤ n) {es es' : List (PlayEvent C I)}
    {sched sched' : List WeaveStep} {obs obs' : List (Submap G P) → List (IsamFrame G E)}
    {est est' : List (Submap G P) → Nat → G} {coord coord' : List (Submap G P) → G} {b b' : BuiltMap G P C}
    {s s' : PlayState G C X} (hs : playRun r.fe e es ⟨feInit start, x0, none⟩ = .ok s)
    (hs' : playRun r.fe e es' ⟨feInit start, x0, none⟩ = .ok s') (hf : s.fe.frames <+: s'.fe.frames)
    (hb : playMap r e x0 n start es sched obs est coord = .ok b)
    (hb' : playMap r e x0 n start es' sched' obs' est' coord' = .ok b') :
    b.keys <+: b'.keys ∧ (b.submaps <+: b'.submaps ∨ b'.submaps <+: b.submaps) ∧
    (b'.seen = some b'.keys.length → b.submaps <+: b'.submaps) := by
  unfold playMap at hb hb'
  rw [hs, Outcome.bind_ok] at hb
  rw [hs', Outcome.bind_ok] at hb'
  obtain ⟨th, h1, hb⟩ := (Outcome.bind_eq_ok _ _ _).mp hb
  obtain ⟨th', h1', hb'⟩ := (Outcome.bind_eq_ok _ _ _).mp hb'
  obtain ⟨st, h2, hb⟩ := (Outcome.bind_eq_ok _ _ _).mp hb
  obtain ⟨st', h2', hb'⟩ := (Outcome.bind_eq_ok _ _ _).mp hb'
  obtain ⟨fl, h3, hb⟩ := (Outcome.bind_eq_ok _ _ _).mp hb
  obtain ⟨fl', h3', hb'⟩ := (Outcome.bind_eq_ok _ _ _).mp hb'
  cases hb
  cases hb'
  have hi := threadInv_run _ _ th (threadInv_init r.act r.sub r.traj n) h1
  have hi' := threadInv_run _ _ th' (threadInv_init r.act r.sub r.traj n) h1'
  have hp := (weave_frames _ _ _ _ _ _ _ _ h1).2
  have hp' := (weave_frames _ _ _ _ _ _ _ _ h1').2
  have hp : th.frames <+: s.fe.frames.map (keyFrameOf r.pts r.stampOf) := hp
  have hp' : th'.frames <+: s'.fe.frames.map (keyFrameOf r.pts r.stampOf) := hp'
  have hpp : th.frames <+: s'.fe.frames.map (keyFrameOf r.pts r.stampOf) := hp.trans (hf.map _)
  refine ⟨hf, ?_, ?_⟩
  · rcases Nat.le_total th.submaps.length th'.submaps.length with h | h
    · exact Or.inl (submaps_same hi hi' hpp hp' h)
    · exact Or.inr (submaps_same hi' hi hp' hpp h)
  · intro hk
    dsimp only at hk
    have hpc : th'.pc = .finished s'.fe.frames.length := by
      cases hp : th'.pc with
      | head => rw [hp] at hk; cases hk
      | got m => rw [hp] at hk; cases hk
      | finished m => rw [hp] at hk; cases hk; rfl
    have l' := (C28_all_frames_partial r.act r.sub r.traj n hn _ th' h1' _ hpc).2.1
    have l1 : th.submaps.length * n ≤ s'.fe.frames.length := by
      have a := hi.le
      have c := hpp.length_le
      rw [List.length_map] at c
      rw [hi.cur] at a
      omega
    exact submaps_same hi hi' hpp hp' (by rw [l']; exact (Nat.le_div_iff_mul_le hn).2 l1)

/-- C145 for the submaps: the key frames of the run on the beginning are the first ones of the run on all of the
recording, and so are the submaps as built, if the submap thread of the longer run has seen all its key frames; whatever
the optimiser does in the two runs. -/
theorem C145_map {r : RunCfg G P C E} {e : Extr X G I} {x0 : X} {n start : Nat} (hn : 1 ≤ n)
    {es es' : List (PlayEvent C I)} (hrec : recording es <+: recording es') (hi : imuOf es' = [])
    (ho : InOrder start (cloudsOf es')) {sched sched' : List WeaveStep}
    {obs obs' : List (Submap G P) → List (IsamFrame G E)} {est est' : List (Submap G P) → Nat → G}
    {coord coord' : List (Submap G P) → G} {b b' : BuiltMap G P C} {s' : PlayState G C X}
    (hs' : playRun r.fe e es' ⟨feInit start, x0, none⟩ = .ok s') (hm' : AllMatched s')
    (hb : playMap r e x0 n start es sched obs est coord = .ok b)
    (hb' : playMap r e x0 n start es' sched' obs' est' coord' = .ok b') :
    b.keys <+: b'.keys ∧ (b.submaps <+: b'.submaps ∨ b'.submaps <+: b.submaps) ∧
    (b'.seen = some b'.keys.length → b.submaps <+: b'.submaps) := by
  obtain ⟨s, h1, h2⟩ := C145_clouds r.fe e x0 start hrec hi ho hs' hm'
  exact longer_map hn h1 hs' h2 hb hb'

/-- The same with an IMU. -/
theorem C145_map_imu_partial {α : Type} {r : RunCfg G P C E} (turn : List (TrackOp α) → G) (first : G) (m : ImuItem α)
    {n : Nat} (hn : 1 ≤ n) {es es' : List (PlayEvent C (ImuItem α))} (hrec : recording es <+: recording es')
    (hinc : StampsIncrease (m :: imuOf es')) (ho : InOrder m.stamp (cloudsOf es')) (ht : Timely es')
    {sched sched' : List WeaveStep} {obs obs' : List (Submap G P) → List (IsamFrame G E)}
    {est est' : List (Submap G P) → Nat → G} {coord coord' : List (Submap G P) → G} {b b' : BuiltMap G P C}
    {s' : PlayState G C (ImuQueue α × G × G)}
    (hs' : playRun r.fe (imuExtr turn) es' (playImu first m) = .ok s') (hm' : AllMatched s')
    (hb : playMap r (imuExtr turn) (qStart m, first, first) n m.stamp es sched obs est coord = .ok b)
    (hb' : playMap r (imuExtr turn) (qStart m, first, first) n m.stamp es' sched' obs' est' coord' = .ok b') :
    b.keys <+: b'.keys ∧ (b.submaps <+: b'.submaps ∨ b'.submaps <+: b.submaps) ∧
    (b'.seen = some b'.keys.length → b.submaps <+: b'.submaps) := by
  obtain ⟨s, h1, h2⟩ := C145_imu_partial r.fe turn first m hrec hinc ho ht hs' hm'
  exact longer_map hn h1 hs' h2 hb hb'

end

/-- A longer recording than `playSlow` and `imuSlow`. -/
def playLonger : List (PlayEvent Nat Unit) :=
  [.cloud 0 10, .cloud 2 11, .take, .done, .cloud 5 12, .cloud 9 14, .take, .done, .take, .done, .take, .done]
def imuLonger : List (PlayEvent Nat (ImuItem Int)) :=
  imuFast ++ [.imu ⟨41, 1⟩, .cloud 3 50, .take, .done]

example : recording playSlow <+: recording playLonger ∧ imuOf playLonger = [] ∧ InOrder 0 (cloudsOf playLonger) ∧
    stillRun playLonger = some ([(0, 0), (2, 2), (5, 5), (9, 9)], 0, false) := by
  refine ⟨⟨[.cloud 9 14], rfl⟩, rfl, ⟨?_, ?_⟩, ?_⟩ <;> decide
example : recording imuSlow <+: recording imuLonger ∧ StampsIncrease ((⟨10, 1⟩ : ImuItem Int) :: imuOf imuLonger) ∧
    InOrder 10 (cloudsOf imuLonger) ∧ Timely imuLonger ∧
    imuDemo imuLonger = some ([(0, 0), (1, 10), (2, 34), (3, 35)], 0, false) := by
  refine ⟨⟨[.imu ⟨41, 1⟩, .cloud 3 50], rfl⟩, ?_, ?_, ?_, by decide⟩
  · unfold StampsIncrease; decide
  · constructor <;> decide
  · simp [imuLonger, imuFast, Timely, imuOf]

/-- C145 is false for late inertial messages: the message that comes after the second cloud, although it is older,
changes where that cloud is put. -/
theorem C145_imu_fails : ∃ es es' : List (PlayEvent Nat (ImuItem Int)), recording es <+: recording es' ∧
    StampsIncrease ((⟨10, 1⟩ : ImuItem Int) :: imuOf es') ∧ InOrder 10 (cloudsOf es') ∧
    imuDemo es = some ([(0, 0), (1, 0)], 0, false) ∧ imuDemo es' = some ([(0, 0), (1, 7)], 0, false) := by
  refine ⟨[.cloud 0 20, .take, .done, .cloud 1 30, .take, .done],
    [.cloud 0 20, .take, .done, .cloud 1 30, .imu ⟨25, 7⟩, .take, .done], ⟨[.imu ⟨25, 7⟩], rfl⟩, ?_, ?_,
    by decide, by decide⟩
  · unfold StampsIncrease; decide
  · constructor <;> decide

/-! ### accumulated clouds, closed loops, positions -/

theorem addCloud_out {P : Type} (num : Int) (st : AccState P) (c : InCloud P) : st.out <+: (addCloud num st c).out := by
  unfold addCloud
  split
  · dsimp only
    by_cases h : st.count = 0
    · rw [if_pos h]
      split
      · exact List.prefix_refl _
      · exact List.prefix_append _ _
    · rw [if_neg h]
      split
      · exact List.prefix_refl _
      · exact List.prefix_append _ _
  · exact List.prefix_append _ _

theorem foldl_addCloud_out {P : Type} (num : Int) : ∀ (ds : List (InCloud P)) (st : AccState P),
    st.out <+: (ds.foldl (addCloud num) st).out
  | [], _ => List.prefix_refl _
  | d :: ds, st => (addCloud_out num st d).trans (foldl_addCloud_out num ds _)

/-- C145 for the clouds handed on after joining: more messages add clouds at the end. -/
theorem C145_joined {P : Type} (num : Int) (cs ds : List (InCloud P)) :
    (addClouds num cs).out <+: (addClouds num (cs ++ ds)).out := by
  unfold addClouds
  rw [List.foldl_append]
  exact foldl_addCloud_out num ds _

example : (addClouds 2 [⟨⟨1, 0⟩, [7]⟩, ⟨⟨2, 0⟩, [8]⟩, ⟨⟨3, 0⟩, [9]⟩]).out.length = 1 ∧
    (addClouds 2 ([⟨⟨1, 0⟩, [7]⟩, ⟨⟨2, 0⟩, [8]⟩, ⟨⟨3, 0⟩, [9]⟩] ++ [⟨⟨4, 0⟩, [5]⟩])).out.length = 2 := by decide

/-- C145 for the loops: if the detector goes through all frames it goes through the first ones, with the same results;
frames that come later change no loop that was closed. -/
theorem C145_loops (s : LoopSettings) : ∀ (es fs : List LoopEv) (st st' : LoopState) (rs' : List LoopResult),
    runLoop s st (es ++ fs) = .ok (st', rs') → ∃ st1 rs, runLoop s st es = .ok (st1, rs) ∧ rs <+: rs'
  | [], _, st, _, _, _ => ⟨st, [], rfl, List.nil_prefix⟩
  | .window a b :: es, fs, st, st', rs', h => by
    obtain ⟨_, h1, h2⟩ := (Outcome.bind_eq_ok _ _ _).mp h
    obtain ⟨st1, rs, h3, h4⟩ := C145_loops s es fs _ st' rs' h2
    refine ⟨st1, rs, ?_, h4⟩
    show (Outcome.check (a ≥ 0 ∧ b ≥ 0 ∧ b ≥ a) >>= fun _ => runLoop s { st with window := some (a, b) } es) = _
    rw [h1, Outcome.bind_ok, h3]
  | .frame f :: es, fs, st, st', rs', h => by
    obtain ⟨⟨st1, r⟩, h1, h2⟩ := (Outcome.bind_eq_ok _ _ _).mp h
    obtain ⟨⟨st2, rs2⟩, h3, h4⟩ := (Outcome.bind_eq_ok _ _ _).mp h2
    obtain ⟨st3, rs, h5, h6⟩ := C145_loops s es fs st1 st2 rs2 h3
    cases h4
    refine ⟨st3, r :: rs, ?_, List.cons_prefix_cons.2 ⟨rfl, h6⟩⟩
    unfold runLoop
    rw [h1, Outcome.bind_ok]
    dsimp only
    rw [h5]
    rfl

-- the loop is closed at the end, and open three frames before
example : loopView { trying := 3, ignore := 0 } (([false, true] ++ [true, true, true]).map fun b => .frame (testFrame b)) =
      some (.continuous, [false, true, true, true, true]) ∧
    loopView { trying := 3, ignore := 0 } ([false, true].map fun b => .frame (testFrame b)) =
      some (.trying, [false, true]) := by
  decide +kernel

theorem addGps_data {fwd : LatLonAlt → LatLonAlt → Vec3 Rat} {st st' : GpsState} {m : GpsMsg}
    (h : addGps fwd st m = .ok st') : st.data <+: st'.data ∧ (∀ r, st.ref = some r → st'.ref = some r) := by
  obtain ⟨ref, data⟩ := st
  unfold addGps at h
  dsimp only at h
  cases ref with
  | none =>
    dsimp only at h
    split at h
    · split at h
      · cases h; exact ⟨List.prefix_append _ _, fun r hr => by cases hr⟩
      · split at h
        · cases h; exact ⟨List.prefix_append _ _, fun r hr => by cases hr⟩
        · cases h
    · cases h; exact ⟨List.prefix_refl _, fun r hr => hr⟩
  | some r0 =>
    dsimp only at h
    split at h
    · cases h; exact ⟨List.prefix_append _ _, fun r hr => hr⟩
    · split at h
      · cases h; exact ⟨List.prefix_append _ _, fun r hr => hr⟩
      · cases h

/-- C145 for the received positions: later ones neither move the origin nor the stored positions. -/
theorem C145_positions (fwd : LatLonAlt → LatLonAlt → Vec3 Rat) : ∀ (ms ns : List GpsMsg) (st st' : GpsState),
    addGpsAll fwd st (ms ++ ns) = .ok st' → ∃ st1, addGpsAll fwd st ms = .ok st1 ∧ st1.data <+: st'.data ∧
      ∀ r, st1.ref = some r → st'.ref = some r
  | [], [], st, st', h => by cases h; exact ⟨st, rfl, List.prefix_refl _, fun _ h => h⟩
  | [], m :: ns, st, st', h => by
    obtain ⟨st1, h1, h2⟩ := (Outcome.bind_eq_ok _ _ _).mp h
    obtain ⟨st2, h3, h4, h5⟩ := C145_positions fwd [] ns st1 st' h2
    cases h3
    obtain ⟨a, b⟩ := addGps_data h1
    exact ⟨st, rfl, a.trans h4, fun r hr => h5 r (b r hr)⟩
  | m :: ms, ns, st, st', h => by
    obtain ⟨st1, h1, h2⟩ := (Outcome.bind_eq_ok _ _ _).mp h
    obtain ⟨st2, h3, h4⟩ := C145_positions fwd ms ns st1 st' h2
    refine ⟨st2, ?_, h4⟩
    unfold addGpsAll
    rw [h1, Outcome.bind_ok, h3]

example : ∃ st, addGpsAll (fun r p => ⟨p.x - r.x, p.y - r.y, p.z - r.z⟩) {}
      ([msgAt 1 0 (-1), msgAt 2 0 0] ++ [msgAt 3 0 1]) = .ok st ∧ st.data.length = 2 ∧ st.ref = some ⟨1, 2, 3⟩ :=
  ⟨_, rfl, by decide +kernel, by decide +kernel⟩

end Verif
