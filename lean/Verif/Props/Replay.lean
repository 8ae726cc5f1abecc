import Verif.Proofs.ReplayImu
import Verif.Props.EndToEnd
/-! C128: the map depends on the recording only, not on the timing. -/
namespace Verif
open Spec

section
variable {G C X I : Type}

theorem cloudsOf_recording : ∀ es : List (PlayEvent C I), cloudsOf (recording es) = cloudsOf es
  | [] => rfl
  | .cloud c t :: es => by show (c, t) :: _ = (c, t) :: _; rw [cloudsOf_recording es]
  | .imu _ :: es => cloudsOf_recording es
  | .take :: es => cloudsOf_recording es
  | .done :: es => cloudsOf_recording es

theorem imuOf_recording : ∀ es : List (PlayEvent C I), imuOf (recording es) = imuOf es
  | [] => rfl
  | .cloud _ _ :: es => imuOf_recording es
  | .imu i :: es => by show i :: _ = i :: _; rw [imuOf_recording es]
  | .take :: es => imuOf_recording es
  | .done :: es => imuOf_recording es

theorem timely_recording {α : Type} : ∀ es : List (PlayEvent C (ImuItem α)), Timely (recording es) ↔ Timely es
  | [] => Iff.rfl
  | .cloud c t :: es => by
    show ((∀ m ∈ imuOf (recording es), _) ∧ Timely (recording es)) ↔ ((∀ m ∈ imuOf es, _) ∧ Timely es)
    rw [imuOf_recording, timely_recording es]
  | .imu _ :: es => timely_recording es
  | .take :: es => timely_recording es
  | .done :: es => timely_recording es

variable [Group G]

theorem playOrd_start {x : X} {start : Nat} {l : List (C × Nat)} (h : InOrder start l) :
    PlayOrd (⟨feInit start, x, none⟩ : PlayState G C X) l :=
  ⟨h.2, h.1, fun _ _ _ hb => by cases hb⟩

/-- The order in which the scan-matching thread runs between arrivals does not matter: two runs on the same clouds
give the same outcome, up to what is left to do. -/
theorem run_same (cfg : FeCfg G C) (e : Extr X G I) (x0 : X) (start : Nat) {es es' : List (PlayEvent C I)}
    (hc : cloudsOf es = cloudsOf es') (hi : imuOf es = []) (hi' : imuOf es' = []) (ho : InOrder start (cloudsOf es))
    {s : PlayState G C X} (h : playRun cfg e es ⟨feInit start, x0, none⟩ = .ok s) (hm : AllMatched s) :
    ∃ s', playRun cfg e es' ⟨feInit start, x0, none⟩ = .ok s' ∧ (AllMatched s' → s' = s) := by
  have h1 := run_rest cfg e es _ hi (playOrd_start (G := G) (x := x0) ho)
  rw [h, Outcome.bind_ok, rest_matched cfg e s hm, hc] at h1
  have h2 := run_rest cfg e es' _ hi' (playOrd_start (G := G) (x := x0) (hc ▸ ho))
  rw [h1] at h2
  obtain ⟨s', h3, h4⟩ := (Outcome.bind_eq_ok _ _ _).mp h2.symm
  refine ⟨s', h3, fun hm' => ?_⟩
  rw [rest_matched cfg e s' hm'] at h4
  cases h4
  rfl

/-- C128 without IMU, clouds in the order of their stamps: if one run on a recording goes through and works on all
clouds, every other run on the same recording – with the scan-matching thread faster or slower, interrupted at any
arrival – goes through, and when it too has worked on all clouds it has the same frames at the same poses, the same
reference cloud and the same extrapolator. -/
theorem C128_clouds (cfg : FeCfg G C) (e : Extr X G I) (x0 : X) (start : Nat) {es es' : List (PlayEvent C I)}
    (hrec : recording es' = recording es) (hi : imuOf es = []) (ho : InOrder start (cloudsOf es))
    {s : PlayState G C X} (h : playRun cfg e es ⟨feInit start, x0, none⟩ = .ok s) (hm : AllMatched s) :
    ∃ s', playRun cfg e es' ⟨feInit start, x0, none⟩ = .ok s' ∧ (AllMatched s' → s' = s) := by
  have hc : cloudsOf es = cloudsOf es' := by rw [← cloudsOf_recording es, ← hrec, cloudsOf_recording]
  have hi' : imuOf es' = [] := by rw [← imuOf_recording, hrec, imuOf_recording, hi]
  exact run_same cfg e x0 start hc hi hi' ho h hm

/-- C128 with IMU, partial: the messages have growing stamps, the clouds are in order, and no inertial message comes
after a cloud with a later stamp (missing: messages that are late, `C128_imu_fails`).  Then every run on the recording
goes through if one does, and ends with the same frames at the same poses. -/
theorem C128_imu_partial {α : Type} (cfg : FeCfg G C) (turn : List (TrackOp α) → G) (first : G) (m : ImuItem α)
    {es es' : List (PlayEvent C (ImuItem α))} (hrec : recording es' = recording es)
    (hinc : StampsIncrease (m :: imuOf es)) (ho : InOrder m.stamp (cloudsOf es)) (ht : Timely es)
    {s : PlayState G C (ImuQueue α × G × G)} (h : playRun cfg (imuExtr turn) es (playImu first m) = .ok s)
    (hm : AllMatched s) :
    ∃ s', playRun cfg (imuExtr turn) es' (playImu first m) = .ok s' ∧ (AllMatched s' → s'.fe = s.fe) := by
  have hc : cloudsOf es = cloudsOf es' := by rw [← cloudsOf_recording es, ← hrec, cloudsOf_recording]
  have hi : imuOf es' = imuOf es := by rw [← imuOf_recording, hrec, imuOf_recording]
  have ht' : Timely es' := by rw [← timely_recording, hrec, timely_recording]; exact ht
  have hsim : ∀ l : List (PlayEvent C (ImuItem α)), imuOf l = imuOf es →
      ImuSim m [m] l (playImu first m : PlayState G C (ImuQueue α × G × G)) := by
    intro l hl
    refine ⟨qStart_inv m, (fun k hk => by cases hk), fun a ha => ⟨?_, (fun b hb => by cases hb), (fun _ _ _ hb => by cases hb)⟩⟩
    rw [hl] at ha
    exact le_of_lt ((List.pairwise_cons.1 hinc).1 a ha)
  have h1 := imu_sim cfg turn m es [m] _ hinc ht (hsim es rfl)
  have h2 := imu_sim cfg turn m es' [m] _ (by rw [hi]; exact hinc) ht' (hsim es' hi)
  rw [h, Outcome.bind_ok] at h1
  rw [hi] at h2
  obtain ⟨s', h3, h4⟩ := run_same cfg (knowingExtr turn ([m] ++ imuOf es)) (withQueue ([m] ++ imuOf es) (qStart m, first, first))
    m.stamp (es := dropImu es) (es' := dropImu es') (by rw [dropImu_clouds, dropImu_clouds, hc]) (dropImu_imu es)
    (dropImu_imu es') (by rw [dropImu_clouds]; exact ho) h1 hm
  have h3' := h2.symm.trans h3
  obtain ⟨t, h5, h6⟩ := (Outcome.bind_eq_ok _ _ _).mp h3'
  refine ⟨t, h5, fun hmt => ?_⟩
  cases h6
  have hk : (knowing ([m] ++ imuOf es) t).fe = (knowing ([m] ++ imuOf es) s).fe := congrArg PlayState.fe (h4 hmt)
  exact hk

end

/-! ### the map -/

section
variable {G P C X I E : Type} [Group G]

theorem submaps_same {act : G → P → P} {o : SubmapOpts P} {traj : Int} {n : Nat} {K : List (Frame G P)}
    {a b : SubmapThread G P} (ha : ThreadInv act o traj n a) (hb : ThreadInv act o traj n b) (pa : a.frames <+: K)
    (pb : b.frames <+: K) (hl : a.submaps.length ≤ b.submaps.length) : a.submaps <+: b.submaps := by
  have cut : ∀ (st : SubmapThread G P), ThreadInv act o traj n st → st.frames <+: K → ∀ k < st.submaps.length,
      (st.frames.drop (k * n)).take n = (K.drop (k * n)).take n := by
    intro st hst hp k hk
    obtain ⟨r, hr⟩ := hp
    have h1 : (k + 1) * n ≤ st.frames.length := by
      refine (Nat.mul_le_mul_right n hk).trans ?_
      rw [← hst.cur]
      exact hst.le
    rw [Nat.add_mul, Nat.one_mul] at h1
    rw [← hr, List.drop_append_of_le_length (by omega), List.take_append_of_le_length]
    rw [List.length_drop]
    omega
  rw [List.prefix_iff_getElem?]
  intro k hk
  have hkb : k < b.submaps.length := lt_of_lt_of_le hk hl
  have h1 := ha.built k _ (List.getElem?_eq_getElem hk)
  have h2 := hb.built k _ (List.getElem?_eq_getElem hkb)
  rw [cut a ha pa k hk] at h1
  rw [cut b hb pb k hkb] at h2
  rw [h1] at h2
  rw [List.getElem?_eq_getElem hkb]
  injection h2 with h2
  exact congrArg some h2.symm

theorem built_ext {a b : BuiltMap G P C} (h1 : a.keys = b.keys) (h2 : a.submaps = b.submaps) (h3 : a.files = b.files)
    (h4 : a.seen = b.seen) : a = b := by
  obtain ⟨_, _, _, _⟩ := a
  obtain ⟨_, _, _, _⟩ := b
  cases h1; cases h2; cases h3; cases h4
  rfl

/-- The rest of the run is the same for the same frames. -/
theorem map_same {r : RunCfg G P C E} {e : Extr X G I} {x0 : X} {n start : Nat} (hn : 1 ≤ n) {es es' : List (PlayEvent C I)}
    {sched sched' : List WeaveStep} {obs : List (Submap G P) → List (IsamFrame G E)} {est : List (Submap G P) → Nat → G}
    {coord : List (Submap G P) → G} {b b' : BuiltMap G P C} {s s' : PlayState G C X}
    (hs : playRun r.fe e es ⟨feInit start, x0, none⟩ = .ok s) (hs' : playRun r.fe e es' ⟨feInit start, x0, none⟩ = .ok s')
    (hf : s'.fe = s.fe) (hb : playMap r e x0 n start es sched obs est coord = .ok b)
    (hb' : playMap r e x0 n start es' sched' obs est coord = .ok b') :
    b'.keys = b.keys ∧ (b'.submaps <+: b.submaps ∨ b.submaps <+: b'.submaps) ∧
    (b.seen = some b.keys.length → b'.seen = some b'.keys.length → b' = b) := by
  unfold playMap at hb hb'
  rw [hs, Outcome.bind_ok] at hb
  rw [hs', Outcome.bind_ok, hf] at hb'
  obtain ⟨th, h1, hb⟩ := (Outcome.bind_eq_ok _ _ _).mp hb
  obtain ⟨th', h1', hb'⟩ := (Outcome.bind_eq_ok _ _ _).mp hb'
  obtain ⟨st, h2, hb⟩ := (Outcome.bind_eq_ok _ _ _).mp hb
  obtain ⟨st', h2', hb'⟩ := (Outcome.bind_eq_ok _ _ _).mp hb'
  obtain ⟨fl, h3, hb⟩ := (Outcome.bind_eq_ok _ _ _).mp hb
  obtain ⟨fl', h3', hb'⟩ := (Outcome.bind_eq_ok _ _ _).mp hb'
  cases hb
  cases hb'
  have hi := threadInv_run _ _ th (threadInv_init r.act r.sub r.traj n) h1
  have hi' := threadInv_run _ _ th' (threadInv_init r.act r.sub r.traj n) h1'
  have hp := (weave_frames _ _ _ _ _ _ _ _ h1).2
  have hp' := (weave_frames _ _ _ _ _ _ _ _ h1').2
  have hp : th.frames <+: s.fe.frames.map (keyFrameOf r.pts r.stampOf) := hp
  have hp' : th'.frames <+: s.fe.frames.map (keyFrameOf r.pts r.stampOf) := hp'
  refine ⟨rfl, ?_, ?_⟩
  · rcases Nat.le_total th'.submaps.length th.submaps.length with h | h
    · exact Or.inl (submaps_same hi' hi hp' hp h)
    · exact Or.inr (submaps_same hi hi' hp hp' h)
  · intro e1 e2
    have len : ∀ (w : SubmapThread G P) (sc : List WeaveStep), SubmapThread.run r.act r.sub r.traj n SubmapThread.init
        (weave sc (s.fe.frames.map (keyFrameOf r.pts r.stampOf))) = .ok w →
        (match w.pc with | .finished m => some m | _ => none) = some s.fe.frames.length →
        w.submaps.length = s.fe.frames.length / n := by
      intro w sc hw hk
      have hpc : w.pc = .finished s.fe.frames.length := by
        cases hp : w.pc with
        | head => rw [hp] at hk; cases hk
        | got m => rw [hp] at hk; cases hk
        | finished m => rw [hp] at hk; cases hk; rfl
      exact (C28_all_frames_partial r.act r.sub r.traj n hn _ w hw _ hpc).2.1
    have l1 := len th sched h1 e1
    have l2 := len th' sched' h1' e2
    have hsub : th'.submaps = th.submaps := (submaps_same hi' hi hp' hp (by omega)).eq_of_length (by omega)
    rw [hsub] at h2' h3'
    rw [h2] at h2'
    cases h2'
    rw [h3] at h3'
    cases h3'
    exact built_ext rfl hsub rfl (e2.trans e1.symm)

/-- C128 for the saved map, partial: two runs on the same clouds that have worked on all of them have the same key
frames, the submaps of one begin those of the other, and if both submap threads have seen all key frames, everything is
the same, including the saved maps (missing: `C128_end_fails`). -/
theorem C128_map_partial {r : RunCfg G P C E} {e : Extr X G I} {x0 : X} {n start : Nat} (hn : 1 ≤ n)
    {es es' : List (PlayEvent C I)} (hrec : recording es' = recording es) (hi : imuOf es = [])
    (ho : InOrder start (cloudsOf es)) {sched sched' : List WeaveStep}
    {obs : List (Submap G P) → List (IsamFrame G E)} {est : List (Submap G P) → Nat → G}
    {coord : List (Submap G P) → G} {b b' : BuiltMap G P C} {s s' : PlayState G C X}
    (hs : playRun r.fe e es ⟨feInit start, x0, none⟩ = .ok s) (hm : AllMatched s)
    (hs' : playRun r.fe e es' ⟨feInit start, x0, none⟩ = .ok s') (hm' : AllMatched s')
    (hb : playMap r e x0 n start es sched obs est coord = .ok b)
    (hb' : playMap r e x0 n start es' sched' obs est coord = .ok b') :
    b'.keys = b.keys ∧ (b'.submaps <+: b.submaps ∨ b.submaps <+: b'.submaps) ∧
    (b.seen = some b.keys.length → b'.seen = some b'.keys.length → b' = b) := by
  obtain ⟨s2, h1, h2⟩ := C128_clouds r.fe e x0 start hrec hi ho hs hm
  rw [hs'] at h1
  cases h1
  exact map_same hn hs hs' (congrArg PlayState.fe (h2 hm')) hb hb'

/-- The same with an IMU, under the conditions of `C128_imu_partial`. -/
theorem C128_map_imu_partial {α : Type} {r : RunCfg G P C E} (turn : List (TrackOp α) → G) (first : G) (m : ImuItem α)
    {n : Nat} (hn : 1 ≤ n) {es es' : List (PlayEvent C (ImuItem α))} (hrec : recording es' = recording es)
    (hinc : StampsIncrease (m :: imuOf es)) (ho : InOrder m.stamp (cloudsOf es)) (ht : Timely es)
    {sched sched' : List WeaveStep} {obs : List (Submap G P) → List (IsamFrame G E)}
    {est : List (Submap G P) → Nat → G} {coord : List (Submap G P) → G} {b b' : BuiltMap G P C}
    {s s' : PlayState G C (ImuQueue α × G × G)}
    (hs : playRun r.fe (imuExtr turn) es (playImu first m) = .ok s) (hm : AllMatched s)
    (hs' : playRun r.fe (imuExtr turn) es' (playImu first m) = .ok s') (hm' : AllMatched s')
    (hb : playMap r (imuExtr turn) (qStart m, first, first) n m.stamp es sched obs est coord = .ok b)
    (hb' : playMap r (imuExtr turn) (qStart m, first, first) n m.stamp es' sched' obs est coord = .ok b') :
    b'.keys = b.keys ∧ (b'.submaps <+: b.submaps ∨ b.submaps <+: b'.submaps) ∧
    (b.seen = some b.keys.length → b'.seen = some b'.keys.length → b' = b) := by
  obtain ⟨s2, h1, h2⟩ := C128_imu_partial r.fe turn first m hrec hinc ho ht hs hm
  rw [hs'] at h1
  cases h1
  exact map_same hn hs hs' (h2 hm') hb hb'

end

/-! ### runs -/

/-- Without IMU, nothing predicted. -/
def stillExtr : Extr Unit (Multiplicative Int) Unit := ⟨fun x _ _ => .ok x, fun x _ => .ok (x, 1), fun x _ => .ok x⟩

def playFrames {X : Type} (o : Outcome (PlayState (Multiplicative Int) Nat X)) : Option (List (Nat × Int) × Nat × Bool) :=
  match o with
  | .ok s => some (s.fe.frames.map (fun f => (f.1, f.2.toAdd)), s.fe.waiting.length, s.busy.isSome)
  | _ => none

def stillRun (es : List (PlayEvent Nat Unit)) := playFrames (playRun (feDemo false) stillExtr es ⟨feInit 0, (), none⟩)

/-- The same recording with a fast and with a slow scan matcher. -/
def playFast : List (PlayEvent Nat Unit) :=
  [.cloud 0 10, .take, .done, .cloud 2 11, .take, .done, .cloud 5 12, .take, .done]
def playSlow : List (PlayEvent Nat Unit) :=
  [.cloud 0 10, .take, .cloud 2 11, .take, .cloud 5 12, .done, .take, .done, .done, .take, .done]

example : stillRun playFast = some ([(0, 0), (2, 2), (5, 5)], 0, false) := by decide
example : stillRun playSlow = some ([(0, 0), (2, 2), (5, 5)], 0, false) := by decide
example : recording playSlow = recording playFast ∧ imuOf playFast = [] ∧ InOrder 0 (cloudsOf playFast) := by
  refine ⟨rfl, rfl, ?_, ?_⟩ <;> decide

/-- C128 is false for clouds out of order: the late cloud is dropped on arrival if the newer one has been matched, and
becomes the reference of the next match if it has not; the same recording gives two maps. -/
theorem C128_late_fails : ∃ es es' : List (PlayEvent Nat Unit), recording es' = recording es ∧
    stillRun es = some ([(0, 0), (7, 7)], 0, false) ∧ stillRun es' = some ([(0, 0), (7, 2)], 0, false) :=
  ⟨[.cloud 0 10, .take, .done, .cloud 5 9, .cloud 7 11, .take, .done],
   [.cloud 0 10, .cloud 5 9, .cloud 7 11, .take, .done, .take, .done, .take, .done], rfl, by decide, by decide⟩

/-- The sum of the messages seen. -/
def logTurn : List (TrackOp Int) → Multiplicative Int
  | [] => 1
  | .message m :: l => .ofAdd m.data * logTurn l
  | _ :: l => logTurn l

/-- The scan matcher keeps the prediction; every cloud is a key frame. -/
def trustCfg : FeCfg (Multiplicative Int) Nat :=
  { feDemo false with align := fun _ _ g => g, key := fun _ => true }

def imuDemo (es : List (PlayEvent Nat (ImuItem Int))) := playFrames (playRun trustCfg (imuExtr logTurn) es (playImu 1 ⟨10, 1⟩))

/-- A recording in order, played fast and slowly. -/
def imuFast : List (PlayEvent Nat (ImuItem Int)) :=
  [.imu ⟨15, 2⟩, .cloud 0 20, .take, .done, .imu ⟨22, 3⟩, .imu ⟨25, 7⟩, .cloud 1 30, .take, .done, .imu ⟨30, 11⟩, .imu ⟨35, 13⟩,
   .cloud 2 40, .take, .done]
def imuSlow : List (PlayEvent Nat (ImuItem Int)) :=
  [.imu ⟨15, 2⟩, .cloud 0 20, .imu ⟨22, 3⟩, .take, .imu ⟨25, 7⟩, .cloud 1 30, .imu ⟨30, 11⟩, .done, .take, .imu ⟨35, 13⟩,
   .cloud 2 40, .done, .take, .done]

example : imuDemo imuFast = some ([(0, 0), (1, 10), (2, 34)], 0, false) := by decide
example : imuDemo imuSlow = some ([(0, 0), (1, 10), (2, 34)], 0, false) := by decide
example : recording imuSlow = recording imuFast ∧ StampsIncrease ((⟨10, 1⟩ : ImuItem Int) :: imuOf imuFast) ∧
    InOrder 10 (cloudsOf imuFast) ∧ Timely imuFast := by
  refine ⟨rfl, ?_, ?_, ?_⟩
  · unfold StampsIncrease; decide
  · constructor <;> decide
  · simp [imuFast, Timely, imuOf]

/-- C128 with IMU is false in general: an inertial message that comes after a cloud with a later stamp counts if the
cloud has not been taken yet, does not count if it has, and stops the program if it has been matched. -/
theorem C128_imu_fails : ∃ es es' es'' : List (PlayEvent Nat (ImuItem Int)), recording es' = recording es ∧
    recording es'' = recording es ∧ StampsIncrease ((⟨10, 1⟩ : ImuItem Int) :: imuOf es) ∧ InOrder 10 (cloudsOf es) ∧
    imuDemo es = some ([(0, 0), (1, 7)], 0, false) ∧ imuDemo es' = some ([(0, 0), (1, 0)], 0, false) ∧
    playRun trustCfg (imuExtr logTurn) es'' (playImu 1 ⟨10, 1⟩) = .abort := by
  refine ⟨[.cloud 0 20, .take, .done, .cloud 1 30, .imu ⟨25, 7⟩, .take, .done],
    [.cloud 0 20, .take, .done, .cloud 1 30, .take, .imu ⟨25, 7⟩, .done],
    [.cloud 0 20, .take, .done, .cloud 1 30, .take, .done, .imu ⟨25, 7⟩], rfl, rfl, ?_, ?_, by decide, by decide, rfl⟩
  · unfold StampsIncrease; decide
  · constructor <;> decide

/-- C128 is false at the end of a run: with the same clouds, matched in the same way, the last submap is in the map or
not, depending on when the submap thread has counted the frames. -/
theorem C128_end_fails : ∃ sched sched' : List WeaveStep,
    builtView (playMap (lineRun false) stillExtr () 2 0 playSlow sched (fun l => l.map fun _ => lineObs (some 1))
      (fun _ i => .ofAdd (100 * (i : Int))) (fun _ => 1)) = some ([0, 2, 5], 1, some 3, [.whole [0, 0, 0, 2]]) ∧
    builtView (playMap (lineRun false) stillExtr () 2 0 playSlow sched' (fun l => l.map fun _ => lineObs (some 1))
      (fun _ i => .ofAdd (100 * (i : Int))) (fun _ => 1)) = some ([0, 2, 5], 0, some 0, []) :=
  ⟨[.insert, .insert, .insert, .stop, .read, .act, .read, .act], [.read, .insert, .insert, .insert, .stop, .act],
    by decide +kernel, by decide +kernel⟩

end Verif
