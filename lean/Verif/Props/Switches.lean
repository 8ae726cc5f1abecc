import Verif.Model.Switches
import Verif.Model.Gps
import Verif.Spec.Switches
import Verif.Proofs.Isam
/-!
C74: switching sensors on and off.

English: a message of a sensor that is switched off has no effect on the map, a message of one that
is switched on is used; and the switches apply to the optimiser as well.

The first half holds (`C74_accepted_partial`, `C74_gps_off_partial`).  It fails for odometry: one
message stops the program, or is undefined if the switch was never set (`C74_odom_stops_fails`,
`C74_odom_unset_fails`).  The second half fails: the optimiser is given its settings in `Initialise`
and keeps them, and the node switches sensors off afterwards (`C74_back_end_fails`).
-/
namespace Verif
open Spec
variable {M : Type}

/-- Messages chosen by what precedes them. -/
def pickBy (sel : BuilderCall M → List (BuilderCall M) → Option M) (cs : List (BuilderCall M)) :
    List M :=
  cs.zipIdx.filterMap fun x => sel x.1 (cs.take x.2)

theorem pickBy_snoc (sel : BuilderCall M → List (BuilderCall M) → Option M)
    (cs : List (BuilderCall M)) (c : BuilderCall M) :
    pickBy sel (cs ++ [c]) = pickBy sel cs ++ (sel c cs).toList := by
  unfold pickBy
  rw [List.zipIdx_append, List.filterMap_append]
  congr 1
  · apply List.filterMap_congr
    rintro ⟨x, i⟩ hx
    have hi := List.snd_lt_of_mem_zipIdx hx
    simp only [Nat.add_zero] at hi
    rw [List.take_append_of_le_length (by omega)]
  · simp only [List.zipIdx_singleton, Nat.zero_add, List.filterMap_cons, List.filterMap_nil]
    rw [List.take_append_of_le_length (Nat.le_refl _), List.take_length]
    cases sel c cs <;> rfl

def selGps : BuilderCall M → List (BuilderCall M) → Option M
  | .gps m, p => if gpsOn p && !finished p then some m else none
  | _, _ => none

def selImu : BuilderCall M → List (BuilderCall M) → Option M
  | .imu m, p => if imuOn p && !finished p then some m else none
  | _, _ => none

def selCloud : BuilderCall M → List (BuilderCall M) → Option M
  | .cloud m stamp lastPose, p =>
    if !finished p && decide (lastPose ≤ stamp) && (!imuOn p || !(imuWanted p).isEmpty)
    then some m else none
  | _, _ => none

theorem gpsWanted_eq (cs : List (BuilderCall M)) : gpsWanted cs = pickBy selGps cs := by
  unfold gpsWanted pickBy
  congr 1
  funext ⟨c, i⟩
  cases c <;> rfl

theorem imuWanted_eq (cs : List (BuilderCall M)) : imuWanted cs = pickBy selImu cs := by
  unfold imuWanted pickBy
  congr 1
  funext ⟨c, i⟩
  cases c <;> rfl

theorem cloudWanted_eq (cs : List (BuilderCall M)) : cloudWanted cs = pickBy selCloud cs := by
  unfold cloudWanted pickBy
  congr 1
  funext ⟨c, i⟩
  cases c <;> rfl

theorem gpsOn_snoc (cs : List (BuilderCall M)) (c : BuilderCall M) :
    gpsOn (cs ++ [c]) = match c with | .enableGps x => x | _ => gpsOn cs := by
  simp only [gpsOn, List.foldl_append, List.foldl_cons, List.foldl_nil]
  cases c <;> rfl

theorem finished_snoc (cs : List (BuilderCall M)) (c : BuilderCall M) :
    finished (cs ++ [c]) = (finished cs || isFinish c) := by
  simp [finished, List.any_append]

theorem imuOn_snoc (cs : List (BuilderCall M)) (c : BuilderCall M) :
    imuOn (cs ++ [c]) = (imuOn cs || asksImu c) := by
  simp [imuOn, List.any_append]

structure SwitchInv (cs : List (BuilderCall M)) (st : SwitchState M) : Prop where
  gpsFlag : st.useGps = gpsOn cs
  endFlag : st.ended = finished cs
  imuFlag : st.useImu = imuOn cs
  imuOpt : st.opts.imu = st.useImu
  notYet : st.backEnd = none → st.useImu = false ∧ st.extrapolator = false ∧ st.ended = false
  extra : st.backEnd.isSome = true →
    st.extrapolator = (!st.useImu || !st.imus.isEmpty)
  gpss : st.gpss = gpsWanted cs
  imus : st.imus = imuWanted cs
  clouds : st.clouds = cloudWanted cs
  imuNone : st.backEnd = none → st.imus = []

theorem switchInv_init : SwitchInv ([] : List (BuilderCall M)) (switchInit M) :=
  ⟨rfl, rfl, rfl, rfl, fun _ => ⟨rfl, rfl, rfl⟩, fun h => (nomatch h), rfl, rfl, rfl, fun _ => rfl⟩

theorem switchRun_snoc (cs : List (BuilderCall M)) (c : BuilderCall M) (st : SwitchState M) :
    switchRun (cs ++ [c]) st = (switchRun cs st >>= fun st => switchStep st c) := by
  induction cs generalizing st with
  | nil =>
    simp only [List.nil_append, switchRun, Outcome.bind_ok]
    cases switchStep st c <;> rfl
  | cons d cs ih =>
    simp only [List.cons_append, switchRun]
    cases switchStep st d with
    | ok s => simp only [Outcome.bind_ok]; exact ih s
    | abort => rfl
    | ub => rfl

theorem switchStep_inv {cs : List (BuilderCall M)} {c : BuilderCall M} {st st' : SwitchState M}
    (h : SwitchInv cs st) (hs : switchStep st c = .ok st') : SwitchInv (cs ++ [c]) st' := by
  obtain ⟨hg, he, hi, ho, hn, hx, h1, h2, h3, h4⟩ := h
  cases c with
  | init f =>
    simp only [switchStep] at hs
    by_cases hb : st.backEnd.isSome = true
    · rw [if_pos hb] at hs; cases hs
    · rw [if_neg hb] at hs
      have hb' : st.backEnd = none := by simpa using hb
      cases hs
      obtain ⟨n1, n2, n3⟩ := hn hb'
      have himu : imuOn cs = false := by rw [← hi, n1]
      have hopt : st.opts.imu = false := by rw [ho, n1]
      refine ⟨?_, ?_, ?_, rfl, ?_, ?_, ?_, ?_, ?_, ?_⟩
      · rw [gpsOn_snoc]; exact hg
      · rw [finished_snoc]; simpa [isFinish] using he
      · rw [imuOn_snoc, himu, Bool.false_or]
        simp only [hopt, asksImu]
      · intro h; cases h
      · intro _
        simp only [h4 hb', n2]
        cases f.imu.getD st.opts.imu <;> simp
      · rw [gpsWanted_eq, pickBy_snoc, ← gpsWanted_eq]; simpa [selGps] using h1
      · rw [imuWanted_eq, pickBy_snoc, ← imuWanted_eq]; simpa [selImu] using h2
      · rw [cloudWanted_eq, pickBy_snoc, ← cloudWanted_eq]; simpa [selCloud] using h3
      · intro h; cases h
  | enableOdom b =>
    simp only [switchStep] at hs
    cases hs
    refine ⟨?_, ?_, ?_, ?_, hn, hx, ?_, ?_, ?_, h4⟩
    · rw [gpsOn_snoc]; exact hg
    · rw [finished_snoc]; simpa [isFinish] using he
    · rw [imuOn_snoc]; simpa [asksImu] using hi
    · cases b <;> exact ho
    · rw [gpsWanted_eq, pickBy_snoc, ← gpsWanted_eq]; simpa [selGps] using h1
    · rw [imuWanted_eq, pickBy_snoc, ← imuWanted_eq]; simpa [selImu] using h2
    · rw [cloudWanted_eq, pickBy_snoc, ← cloudWanted_eq]; simpa [selCloud] using h3
  | enableGps b =>
    simp only [switchStep] at hs
    cases hs
    refine ⟨?_, ?_, ?_, ?_, hn, hx, ?_, ?_, ?_, h4⟩
    · rw [gpsOn_snoc]
    · rw [finished_snoc]; simpa [isFinish] using he
    · rw [imuOn_snoc]; simpa [asksImu] using hi
    · cases b <;> exact ho
    · rw [gpsWanted_eq, pickBy_snoc, ← gpsWanted_eq]; simpa [selGps] using h1
    · rw [imuWanted_eq, pickBy_snoc, ← imuWanted_eq]; simpa [selImu] using h2
    · rw [cloudWanted_eq, pickBy_snoc, ← cloudWanted_eq]; simpa [selCloud] using h3
  | finish =>
    simp only [switchStep] at hs
    by_cases hb : st.backEnd.isNone = true
    · rw [if_pos hb] at hs; cases hs
    · rw [if_neg hb] at hs
      cases hs
      refine ⟨?_, ?_, ?_, ho, ?_, hx, ?_, ?_, ?_, h4⟩
      · rw [gpsOn_snoc]; exact hg
      · rw [finished_snoc]; simp [isFinish]
      · rw [imuOn_snoc]; simpa [asksImu] using hi
      · intro h; rw [Option.isNone_iff_eq_none] at hb; exact absurd h hb
      · rw [gpsWanted_eq, pickBy_snoc, ← gpsWanted_eq]; simpa [selGps] using h1
      · rw [imuWanted_eq, pickBy_snoc, ← imuWanted_eq]; simpa [selImu] using h2
      · rw [cloudWanted_eq, pickBy_snoc, ← cloudWanted_eq]; simpa [selCloud] using h3
  | odom m =>
    have : st' = st := by
      simp only [switchStep] at hs
      cases hu : st.useOdom with
      | none => rw [hu] at hs; cases hs
      | some u =>
        rw [hu] at hs
        by_cases hb : (!u || st.ended) = true
        · simp only [hb, if_true] at hs; cases hs; rfl
        · simp only [hb] at hs; cases hs
    rw [this]
    refine ⟨?_, ?_, ?_, ho, hn, hx, ?_, ?_, ?_, h4⟩
    · rw [gpsOn_snoc]; exact hg
    · rw [finished_snoc]; simpa [isFinish] using he
    · rw [imuOn_snoc]; simpa [asksImu] using hi
    · rw [gpsWanted_eq, pickBy_snoc, ← gpsWanted_eq]; simpa [selGps] using h1
    · rw [imuWanted_eq, pickBy_snoc, ← imuWanted_eq]; simpa [selImu] using h2
    · rw [cloudWanted_eq, pickBy_snoc, ← cloudWanted_eq]; simpa [selCloud] using h3
  | gps m =>
    have h1' := gpsWanted_eq (cs ++ [.gps m])
    rw [pickBy_snoc, ← gpsWanted_eq] at h1'
    simp only [selGps, ← hg, ← he] at h1'
    have c1 : gpsOn (cs ++ [.gps m]) = gpsOn cs := gpsOn_snoc cs _
    have c2 : finished (cs ++ [.gps m]) = finished cs := by rw [finished_snoc]; simp [isFinish]
    have c3 : imuOn (cs ++ [.gps m]) = imuOn cs := by rw [imuOn_snoc]; simp [asksImu]
    have c4 : imuWanted (cs ++ [.gps m]) = imuWanted cs := by
      rw [imuWanted_eq, pickBy_snoc, ← imuWanted_eq]; simp [selImu]
    have c5 : cloudWanted (cs ++ [.gps m]) = cloudWanted cs := by
      rw [cloudWanted_eq, pickBy_snoc, ← cloudWanted_eq]; simp [selCloud]
    simp only [switchStep] at hs
    by_cases hb : (!st.useGps || st.ended) = true
    · rw [if_pos hb] at hs
      cases hs
      have : (st.useGps && !st.ended) = false := by
        revert hb; generalize st.useGps = a; generalize st.ended = b; cases a <;> cases b <;> simp
      rw [this] at h1'
      refine ⟨by rw [c1]; exact hg, by rw [c2]; exact he, by rw [c3]; exact hi, ho, hn, hx, ?_,
        by rw [c4]; exact h2, by rw [c5]; exact h3, h4⟩
      rw [h1', h1]; simp
    · rw [if_neg hb] at hs
      by_cases hb2 : st.backEnd.isNone = true
      · rw [if_pos hb2] at hs; cases hs
      · rw [if_neg hb2] at hs
        cases hs
        have : (st.useGps && !st.ended) = true := by
          revert hb; generalize st.useGps = a; generalize st.ended = b; cases a <;> cases b <;> simp
        rw [this] at h1'
        refine ⟨by rw [c1]; exact hg, by rw [c2]; exact he, by rw [c3]; exact hi, ho, hn, hx, ?_,
          by rw [c4]; exact h2, by rw [c5]; exact h3, h4⟩
        rw [h1', h1]; simp
  | imu m =>
    have h2' := imuWanted_eq (cs ++ [.imu m])
    rw [pickBy_snoc, ← imuWanted_eq] at h2'
    simp only [selImu, ← hi, ← he] at h2'
    have c1 : gpsOn (cs ++ [.imu m]) = gpsOn cs := gpsOn_snoc cs _
    have c2 : finished (cs ++ [.imu m]) = finished cs := by rw [finished_snoc]; simp [isFinish]
    have c3 : imuOn (cs ++ [.imu m]) = imuOn cs := by rw [imuOn_snoc]; simp [asksImu]
    have c4 : gpsWanted (cs ++ [.imu m]) = gpsWanted cs := by
      rw [gpsWanted_eq, pickBy_snoc, ← gpsWanted_eq]; simp [selGps]
    have c5 : cloudWanted (cs ++ [.imu m]) = cloudWanted cs := by
      rw [cloudWanted_eq, pickBy_snoc, ← cloudWanted_eq]; simp [selCloud]
    simp only [switchStep] at hs
    by_cases hb : (!st.useImu || st.ended) = true
    · rw [if_pos hb] at hs
      cases hs
      have : (st.useImu && !st.ended) = false := by
        revert hb; generalize st.useImu = a; generalize st.ended = b; cases a <;> cases b <;> simp
      rw [this] at h2'
      refine ⟨by rw [c1]; exact hg, by rw [c2]; exact he, by rw [c3]; exact hi, ho, hn, hx,
        by rw [c4]; exact h1, ?_, by rw [c5]; exact h3, h4⟩
      rw [h2', h2]; simp
    · rw [if_neg hb] at hs
      by_cases hb2 : st.backEnd.isNone = true
      · rw [if_pos hb2] at hs; cases hs
      · rw [if_neg hb2] at hs
        cases hs
        have : (st.useImu && !st.ended) = true := by
          revert hb; generalize st.useImu = a; generalize st.ended = b; cases a <;> cases b <;> simp
        rw [this] at h2'
        rw [Option.isNone_iff_eq_none] at hb2
        refine ⟨by rw [c1]; exact hg, by rw [c2]; exact he, by rw [c3]; exact hi, ho,
          fun h => absurd h hb2, fun _ => by simp,
          by rw [c4]; exact h1, ?_, by rw [c5]; exact h3, fun h => absurd h hb2⟩
        show st.imus ++ [m] = _
        rw [h2', h2]; simp
  | cloud m stamp last =>
    have h3' := cloudWanted_eq (cs ++ [.cloud m stamp last])
    rw [pickBy_snoc, ← cloudWanted_eq] at h3'
    simp only [selCloud, ← hi, ← he, ← h2] at h3'
    have c1 : gpsOn (cs ++ [.cloud m stamp last]) = gpsOn cs := gpsOn_snoc cs _
    have c2 : finished (cs ++ [.cloud m stamp last]) = finished cs := by
      rw [finished_snoc]; simp [isFinish]
    have c3 : imuOn (cs ++ [.cloud m stamp last]) = imuOn cs := by rw [imuOn_snoc]; simp [asksImu]
    have c4 : gpsWanted (cs ++ [.cloud m stamp last]) = gpsWanted cs := by
      rw [gpsWanted_eq, pickBy_snoc, ← gpsWanted_eq]; simp [selGps]
    have c5 : imuWanted (cs ++ [.cloud m stamp last]) = imuWanted cs := by
      rw [imuWanted_eq, pickBy_snoc, ← imuWanted_eq]; simp [selImu]
    have same : (!st.ended && decide (last ≤ stamp) && (!st.useImu || !st.imus.isEmpty)) = false →
        SwitchInv (cs ++ [.cloud m stamp last]) st := by
      intro h
      rw [h] at h3'
      refine ⟨by rw [c1]; exact hg, by rw [c2]; exact he, by rw [c3]; exact hi, ho, hn, hx,
        by rw [c4]; exact h1, by rw [c5]; exact h2, ?_, h4⟩
      rw [h3', h3]; simp
    have ext : st.ended = false → st.extrapolator = true → st.backEnd.isSome = true := by
      intro _ he'
      cases hb : st.backEnd with
      | some _ => rfl
      | none => rw [(hn hb).2.1] at he'; cases he'
    simp only [switchStep] at hs
    by_cases hb : (st.ended || (st.useImu && !st.extrapolator)) = true
    · rw [if_pos hb] at hs
      cases hs
      apply same
      cases hend : st.ended with
      | true => simp
      | false =>
        rw [hend, Bool.false_or, Bool.and_eq_true] at hb
        obtain ⟨b1, b2⟩ := hb
        cases hbe : st.backEnd with
        | none => rw [(hn hbe).1] at b1; cases b1
        | some _ =>
          have := hx (by rw [hbe]; rfl)
          rw [b1] at this
          simp only [Bool.not_true, Bool.false_or] at this
          rw [Bool.not_eq_true'] at b2
          rw [b1, ← this, b2]
          simp
    · rw [if_neg hb] at hs
      have hend : st.ended = false := by
        revert hb; generalize st.ended = b; cases b <;> simp
      have hok : st.backEnd.isSome = true → (!st.useImu || !st.imus.isEmpty) = true := by
        intro h
        rw [← hx h]
        cases h1 : st.useImu
        · rw [hx h, h1]; rfl
        · rw [hend, h1] at hb; simpa using hb
      by_cases hb3 : (st.extrapolator && decide (stamp < last)) = true
      · rw [if_pos hb3] at hs
        cases hs
        apply same
        rw [Bool.and_eq_true, decide_eq_true_eq] at hb3
        have : decide (last ≤ stamp) = false := by simpa using hb3.2
        rw [this]; simp
      · rw [if_neg hb3] at hs
        by_cases hb2 : st.backEnd.isNone = true
        · rw [if_pos hb2] at hs; cases hs
        · rw [if_neg hb2] at hs
          cases hs
          have hsome : st.backEnd.isSome = true := by
            cases h : st.backEnd with
            | none => rw [h] at hb2; exact absurd rfl hb2
            | some _ => rfl
          have hex : st.extrapolator = true := by rw [hx hsome]; exact hok hsome
          have hle : decide (last ≤ stamp) = true := by
            rw [hex, Bool.true_and, decide_eq_true_eq] at hb3
            simpa using Nat.le_of_not_lt hb3
          rw [hend, hle, hok hsome] at h3'
          refine ⟨by rw [c1]; exact hg, by rw [c2]; exact he, by rw [c3]; exact hi, ho, hn, hx,
            by rw [c4]; exact h1, by rw [c5]; exact h2, ?_, h4⟩
          show st.clouds ++ [m] = _
          rw [h3', h3]; simp

theorem switchRun_inv (cs : List (BuilderCall M)) {st : SwitchState M}
    (h : switchRun cs (switchInit M) = .ok st) : SwitchInv cs st := by
  induction cs using List.reverseRecOn generalizing st with
  | nil => cases h; exact switchInv_init
  | append_singleton cs c ih =>
    rw [switchRun_snoc] at h
    obtain ⟨s, hs, h2⟩ := (Outcome.bind_eq_ok _ _ _).mp h
    exact switchStep_inv (ih hs) h2

/-- What the builder collects, for every sequence of calls: the GPS messages sent while GPS was
switched on, the inertial messages if the settings ask for them, the clouds (not those older than the
last matched pose, and with the inertial sensor not those before its first message), nothing after
the end.  Missing: odometry, see below. -/
theorem C74_accepted_partial (cs : List (BuilderCall M)) (st : SwitchState M)
    (h : switchRun cs (switchInit M) = .ok st) :
    st.gpss = gpsWanted cs ∧ st.imus = imuWanted cs ∧ st.clouds = cloudWanted cs :=
  ⟨(switchRun_inv cs h).gpss, (switchRun_inv cs h).imus, (switchRun_inv cs h).clouds⟩

theorem gpsOn_never (cs : List (BuilderCall M)) (h : ∀ c ∈ cs, c ≠ .enableGps true) :
    gpsOn cs = false := by
  induction cs using List.reverseRecOn with
  | nil => rfl
  | append_singleton cs c ih =>
    rw [gpsOn_snoc]
    have hc := h c (by simp)
    have := ih fun d hd => h d (by simp [hd])
    cases c <;> first | exact this | skip
    rename_i b
    cases b
    · rfl
    · exact absurd rfl hc

/-- If GPS is never switched on, then whatever the settings say and whatever messages arrive: none is
collected, no submap gets a GPS position, and no constraint of the optimiser uses GPS. -/
theorem C74_gps_off_partial {G : Type} (cs : List (BuilderCall GpsMsg)) (st : SwitchState GpsMsg)
    (h : switchRun cs (switchInit GpsMsg) = .ok st) (hoff : ∀ c ∈ cs, c ≠ .enableGps true)
    (fwd : LatLonAlt → LatLonAlt → Vec3 Rat) (data0 : GpsState) (h0 : data0.data = [])
    (o : IsamOpts) (fs : List (IsamFrame G (Vec3 Rat))) (hv : EdgesValid 0 fs)
    (time : Nat → SimpleTime) (threshold : Rat) (trim : Bool) :
    ∃ d, addGpsAll fwd data0 st.gpss = .ok d ∧
      ((∀ i f, fs[i]? = some f → interpolateGps d.data (time i) threshold trim = .ok (f.gps, d.data)) →
        ∃ ist, isamRun o fs (isamInit G (Vec3 Rat)) = .ok ist ∧ gpsApplied ist.doneF = []) := by
  have hempty : st.gpss = [] := by
    rw [(switchRun_inv cs h).gpss, gpsWanted_eq]
    unfold pickBy
    rw [List.filterMap_eq_nil_iff]
    rintro ⟨c, i⟩ _
    cases c <;> try rfl
    have : gpsOn (cs.take i) = false :=
      gpsOn_never _ fun c hc => hoff c (List.mem_of_mem_take hc)
    simp [selGps, this]
  refine ⟨data0, by rw [hempty]; rfl, ?_⟩
  intro hf
  have hnone : ∀ f ∈ fs, f.gps = none := by
    intro f hm
    obtain ⟨i, hi⟩ := List.mem_iff_getElem?.mp hm
    have := hf i f hi
    rw [h0] at this
    unfold interpolateGps at this
    by_cases ht : threshold ≤ 1 / 2
    · rw [Outcome.check_pos ht, Outcome.bind_ok] at this
      simp only [Outcome.pure_eq, Outcome.ok.injEq, Prod.mk.injEq] at this
      exact this.1.symm
    · rw [Outcome.check_neg ht] at this
      cases this
  obtain ⟨ist, h1, hd⟩ := isamRun_done o fs hv
  refine ⟨ist, h1, ?_⟩
  cases hu : o.useGps with
  | false => exact hd.noGps hu
  | true =>
    rcases hd.gps hu with ⟨_, _, _, a⟩ | ⟨_, k, ⟨f, e, h2, h3, _⟩, _⟩
    · exact a
    · rw [hnone f (List.mem_of_getElem? h2)] at h3
      cases h3

/-- An odometry message that arrives while odometry is switched on stops the program, always. -/
theorem C74_odom_stops_fails (cs : List (BuilderCall M)) (st : SwitchState M) (m : M)
    (_ : switchRun cs (switchInit M) = .ok st) (hon : st.useOdom = some true)
    (he : st.ended = false) : switchRun (cs ++ [.odom m]) (switchInit M) = .abort := by
  rw [switchRun_snoc, ‹switchRun cs _ = _›, Outcome.bind_ok]
  simp [switchStep, hon, he]

def noFile : SwitchFile := ⟨none, none, none, none⟩

def gpsFile : SwitchFile := ⟨none, some true, none, some true⟩

example : ∃ st, switchRun [BuilderCall.init noFile, .enableOdom true] (switchInit Nat) = .ok st ∧
    st.useOdom = some true ∧ st.ended = false := ⟨_, rfl, rfl, rfl⟩

/-- An odometry message that arrives before the switch was ever set: the flag it is tested with has
no value yet. -/
theorem C74_odom_unset_fails (f : SwitchFile) (m : M) :
    switchRun [.init f, .odom m] (switchInit M) = .ub := rfl

/-- The settings of the optimiser once the calls have been made. -/
def backEndOf (r : Outcome (SwitchState M)) : Option SwitchOpts :=
  match r with
  | .ok st => st.backEnd
  | _ => none

/-- GPS is switched off in the way the node does it, after `Initialise`: the options of the builder
say off, the optimiser and the loop detector still use GPS. -/
theorem C74_back_end_fails :
    ∃ st, switchRun [.init gpsFile, .enableOdom false, .enableGps false] (switchInit Nat) = .ok st ∧
      st.useGps = false ∧ st.opts.isamGps = false ∧ st.opts.loopGps = false ∧
      st.backEnd = some ⟨false, true, false, true⟩ :=
  ⟨_, rfl, rfl, rfl, rfl, rfl⟩

/-- Switching GPS off before `Initialise` does not help either: the file is read afterwards. -/
theorem C74_back_end_before_fails :
    backEndOf (switchRun [.enableGps false, .init gpsFile] (switchInit Nat)) =
      some ⟨false, true, false, true⟩ := rfl

/-- The options an `Initialise` reads and what a switch does to them: switching a sensor off clears its
options and no others, switching it on changes none. -/
theorem C74_switch_options (st st' : SwitchState M) :
    (switchStep st (.enableOdom false) = .ok st' →
      st'.opts = ⟨st.opts.imu, st.opts.isamGps, false, st.opts.loopGps⟩ ∧ st'.useOdom = some false) ∧
    (switchStep st (.enableGps false) = .ok st' →
      st'.opts = ⟨st.opts.imu, false, st.opts.isamOdom, false⟩ ∧ st'.useGps = false) ∧
    (switchStep st (.enableOdom true) = .ok st' → st'.opts = st.opts ∧ st'.useOdom = some true) ∧
    (switchStep st (.enableGps true) = .ok st' → st'.opts = st.opts ∧ st'.useGps = true) := by
  refine ⟨fun h => ?_, fun h => ?_, fun h => ?_, fun h => ?_⟩ <;>
    (simp only [switchStep, Outcome.ok.injEq] at h; subst h; exact ⟨rfl, rfl⟩)

/-- What the optimiser uses is what the file says, the switches never change it: after `Initialise`
it keeps its settings. -/
theorem C74_back_end_kept (cs : List (BuilderCall M)) (st st' : SwitchState M) (o : SwitchOpts)
    (hb : st.backEnd = some o) (h : switchRun cs st = .ok st') : st'.backEnd = some o := by
  induction cs generalizing st with
  | nil => cases h; exact hb
  | cons c cs ih =>
    obtain ⟨s, h1, h2⟩ := (Outcome.bind_eq_ok _ _ _).mp h
    apply ih s ?_ h2
    cases c with
    | init f => simp [switchStep, hb] at h1
    | enableOdom b => simp only [switchStep] at h1; cases h1; exact hb
    | enableGps b => simp only [switchStep] at h1; cases h1; exact hb
    | cloud m a b =>
      simp only [switchStep] at h1
      split at h1
      · cases h1; exact hb
      · split at h1
        · cases h1; exact hb
        · split at h1
          · cases h1
          · cases h1; exact hb
    | imu m =>
      simp only [switchStep] at h1
      split at h1
      · cases h1; exact hb
      · split at h1
        · cases h1
        · cases h1; exact hb
    | odom m =>
      simp only [switchStep] at h1
      cases hu : st.useOdom with
      | none => rw [hu] at h1; cases h1
      | some u =>
        rw [hu] at h1
        simp only at h1
        split at h1
        · cases h1; exact hb
        · cases h1
    | gps m =>
      simp only [switchStep] at h1
      split at h1
      · cases h1; exact hb
      · split at h1
        · cases h1
        · cases h1; exact hb
    | finish =>
      simp only [switchStep] at h1
      split at h1
      · cases h1
      · cases h1; exact hb

/-- Instance: inertial sensor on, GPS switched on and off again, an old cloud, messages after the
end. -/
example : ∃ st, switchRun [.init ⟨some true, some true, none, none⟩, .cloud 1 5 0, .gps 2, .imu 3,
      .enableGps true, .cloud 4 6 5, .gps 5, .cloud 6 4 5, .enableGps false, .gps 7, .imu 8, .finish,
      .cloud 9 9 5, .imu 10, .gps 11] (switchInit Nat) = .ok st ∧
    st.clouds = [4] ∧ st.imus = [3, 8] ∧ st.gpss = [5] := ⟨_, rfl, rfl, rfl, rfl⟩

end Verif
