import Verif.Model.LostTrack
import Verif.Props.FrontEnd
import Verif.Props.MatchScore
/-! C130: a scan that cannot be matched is noticed. -/
namespace Verif
open Spec

variable {G C R : Type} [Group G] [Field R] [LinearOrder R]

/-- C130, what holds: when the two-stage matcher gives up, the cloud is placed where the extrapolator predicted it
(for the results used as they are: no averaging with the guess). -/
theorem C130_predicted_partial (cfg : FeCfg G C) (hc : cfg.compensate = false) (reg : C → RegCloud) (expNeg : R → R) (useNdt : Bool)
    (E : MatchEngine G R) (pred : G) (raw : C) (t : Nat) (st st' : FeState G C) (en : FeEntry G C) (tg : C × Bool)
    (hg : st.got = true) (ht : st.last ≤ t) (htg : st.target = some tg)
    (hup : GivesUp useNdt E .ndtGicp (reg raw) (reg tg.1) (st.poseTarget⁻¹ * pred))
    (h : feProcess (withMatcher cfg reg expNeg useNdt E .ndtGicp) pred raw t st = .ok (st', en)) :
    (∃ ins, en = .placed raw (some tg.1) pred raw ins) ∧ st'.last = t := by
  have hal : (alignScore expNeg useNdt E .ndtGicp (reg raw) (reg tg.1) (st.poseTarget⁻¹ * pred)).2.1 = st.poseTarget⁻¹ * pred := by
    obtain ⟨_, h1, h2⟩ := hup
    subst h1
    unfold alignScore ndtGicpAlign
    dsimp only
    rw [if_pos rfl, if_neg (not_le.mpr h2)]
  unfold feProcess at h
  rw [if_neg (by rw [hg]; simp), if_neg (by omega), htg] at h
  dsimp only at h
  rw [Outcome.check_bind_eq_ok] at h
  obtain ⟨_, h⟩ := h
  have hs : ∀ m, feSource (withMatcher cfg reg expNeg useNdt E .ndtGicp) m raw = .ok raw := by
    intro m
    unfold feSource withMatcher
    dsimp only
    rw [hc]
    rfl
  have hr : ∀ a b, feResult (withMatcher cfg reg expNeg useNdt E .ndtGicp) a b = a := by
    intro a b
    unfold feResult withMatcher
    dsimp only
    rw [hc]
    rfl
  rw [hs, Outcome.bind_ok, hs, Outcome.bind_ok, hr] at h
  have hal' : (withMatcher cfg reg expNeg useNdt E .ndtGicp).align tg.1 raw (st.poseTarget⁻¹ * pred) = st.poseTarget⁻¹ * pred := hal
  rw [hal', mul_inv_cancel_left] at h
  split at h
  · obtain ⟨tg', _, h⟩ := (Outcome.bind_eq_ok _ _ _).mp h
    cases h
    exact ⟨⟨_, rfl⟩, rfl⟩
  · cases h
    exact ⟨⟨_, rfl⟩, rfl⟩

/-- C130 is false: with the other matchers nothing of what the front end does depends on how good the match is.  Two
matchers that find the same transforms, one with small and one with huge distances, with or without the failure flag,
give the same poses, the same key frames and the same references for every history. -/
theorem C130_ignored_fails (cfg : FeCfg G C) (reg : C → RegCloud) (expNeg expNeg' : R → R) (useNdt useNdt' : Bool)
    (E E' : MatchEngine G R) (k k' : RegKind) (hk : k ≠ .ndtGicp) (hk' : k' ≠ .ndtGicp)
    (hE : ∀ s t g, (E.single s t g).1 = (E'.single s t g).1) (es : List (FeEvent G C)) (st : FeState G C) :
    feRun (withMatcher cfg reg expNeg useNdt E k) es st = feRun (withMatcher cfg reg expNeg' useNdt' E' k') es st := by
  have h1 : ∀ (ex : R → R) (u : Bool) (F : MatchEngine G R) (j : RegKind), j ≠ .ndtGicp → ∀ s t g,
      (alignScore ex u F j s t g).2.1 = (F.single s t g).1 := by
    intro ex u F j hj s t g
    cases j with
    | ndt => rfl
    | icpPM => rfl
    | icpFast => rfl
    | ndtGicp => exact absurd rfl hj
  have : withMatcher cfg reg expNeg useNdt E k = withMatcher cfg reg expNeg' useNdt' E' k' := by
    unfold withMatcher
    congr 1
    funext target source guess
    rw [h1 expNeg useNdt E k hk, h1 expNeg' useNdt' E' k' hk', hE]
  rw [this]

/-! ### runs -/

/-- A front end with clouds named by numbers, a key frame after a motion of two. -/
def lostCfg : FeCfg (Multiplicative Int) Nat :=
  { fastIcp := false, compensate := false, average := none, comp := fun _ c => .ok c, align := fun _ _ g => g,
    key := fun g => decide (2 ≤ g.toAdd), normals := fun _ => .ok false }

/-- A matcher that finds a displacement of 5 with a mean distance of 100, and whose first stage finds the same. -/
def lostEngine : MatchEngine (Multiplicative Int) Rat :=
  { single := fun _ _ _ => (Multiplicative.ofAdd 5, 100), ndtStage := fun _ _ _ => (Multiplicative.ofAdd 5, 100),
    gicpStage := fun _ _ _ => (Multiplicative.ofAdd 5, 100) }

/-- Every cloud has points. -/
def lostReg (c : Nat) : RegCloud := ⟨c, false, false, true⟩

/-- Poses of the stored frames and references of the placed clouds. -/
def lostRun (k : RegKind) (es : List (FeEvent (Multiplicative Int) Nat)) : List (Nat × Int) × List (Option Nat) :=
  match feRun (withMatcher lostCfg lostReg (fun x : Rat => 1 / (1 + x)) true lostEngine k) es (feInit 0) with
  | .ok r => (r.1.frames.map (fun f => (f.1, f.2.toAdd)),
      r.2.map (fun e => match e with | .placed _ r _ _ _ => r | .late _ => none))
  | _ => ([], [])

/-- C130 is false: the matcher says that it failed (`Align` returns false, score 1/101), and yet the cloud is stored as a
key frame five away from the first one, where the prediction says one, and the next cloud is matched against it. -/
theorem C130_stored_fails :
    (alignScore (fun x : Rat => 1 / (1 + x)) true lostEngine .icpPM (lostReg 1) (lostReg 0) (Multiplicative.ofAdd 1)).1 = false ∧
      lostRun .icpPM [.arrive 0 10, .round 1, .arrive 1 11, .round (Multiplicative.ofAdd 1), .arrive 2 12, .round (Multiplicative.ofAdd 2)] =
        ([(0, 0), (1, 5), (2, 10)], [none, some 0, some 1]) := by
  decide +kernel

/-- C130 is false also where the matcher gives up: the cloud placed by prediction alone, four away, is stored as a key
frame and the next cloud is matched against it. -/
theorem C130_predicted_fails :
    (alignScore (fun x : Rat => 1 / (1 + x)) true lostEngine .ndtGicp (lostReg 1) (lostReg 0) (Multiplicative.ofAdd 4)).1 = false ∧
      lostRun .ndtGicp [.arrive 0 10, .round 1, .arrive 1 11, .round (Multiplicative.ofAdd 4), .arrive 2 12, .round (Multiplicative.ofAdd 4)] =
        ([(0, 0), (1, 4)], [none, some 0, some 1]) := by
  decide +kernel

/-- The hypotheses of `C130_predicted_partial` are met: after the first cloud, a second one the matcher gives up on. -/
example : GivesUp true lostEngine .ndtGicp (lostReg 1) (lostReg 0) (Multiplicative.ofAdd 1) ∧
    lostRun .ndtGicp [.arrive 0 10, .round 1, .arrive 1 11, .round (Multiplicative.ofAdd 1)] = ([(0, 0)], [none, some 0]) := by
  refine ⟨⟨rfl, rfl, ?_⟩, ?_⟩
  · norm_num [lostEngine]
  · decide +kernel

/-- Two matchers as in `C130_ignored_fails`, one with perfect and one with hopeless distances: only the flags differ. -/
example : (alignScore (fun x : Rat => 1 / (1 + x)) true lostEngine .icpPM (lostReg 1) (lostReg 0) 1).1 = false ∧
    (alignScore (fun x : Rat => 1 / (1 + x)) true { lostEngine with single := fun _ _ _ => (Multiplicative.ofAdd 5, 0) }
      .icpPM (lostReg 1) (lostReg 0) 1).1 = true := by
  decide +kernel

end Verif
