import Verif.Spec.MatchScore
import Mathlib.Algebra.Order.Field.Rat
import Mathlib.Tactic.NormNum
import Mathlib.Tactic.Linarith
/-! Property theorems C61 (acceptance of a match between submaps). -/
namespace Verif
open Spec
variable {T R : Type} [Field R] [LinearOrder R] [IsStrictOrderedRing R]

theorem pair_good (expNeg : R → R) (useNdt : Bool) (E : MatchEngine T R) (normalise : T → T)
    (minScore : R) (k : RegKind) (s t : RegCloud) (guess : T) (hs : GoodCloud s) (ht : GoodCloud t) :
    submapPairMatch expNeg useNdt E normalise minScore k s t guess =
      .ok (if minScore ≤ (alignScore expNeg useNdt E k s t guess).2.2 then
          normalise (alignScore expNeg useNdt E k s t guess).2.1 else guess,
        (alignScore expNeg useNdt E k s t guess).2.2) := by
  obtain ⟨s1, s2, s3⟩ := hs
  obtain ⟨t1, t2, t3⟩ := ht
  unfold submapPairMatch
  cases k <;>
  · simp only [regSetSource, regSetTarget, regSetBase, regSetPM, regAlign, s1, s2, t1, t2, t3,
      Outcome.bind_ok, Bool.false_eq_true, if_false, if_true, Outcome.pure_eq]
    split <;> rfl

/-- C61: for the three matchers other than plain NDT, with usable clouds, and a minimal score that
corresponds to the distance `limit`: the transform found is stored exactly when the mean distance
under it is at most `limit`; otherwise, and when the first stage gives up, the guess from scan
matching is kept. The stored score is at most one and is smaller for a larger distance. -/
theorem C61_decision_partial (expNeg : R → R) (he : Decreasing expNeg) (useNdt : Bool)
    (E : MatchEngine T R) (normalise : T → T) (limit : R) (hlim : limit < 10) (k : RegKind)
    (hk : k ≠ .ndt) (s t : RegCloud) (guess : T) (hs : GoodCloud s) (ht : GoodCloud t) :
    (¬ GivesUp useNdt E k s t guess → (Aligned useNdt E k s t guess).2 ≤ limit →
      submapPairMatch expNeg useNdt E normalise (expNeg limit) k s t guess =
        .ok (normalise (Aligned useNdt E k s t guess).1, expNeg (Aligned useNdt E k s t guess).2)) ∧
    (¬ GivesUp useNdt E k s t guess → limit < (Aligned useNdt E k s t guess).2 →
      submapPairMatch expNeg useNdt E normalise (expNeg limit) k s t guess =
        .ok (guess, expNeg (Aligned useNdt E k s t guess).2)) ∧
    (GivesUp useNdt E k s t guess →
      submapPairMatch expNeg useNdt E normalise (expNeg limit) k s t guess = .ok (guess, expNeg 10)) := by
  have hmono : ∀ d, expNeg limit ≤ expNeg d ↔ d ≤ limit := by
    intro d
    constructor
    · intro h
      by_contra hc
      exact absurd (he.anti _ _ (not_le.1 hc)) (not_lt.2 h)
    · intro h
      rcases lt_or_eq_of_le h with h | h
      · exact le_of_lt (he.anti _ _ h)
      · rw [h]
  have hval : ¬ GivesUp useNdt E k s t guess →
      (alignScore expNeg useNdt E k s t guess).2 =
        ((Aligned useNdt E k s t guess).1, expNeg (Aligned useNdt E k s t guess).2) := by
    intro hg
    cases k with
    | ndt => exact absurd rfl hk
    | icpPM => rfl
    | icpFast => rfl
    | ndtGicp =>
      unfold alignScore ndtGicpAlign Aligned
      dsimp only
      cases useNdt with
      | true =>
        have : (E.ndtStage s t guess).2 ≤ 1 := by
          by_contra hc
          exact hg ⟨rfl, rfl, not_le.1 hc⟩
        simp only [if_true]
        rw [if_pos this]
      | false =>
        simp only [Bool.false_eq_true, if_false]
        rw [if_pos (by rw [div_le_one (by norm_num)]; norm_num)]
  refine ⟨?_, ?_, ?_⟩
  · intro hg hd
    rw [pair_good expNeg useNdt E normalise _ k s t guess hs ht, hval hg]
    dsimp only
    rw [if_pos ((hmono _).2 hd)]
  · intro hg hd
    rw [pair_good expNeg useNdt E normalise _ k s t guess hs ht, hval hg]
    dsimp only
    rw [if_neg (by rw [hmono]; exact not_le.2 hd)]
  · intro hg
    have hv : (alignScore expNeg useNdt E k s t guess).2 = (guess, expNeg 10) := by
      obtain ⟨rfl, rfl, h1⟩ := hg
      unfold alignScore ndtGicpAlign
      dsimp only
      simp only [if_true]
      rw [if_neg (not_le.2 h1)]
    rw [pair_good expNeg useNdt E normalise _ k s t guess hs ht, hv]
    dsimp only
    rw [if_neg (by rw [hmono]; exact not_le.2 hlim)]

/-- What `Align` reports: failure exactly if libpointmatcher's mean distance is above the distance
whose score is 0.6, or if the first stage of NDT+GICP gives up. -/
theorem C61_reported (expNeg : R → R) (he : Decreasing expNeg) (limit : R)
    (hl : expNeg limit = 6 / 10) (useNdt : Bool) (E : MatchEngine T R) (k : RegKind) (s t : RegCloud)
    (guess : T) :
    (alignScore expNeg useNdt E k s t guess).1 = false ↔
      (k = .icpPM ∧ limit < (Aligned useNdt E k s t guess).2) ∨ GivesUp useNdt E k s t guess := by
  cases k with
  | ndt => simp [alignScore, GivesUp]
  | icpFast => simp [alignScore, GivesUp]
  | icpPM =>
    simp only [alignScore, GivesUp, Aligned, true_and, reduceCtorEq, false_and, or_false,
      decide_eq_false_iff_not, not_le]
    rw [← hl]
    constructor
    · intro h
      by_contra hc
      rcases lt_or_eq_of_le (not_lt.1 hc) with h1 | h1
      · exact absurd h (not_lt.2 (he.anti _ _ h1).le)
      · rw [h1] at h; exact lt_irrefl _ h
    · intro h; exact he.anti _ _ h
  | ndtGicp =>
    simp only [alignScore, ndtGicpAlign, GivesUp, reduceCtorEq, false_and, false_or, true_and]
    cases useNdt with
    | true =>
      simp only [if_true]
      by_cases h : (E.ndtStage s t guess).2 ≤ 1
      · rw [if_pos h]; simp [not_lt.2 h]
      · rw [if_neg h]; simp [not_le.1 h]
    | false =>
      simp only [Bool.false_eq_true, if_false]
      rw [if_pos (by norm_num)]; simp

example : ∃ (e : Rat → Rat) (limit : Rat), Decreasing e ∧ e limit = 6 / 10 :=
  ⟨fun x => 1 - x, 4 / 10, ⟨by norm_num, fun x y h => by linarith⟩, by norm_num⟩

/-- C61 is false for plain NDT, whose score is the distance itself: whatever the minimal score
(positive), a perfect alignment is thrown away and one that is as bad as you like is stored. -/
theorem C61_ndt_fails (expNeg : R → R) (useNdt : Bool) (normalise : T → T) (minScore : R)
    (hm : 0 < minScore) (s t : RegCloud) (guess found : T) (hs : GoodCloud s) (ht : GoodCloud t) :
    (∀ E : MatchEngine T R, E.single s t guess = (found, 0) →
      submapPairMatch expNeg useNdt E normalise minScore .ndt s t guess = .ok (guess, 0)) ∧
    (∀ (E : MatchEngine T R) (d : R), minScore ≤ d → E.single s t guess = (found, d) →
      submapPairMatch expNeg useNdt E normalise minScore .ndt s t guess = .ok (normalise found, d)) := by
  constructor
  · intro E hE
    rw [pair_good expNeg useNdt E normalise _ .ndt s t guess hs ht]
    simp only [alignScore, hE]
    rw [if_neg (not_le.2 hm)]
  · intro E d hd hE
    rw [pair_good expNeg useNdt E normalise _ .ndt s t guess hs ht]
    simp only [alignScore, hE]
    rw [if_pos hd]

/-- C61 is false for an empty submap: with any matcher other than the fast ICP the program stops or
reads a value that was never written. -/
theorem C61_empty_fails (expNeg : R → R) (useNdt : Bool) (E : MatchEngine T R) (normalise : T → T)
    (minScore : R) (k : RegKind) (hk : k ≠ .icpFast) (s t : RegCloud) (guess : T) (hs : s.empty = true)
    (ht : GoodCloud t) :
    submapPairMatch expNeg useNdt E normalise minScore k s t guess = .ub ∨
    submapPairMatch expNeg useNdt E normalise minScore k s t guess = .abort := by
  obtain ⟨t1, t2, t3⟩ := ht
  unfold submapPairMatch
  cases k with
  | icpFast => exact absurd rfl hk
  | ndt => left; simp [regSetSource, regSetTarget, regSetBase, regAlign, hs, t1]
  | ndtGicp => left; simp [regSetSource, regSetTarget, regSetBase, regAlign, hs, t1]
  | icpPM => right; simp [regSetSource, regSetTarget, regSetPM, regAlign, hs, t1, t2]

-- usable clouds and a decreasing score exist
example : GoodCloud ⟨0, false, false, true⟩ := ⟨rfl, rfl, rfl⟩
example : Decreasing (fun x : Rat => 1 - x) := ⟨by norm_num, fun x y h => by
  show 1 - y < 1 - x
  linarith⟩
example : submapPairMatch (fun x : Rat => 1 - x) true
    ⟨fun _ _ _ => (7, 1 / 10), fun _ _ _ => (5, 1 / 2), fun _ _ g => (g + 1, 1 / 5)⟩ (fun t => t) (7 / 10) .ndtGicp
    ⟨0, false, false, true⟩ ⟨1, false, false, true⟩ (3 : Nat) = .ok (6, 1 - 1 / 5) := by
  rw [pair_good _ _ _ _ _ _ _ _ _ ⟨rfl, rfl, rfl⟩ ⟨rfl, rfl, rfl⟩]
  simp only [alignScore, ndtGicpAlign, if_true]
  rw [if_pos (by norm_num)]
  rw [if_pos (by norm_num)]

end Verif
