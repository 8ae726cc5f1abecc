import Verif.Model.Registrator
import Mathlib.Algebra.Order.Field.Basic
/-
The score of an alignment and what is done with it: registrators/ndt.cc:38-64, ndt_gicp.cc:55-112,
icp_pointmatcher.cc:104-149, icp_fast.cc:512-530, builder/map_builder.cc:399-446 `SubmapPairMatch`.

The iterative methods themselves are parameters: they take the two clouds and a guess and return a
transform and the mean (squared) distance of the matched points under it. `expNeg x` is
`std::exp(-x)`. Transforms are of any type; `normalise` is `NormalizeRotation`.
-/
namespace Verif

structure MatchEngine (T R : Type) where
  single : RegCloud → RegCloud → T → T × R      -- ndt, icpPM, icpFast: source, target, guess
  ndtStage : RegCloud → RegCloud → T → T × R    -- the first stage of ndtGicp
  gicpStage : RegCloud → RegCloud → T → T × R   -- the second stage of ndtGicp

section
variable {T R : Type} [Field R] [LinearOrder R]

/-- ndt_gicp.cc:78-111 : `use_ndt`, clouds, guess; success, transform, score. -/
def ndtGicpAlign (expNeg : R → R) (useNdt : Bool) (E : MatchEngine T R) (s t : RegCloud) (guess : T) :
    Bool × T × R :=
  let first : T × R := if useNdt then E.ndtStage s t guess else (guess, 9 / 10)
  if first.2 ≤ 1 then
    let q := E.gicpStage s t first.1
    (true, q.1, expNeg q.2)
  else (false, guess, expNeg 10)

/-- `Align` with both clouds present, followed by `GetFitnessScore` (interface.h:100). -/
def alignScore (expNeg : R → R) (useNdt : Bool) (E : MatchEngine T R) (k : RegKind) (s t : RegCloud)
    (guess : T) : Bool × T × R :=
  match k with
  | .ndt => (true, (E.single s t guess).1, (E.single s t guess).2)          -- ndt.cc:58-63
  | .icpPM =>                                                               -- icp_pointmatcher.cc:141-148
    (decide (6 / 10 ≤ expNeg (E.single s t guess).2), (E.single s t guess).1,
      expNeg (E.single s t guess).2)
  | .icpFast => (true, (E.single s t guess).1, expNeg (E.single s t guess).2)   -- icp_fast.cc:517-529
  | .ndtGicp => ndtGicpAlign expNeg useNdt E s t guess

/-- map_builder.cc:399-446 `SubmapPairMatch` with a new matcher: the transform stored in the target
submap and the score stored in the source submap. When `Align` refuses, the member `final_score_`
(interface.h:109) was never written, and reading it is undefined. -/
def submapPairMatch (expNeg : R → R) (useNdt : Bool) (E : MatchEngine T R) (normalise : T → T)
    (minScore : R) (k : RegKind) (source target : RegCloud) (guess : T) : Outcome (T × R) := do
  let st ← regSetSource k ⟨none, none⟩ (some source)
  let st ← regSetTarget k st (some target)
  let used ← regAlign k st
  match used with
  | none => .ub
  | some (s, t) =>
    let r := alignScore expNeg useNdt E k s t guess
    if minScore ≤ r.2.2 then return (normalise r.2.1, r.2.2) else return (guess, r.2.2)

end
end Verif
