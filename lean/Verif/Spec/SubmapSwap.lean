import Verif.Model.SubmapSwap
/-! Specification vocabulary for swapping submap clouds to disk. -/
namespace Verif.Spec

/-- The clouds submaps and frames were built with. -/
abbrev Built := CloudKey → Option BitsCloud

/-- The effect of a call on what has been built: a submap is built once. -/
def remember (m : Built) : SwapEv → Built
  | .build id c fs =>
    if (m (.submap id)).isSome then m
    else fun k =>
      match k with
      | .submap j => if j = id then some c else m k
      | .frame f =>
        if f.trajectory = id.trajectory ∧ f.submap = id.submap then
          (if f.frame < 0 then none else fs[f.frame.toNat]?)
        else m k
  | _ => m

/-- What has been built after a history. -/
def builtBy (es : List SwapEv) : Built := es.foldl remember (fun _ => none)

/-- All clouds are within the machine limits. -/
def SmallBuilds (maxPoints : Nat) (es : List SwapEv) : Prop :=
  ∀ id c fs, SwapEv.build id c fs ∈ es →
    ∀ d ∈ c :: fs, d.points.length < 2 ^ 64 ∧ d.points.length ≤ maxPoints

/-- Seconds of memory-manager ticks for a submap in a history. -/
def tickSum (id : SubmapId) : List SwapEv → Int
  | [] => 0
  | .tick j s :: es => (if j = id then s else 0) + tickSum id es
  | _ :: es => tickSum id es

end Verif.Spec
