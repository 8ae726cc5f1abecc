import Verif.Model.Lum
namespace Verif.Spec

/-- The clouds where the given poses put them. -/
def placed {P T : Type} (act : T → P → P) (frames : List (ViewFrame P T)) : List (List P) :=
  frames.map fun f => f.cloud.map (act f.pose)

/-- The pairs that are known for the clouds `a` and `b`: the ones found between the clouds where the given poses
put them, if the first is added before the second and there are three or more; otherwise what was known before. -/
def pairsOf {P : Type} (corr : List P → List P → List PointPair) (M : List (List P))
    (before : Nat → Nat → Option (List PointPair)) (a b : Nat) : Option (List PointPair) :=
  match M[a]?, M[b]? with
  | some s, some t => if a < b ∧ 3 ≤ (corr t s).length then some (corr t s) else before a b
  | _, _ => before a b

/-- Pairs name points of the two clouds they were found for. -/
def PairsInside {P : Type} (corr : List P → List P → List PointPair) : Prop :=
  ∀ t s, ∀ p ∈ corr t s, p.query < s.length ∧ p.mate < t.length

end Verif.Spec
