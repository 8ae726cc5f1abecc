import Verif.Model.EndToEnd
import Verif.Spec.FrontEnd
/-! What the saved map of a run should be made of. -/
namespace Verif.Spec
open Verif
variable {G P C : Type} [Group G]

/-- The points of the first `m` key frames, each moved by the pose `F` gives it. -/
def mapPoints (act : G → P → P) (pts : C → List P) (keys : List (C × G)) (m : Nat) (F : Nat → G) :
    List P :=
  (List.range m).flatMap fun k => ((keys[k]?).map fun a => (pts a.1).map (act (F k))).getD []

/-- `result` is the outcome of matching key frame `b` against the key frame `a` before it: the scan
matcher was asked to align the cloud of `b`, with the motion during the scan removed, to the cloud
of `a`, starting from a predicted pose, and its answer was kept as `result`. -/
def MatchedTo (cfg : FeCfg G C) (preds : List G) (a b : C × G) (result : G) : Prop :=
  ∃ pred ∈ preds, ∃ raw before source,
    Moved cfg (before⁻¹ * pred) raw source ∧
    Kept cfg (cfg.align a.1 source (a.2⁻¹ * pred)) (a.2⁻¹ * pred) result ∧
    Moved cfg (before⁻¹ * b.2) raw b.1 ∧ cfg.key result = true

/-- Final poses of the key frames in groups of `n`: the first of group `j` is at `anchor j`, and each
further one is where the scan matcher put it relative to the one before. -/
structure Chained (cfg : FeCfg G C) (preds : List G) (keys : List (C × G)) (n m : Nat)
    (anchor : Nat → G) (F : Nat → G) : Prop where
  enough : m ≤ keys.length
  first : ∀ j, j * n < m → F (j * n) = anchor j
  next : ∀ k (a b : C × G), k + 1 < m → (k + 1) % n ≠ 0 → keys[k]? = some a →
    keys[k + 1]? = some b → ∃ result, MatchedTo cfg preds a b result ∧ F (k + 1) = F k * result

/-- The points in the files of the directly saved map. -/
def filePoints : List (MapFile P) → List P
  | [] => []
  | .part _ c :: fs => c ++ filePoints fs
  | .whole c :: fs => c ++ filePoints fs
  | _ :: fs => filePoints fs

end Verif.Spec
