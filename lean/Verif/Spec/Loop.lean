import Verif.Model.Loop
/-! Vocabulary for C37, C38. -/
namespace Verif.Spec
open Verif

/-- No two consecutive frames without candidates. -/
def NoTwoMisses (h : List Bool) : Prop := ¬ [false, false] <:+: h

/-- For the frames on which detection was done: whether there was a candidate. -/
def hits (rs : List LoopResult) : List Bool :=
  (rs.filter (·.considered)).map fun r => !r.pairs.isEmpty

end Verif.Spec
