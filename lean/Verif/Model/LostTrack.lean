import Verif.Model.FrontEnd
import Verif.Model.MatchScore
/-
The front end with one of the matchers of the program: builder/map_builder.cc:310-334, 383-384 with registrators/*.cc `Align`.
`Align` returns a success flag and leaves a score; the loop reads neither (333; the score is passed at 383-384 to
`InsertFrameForSubmap`, which does not use it, 221-229).
-/
namespace Verif

variable {G C R : Type} [Field R] [LinearOrder R]

/-- map_builder.cc:310-334, 383-384: the matcher of the loop.  `reg` is what the matcher sees of a cloud. -/
def withMatcher (cfg : FeCfg G C) (reg : C → RegCloud) (expNeg : R → R) (useNdt : Bool) (E : MatchEngine G R) (k : RegKind) :
    FeCfg G C :=
  { cfg with align := fun target source guess => (alignScore expNeg useNdt E k (reg source) (reg target) guess).2.1 }

end Verif
