import Verif.Model.Filters
/-! Specification for C141: a scan seen with another heading of the sensor. -/
namespace Verif.Spec
variable {R : Type} [Field R] [LinearOrder R]

/-- A point turned about the vertical axis through the sensor; `c` and `s` are cosine and sine of the angle. -/
def headPoint (c s : R) (p : InnerPoint R) : InnerPoint R := { p with x := c * p.x - s * p.y, y := s * p.x + c * p.y }

/-- A cloud with all its points turned. -/
def headCloud (c s : R) (a : InnerCloud R) : InnerCloud R := { a with points := a.points.map (headPoint c s) }

/-- A filter holding the turned cloud. -/
def headState (c s : R) (st : FState R) : FState R := { st with input := st.input.map (headCloud c s) }

/-- A member of a chain gives the turned cloud for the turned cloud. -/
def KeepsHeading (c s : R) (f : Stage R) : Prop := ∀ a out, f (headCloud c s a) (headCloud c s out) = headCloud c s (f a out)
end Verif.Spec
