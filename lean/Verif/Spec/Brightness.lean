import Verif.Model.Mrvm
import Verif.Spec.MapOrigin
/-! Specification for C143: clouds and maps with all brightness removed. Two of them have the same shape if they are equal then. -/
namespace Verif.Spec
section
variable {R : Type} [Field R] [LinearOrder R]

/-- A point, a cloud, and a filter holding a cloud, with all brightness removed. -/
def dimPoint (p : InnerPoint R) : InnerPoint R := { p with intensity := 0 }
def dimCloud (a : InnerCloud R) : InnerCloud R := { a with points := a.points.map dimPoint }
def dimState (st : FState R) : FState R := { st with input := st.input.map dimCloud }

/-- Two clouds whose points are at the same places, in the same order, and were taken at the same times. -/
def SameShape (a b : InnerCloud R) : Prop := a.stamp = b.stamp ∧ a.points.length = b.points.length ∧
  ∀ (i : Nat) (p q : InnerPoint R), a.points[i]? = some p → b.points[i]? = some q → p.x = q.x ∧ p.y = q.y ∧ p.z = q.z ∧ p.factor = q.factor

/-- A member of a chain does the same to points of any brightness. -/
def BlindToLight (f : Stage R) : Prop := ∀ a out, f (dimCloud a) (dimCloud out) = dimCloud (f a out)
end

/-- A voxel, a map and a list of voxels with all brightness removed. -/
def dimCell (c : Cell) : Cell := { c with maxIntensity := 0, points := c.points.map dimPoint }
def dimMap (m : VMap) : VMap := fun v => (m v).map dimCell
def dimEntry (e : Voxel × Cell) : Voxel × Cell := (e.1, dimCell e.2)
def dimScan (c : Option (List (InnerPoint Rat)) × Vec3 Rat) : Option (List (InnerPoint Rat)) × Vec3 Rat := (c.1.map fun l => l.map dimPoint, c.2)
/-- Where a point of the coloured cloud is. -/
def greyPlace (p : GreyPoint) : Vec3 Rat := ⟨p.x, p.y, p.z⟩
end Verif.Spec
