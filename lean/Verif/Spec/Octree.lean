import Verif.Model.Octree
namespace Verif.Spec

/-- Closed axis-aligned cube with centre `c` and half edge `h`. -/
def InCube (c : Pt) (h : Rat) (p : Pt) : Prop :=
  (c.x - h ≤ p.x ∧ p.x ≤ c.x + h) ∧ (c.y - h ≤ p.y ∧ p.y ≤ c.y + h) ∧ (c.z - h ≤ p.z ∧ p.z ≤ c.z + h)

/-- Its interior. -/
def InsideCube (c : Pt) (h : Rat) (p : Pt) : Prop :=
  (c.x - h < p.x ∧ p.x < c.x + h) ∧ (c.y - h < p.y ∧ p.y < c.y + h) ∧ (c.z - h < p.z ∧ p.z < c.z + h)

end Verif.Spec
