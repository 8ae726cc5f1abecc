import Verif.Model.CloudGeom
namespace Verif.Spec
variable {R : Type _} [CommRing R]

/-- The last row is (0,0,0,1). -/
def IsAffine (T : Mat4 R) : Prop := T 3 0 = 0 ∧ T 3 1 = 0 ∧ T 3 2 = 0 ∧ T 3 3 = 1

/-- The rotation (linear) part applied to a direction, written out. -/
def rotate (T : Mat4 R) (v : Vec3 R) : Vec3 R :=
  ⟨T 0 0 * v.x + T 0 1 * v.y + T 0 2 * v.z,
   T 1 0 * v.x + T 1 1 * v.y + T 1 2 * v.z,
   T 2 0 * v.x + T 2 1 * v.y + T 2 2 * v.z⟩

/-- The translation part. -/
def translation (T : Mat4 R) : Vec3 R := ⟨T 0 3, T 1 3, T 2 3⟩

def vadd (a b : Vec3 R) : Vec3 R := ⟨a.x + b.x, a.y + b.y, a.z + b.z⟩

/-- Where a rigid motion takes a position. -/
def move (T : Mat4 R) (p : Vec3 R) : Vec3 R := vadd (rotate T p) (translation T)

def pos (p : InnerPoint R) : Vec3 R := ⟨p.x, p.y, p.z⟩

def dot (a b : Vec3 R) : R := a.x * b.x + a.y * b.y + a.z * b.z

/-- The columns of the linear part are orthonormal. -/
def IsRotation (T : Mat4 R) : Prop :=
  ∀ i j : Fin 3, T 0 i.castSucc * T 0 j.castSucc + T 1 i.castSucc * T 1 j.castSucc
      + T 2 i.castSucc * T 2 j.castSucc = if i = j then 1 else 0

end Verif.Spec
