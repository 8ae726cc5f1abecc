import Verif.Spec.NdtGrid
/-! Cells near a point. -/
namespace Verif.Spec

/-- The cube reached from `u` by a step. -/
def shiftCube (u d : Fin 3 → Int) : Fin 3 → Int := fun i => u i + d i

/-- Two cubes are the same or share a face. -/
def FaceNeighbours (u v : Fin 3 → Int) : Prop := ∑ i, |u i - v i| ≤ 1

/-- Two cubes are the same or share a face, an edge or a corner. -/
def Touching (u v : Fin 3 → Int) : Prop := ∀ i, |u i - v i| ≤ 1

end Verif.Spec
