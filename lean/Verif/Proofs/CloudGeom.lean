import Verif.Spec.CloudGeom
import Mathlib.Tactic.Ring
import Mathlib.Tactic.LinearCombination
import Mathlib.Algebra.BigOperators.Fin
namespace Verif
open Spec
variable {R : Type _} [CommRing R]

theorem homTimes_eq (T : Mat4 R) (p : Vec3 R) (i : Fin 4) :
    homTimes T p i = T i 0 * p.x + T i 1 * p.y + T i 2 * p.z + T i 3 := by
  simp [homTimes, Matrix.mulVec, dotProduct, Fin.sum_univ_four]

theorem top3_homTimes (T : Mat4 R) (p : Vec3 R) : top3 (homTimes T p) = move T p := by
  simp [top3, homTimes_eq, move, vadd, rotate, translation]

theorem pos_transformPoint (T : Mat4 R) (p : InnerPoint R) :
    pos (transformPoint T p) = move T (pos p) := by
  simp [pos, transformPoint, homTimes_eq, move, vadd, rotate, translation]

theorem move_one (p : Vec3 R) : move (1 : Mat4 R) p = p := by
  simp [move, vadd, rotate, translation, Matrix.one_apply]

theorem move_mul (A B : Mat4 R) (hA : IsAffine A) (p : Vec3 R) :
    move (B * A) p = move B (move A p) := by
  obtain ⟨h0, h1, h2, h3⟩ := hA
  simp only [move, vadd, rotate, translation, Matrix.mul_apply, Fin.sum_univ_four, h0, h1, h2, h3]
  ext <;> simp <;> ring

theorem transformPoint_eq_iff (p q : InnerPoint R) :
    p = q ↔ pos p = pos q ∧ p.intensity = q.intensity ∧ p.factor = q.factor := by
  cases p; cases q; simp [pos, and_assoc]

theorem foldl_push {α β : Type _} (f : β → InnerPoint α) (l : List β) (o : InnerCloud α) :
    l.foldl (fun o p => { o with points := o.points ++ [f p] }) o =
      { o with points := o.points ++ l.map f } := by
  induction l generalizing o with
  | nil => simp
  | cons a l ih => simp [ih]

theorem dot_rotate (T : Mat4 R) (h : IsRotation T) (a b : Vec3 R) :
    dot (rotate T a) (rotate T b) = dot a b := by
  have h00 := h 0 0; have h01 := h 0 1; have h02 := h 0 2
  have h11 := h 1 1; have h12 := h 1 2; have h22 := h 2 2
  simp at h00 h01 h02 h11 h12 h22
  simp only [dot, rotate]
  linear_combination (a.x*b.x) * h00 + (a.y*b.y) * h11 + (a.z*b.z)*h22 + (a.x*b.y+a.y*b.x)*h01
    + (a.x*b.z+a.z*b.x)*h02 + (a.y*b.z+a.z*b.y)*h12

end Verif
