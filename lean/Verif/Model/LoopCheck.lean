import Mathlib.Data.Matrix.Mul
import Mathlib.Algebra.Order.Field.Basic
/-
back_end/loop_detector.cc:320-345 `LoopDetector::CheckResult`.

Poses are rigid: a 3x3 rotation and a translation; the inverse of a pose is then its transpose.
Numbers are from an ordered field; the norm of a translation is compared by its square; the norm of
the Euler angles of a rotation is a parameter.
-/
namespace Verif

structure Rigid (R : Type) where
  rot : Matrix (Fin 3) (Fin 3) R
  trans : Fin 3 → R

section
variable {R : Type} [Field R] [LinearOrder R] [IsStrictOrderedRing R]

/-- Product of two poses. -/
def Rigid.mul (a b : Rigid R) : Rigid R :=
  { rot := a.rot * b.rot
    trans := fun i => (a.rot.mulVec b.trans) i + a.trans i }

/-- `a.inverse() * b` for a rigid `a`. -/
def Rigid.between (a b : Rigid R) : Rigid R :=
  { rot := a.rot.transpose * b.rot
    trans := a.rot.transpose.mulVec (b.trans - a.trans) }

/-- Squared norm. -/
def sqNorm (v : Fin 3 → R) : R := dotProduct v v

structure LoopEdge (R : Type) where
  target : Nat                 -- close_pair_index.first
  transform : Rigid R

/-- 326-328, 331-332: where the edge places the newest frame. -/
def LoopEdge.source (pose : Nat → Rigid R) (e : LoopEdge R) : Rigid R :=
  (pose e.target).mul e.transform

/-- 334-343: one edge agrees with the first one. -/
def edgeAgrees (euler : Matrix (Fin 3) (Fin 3) R → R) (first e : Rigid R) : Bool :=
  !(decide ((1 / 4) ^ 2 < sqNorm (first.between e).trans) ||
    decide (1 / 50 < euler (first.between e).rot))

/-- 320-345. -/
def checkResult (euler : Matrix (Fin 3) (Fin 3) R → R) (pose : Nat → Rigid R) :
    List (LoopEdge R) → Bool
  | [] => false
  | [_] => false
  | e :: es => es.all fun e' => edgeAgrees euler (e.source pose) (e'.source pose)

end
end Verif
