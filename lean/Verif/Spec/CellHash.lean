import Verif.Model.CellHash

/-!
# What tables of cells should do
-/

namespace Verif.Spec
open Verif

/-- What was put under a cell, in order. -/
def putUnder {α : Type} (ops : List (TableOp α)) (k : CellKey) : List α :=
  ops.filterMap fun o => match o with
    | .push k' x => if k' = k then some x else none
    | .grow _ => none

/-- A table never shrinks to no bucket at all. -/
def GrowsOnly {α : Type} (ops : List (TableOp α)) : Prop := ∀ n, TableOp.grow n ∈ ops → 0 < n

/-- What is put into a table, in order. -/
def putsOf {α : Type} (ops : List (TableOp α)) : List (CellKey × α) :=
  ops.filterMap fun o => match o with
    | .push k x => some (k, x)
    | .grow _ => none

/-- The three coordinates of a cell fit in an `int`. -/
def FitsInt (v : Voxel) : Prop := ∀ c ∈ [v.x, v.y, v.z], -2147483648 ≤ c ∧ c ≤ 2147483647

/-- A cell given by three integers. -/
def cellAt (x y z : Int) : CellKey := [BitVec.ofInt 32 x, BitVec.ofInt 32 y, BitVec.ofInt 32 z]

/-- A pixel given by row and column. -/
def pixelAt (r c : Nat) : CellKey := [BitVec.ofNat 32 r, BitVec.ofNat 32 c]

end Verif.Spec
