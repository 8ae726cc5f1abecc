import Verif.Spec.PathExport
import Verif.Model.CloudGeom
import Mathlib.Algebra.Field.Rat
/-! Reading a table of numbers in scientific notation, separated by blanks, as the KITTI tools do. -/
namespace Verif.Spec

/-- A whole number with a sign. -/
def readSigned : List Char → Option ℤ
  | '-' :: s => (digitsVal s 0).map fun n => -(n : ℤ)
  | '+' :: s => (digitsVal s 0).map fun n => (n : ℤ)
  | _ => none

/-- A number without a sign: decimal, optionally times a power of ten. -/
def readSciUnsigned (s : List Char) : Option ℚ :=
  match cutAt 'e' s with
  | [a] => readUnsigned a
  | [a, b] => do
    let v ← readUnsigned a
    let k ← readSigned b
    return v * (10 : ℚ) ^ k
  | _ => none

def readSci : List Char → Option ℚ
  | '-' :: s => (readSciUnsigned s).map (-·)
  | s => readSciUnsigned s

def readBlankCells : List (List Char) → Option (List ℚ)
  | [] => some []
  | c :: cs => do
    let v ← readSci c
    let vs ← readBlankCells cs
    return v :: vs

/-- All lines; each must be ended by a line feed. -/
def readBlankLines : List (List Char) → Option (List (List ℚ))
  | [] => none
  | [l] => if l = [] then some [] else none
  | l :: ls => do
    let v ← readBlankCells (cutAt ' ' l)
    let vs ← readBlankLines ls
    return v :: vs

/-- Lines of numbers separated by single blanks. -/
def readBlankTable (s : List Char) : Option (List (List ℚ)) := readBlankLines (cutAt '\n' s)

/-- Two numbers agree to eight significant digits. -/
def Close8 (a b : ℚ) : Prop := |a - b| ≤ |b| / 20000000

/-- The entry of row `i`, column `j` of a pose is number `4 i + j` of its line. -/
def RowMajor (line : List ℚ) (p : Mat4 ℚ) : Prop :=
  line.length = 12 ∧ ∀ (i : Fin 3) (j : Fin 4), ∃ v, line[4 * i.1 + j.1]? = some v ∧
    Close8 v (p i.castSucc j)

end Verif.Spec
