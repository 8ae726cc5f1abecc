import Verif.Model.PathExport
import Mathlib.Data.Rat.Defs
/-! Reading a table of decimal numbers, as any spreadsheet does. -/
namespace Verif.Spec

/-- A text cut at every occurrence of `c`. -/
def cutAt (c : Char) : List Char → List (List Char)
  | [] => [[]]
  | d :: r =>
    if d = c then [] :: cutAt c r
    else match cutAt c r with
      | t :: ts => (d :: t) :: ts
      | [] => [[d]]

/-- The value of a row of digits. -/
def digitsVal : List Char → Nat → Option Nat
  | [], acc => some acc
  | c :: r, acc => if '0' ≤ c ∧ c ≤ '9' then digitsVal r (10 * acc + (c.toNat - '0'.toNat)) else none

/-- Digits, optionally a point and more digits. -/
def readUnsigned (s : List Char) : Option Rat :=
  match cutAt '.' s with
  | [a] => (digitsVal a 0).map fun n => (n : Rat)
  | [a, b] => do
    let n ← digitsVal a 0
    let m ← digitsVal b 0
    return (n : Rat) + (m : Rat) / 10 ^ b.length
  | _ => none

/-- A number with blanks around it and an optional sign. -/
def readNumber (s : List Char) : Option Rat :=
  match ((s.dropWhile (· = ' ')).reverse.dropWhile (· = ' ')).reverse with
  | [] => none
  | c :: r => if c = '-' then (readUnsigned r).map (-·) else readUnsigned (c :: r)

def readCells : List (List Char) → Option (List Rat)
  | [] => some []
  | c :: cs => do
    let v ← readNumber c
    let vs ← readCells cs
    return v :: vs

/-- All lines; each must be ended by a line feed. -/
def readLines : List (List Char) → Option (List (List Rat))
  | [] => none
  | [l] => if l = [] then some [] else none
  | l :: ls => do
    let v ← readCells (cutAt ',' l)
    let vs ← readLines ls
    return v :: vs

/-- A table: lines of numbers separated by commas. -/
def readTable (s : List Char) : Option (List (List Rat)) := readLines (cutAt '\n' s)

/-- All frames of a trajectory in order. -/
def allFrames (ss : List PathSubmap) : List PathPose := ss.flatMap fun s => s.frames

/-- The numbers of a pose. -/
def poseNumbers (q : PathPose) : List Rat := [q.tx, q.ty, q.tz, q.rx, q.ry, q.rz]

/-- Two numbers agree to half a unit of the sixth decimal. -/
def Close6 (a b : Rat) : Prop := |a - b| ≤ 1 / 2000000

end Verif.Spec
