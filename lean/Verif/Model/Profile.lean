import Verif.Model.Outcome
import Mathlib.Data.Rat.Floor
import Mathlib.Data.List.Sort
/-! The table of running times printed at the end (common/performance/simple_prof.h 42-100,
common/performance/simple_prof.cc 32-122), for a build with `ENABLE_PROFILING`.

`β`: names of blocks, `τ`: threads. The two unordered maps are lists in some order. Products of a time
with the factor of the unit are exact (in the program they are rounded to doubles). -/
namespace Verif

/-- `durations_` -/
abbrev ProfTable (β τ : Type) := List (β × List (τ × List Int))

section
variable {β τ : Type} [DecidableEq β] [DecidableEq τ]

/-- `map[key]`, applied to the value; a missing key is added with the value `d`. -/
def atKey {κ α : Type} [DecidableEq κ] (d : α) (f : α → α) (k : κ) : List (κ × α) → List (κ × α)
  | [] => [(k, f d)]
  | (k', a) :: r => if k' = k then (k', f a) :: r else (k', a) :: atKey d f k r

/-- `RegisterTimer`, simple_prof.cc 53-57 -/
def registerTimer (t : ProfTable β τ) (b : β) (th : τ) : ProfTable β τ :=
  atKey [] (atKey [] id th) b t

/-- Look a key up. -/
def getKey {κ α : Type} [DecidableEq κ] (k : κ) : List (κ × α) → Option α
  | [] => none
  | (k', a) :: r => if k' = k then some a else getKey k r

/-- A thread enters a block (`REGISTER_BLOCK`, simple_prof.h 108-111), or leaves it after `d` microseconds
(`~SimpleTimer`, 56-65: `push_back` through the pointer it was given). -/
inductive ProfEv (β τ : Type) where
  | enter (b : β) (th : τ)
  | leave (b : β) (th : τ) (d : Int)

def profStep (t : ProfTable β τ) : ProfEv β τ → Outcome (ProfTable β τ)
  | .enter b th => .ok (registerTimer t b th)
  | .leave b th d =>
    match (getKey b t).bind (getKey th) with
    | none => .ub
    | some _ => .ok (atKey [] (atKey [] (· ++ [d]) th) b t)

def profRun (t : ProfTable β τ) : List (ProfEv β τ) → Outcome (ProfTable β τ)
  | [] => .ok t
  | e :: es => do
    let t ← profStep t e
    profRun t es

/-- `StatisticDetails` -/
structure ProfStats where
  size : Nat
  average : Int
  max : Int
  min : Int
  sum : Int
  deriving DecidableEq

/-- To and from 64 bits. -/
def toU64 (x : Int) : Nat := (x % 2 ^ 64).toNat
def toI64 (x : Nat) : Int := if x < 2 ^ 63 then x else (x : Int) - 2 ^ 64

/-- `sum` in `int64_t`; going beyond is undefined. -/
def sum64 : Int → List Int → Outcome Int
  | s, [] => .ok s
  | s, d :: r => if -2 ^ 63 ≤ s + d ∧ s + d < 2 ^ 63 then sum64 (s + d) r else .ub

/-- `GetStatistics`, simple_prof.cc 37-51: `sum / size` divides a signed by an unsigned number, which makes both
unsigned; `back()` and `front()` of an empty vector are undefined. -/
def getStatistics (l : List Int) : Outcome ProfStats :=
  let s := l.insertionSort (fun a b => a ≤ b)
  match s.head?, s.getLast? with
  | some lo, some hi => do
    let sum ← sum64 0 s
    return { size := s.length, average := toI64 (toU64 sum / s.length), max := hi, min := lo, sum := sum }
  | _, _ => .ub

/-- `time_to_string`, simple_prof.cc 78-81: `none` is printed as `<1`. The conversion to `int` is undefined
outside its range. -/
def timeToString (factor : Rat) (t : Int) : Outcome (Option Int) :=
  let v : Rat := t * factor
  let i : Int := if 0 ≤ v then ⌊v⌋ else ⌈v⌉
  if -2 ^ 31 ≤ i ∧ i < 2 ^ 31 then .ok (if 1 ≤ i then some i else none) else .ub

/-- A line of the table. -/
structure ProfRow where
  times : Nat
  avg : Option Int
  sum : Option Int
  min : Option Int
  max : Option Int
  deriving DecidableEq

def profRow (factor : Rat) (l : List Int) : Outcome ProfRow := do
  let s ← getStatistics l
  let avg ← timeToString factor s.average
  let sum ← timeToString factor s.sum
  let min ← timeToString factor s.min
  let max ← timeToString factor s.max
  return ⟨s.size, avg, sum, min, max⟩

def profRows {κ : Type} (factor : Rat) : List (κ × List Int) → Outcome (List (κ × ProfRow))
  | [] => .ok []
  | (k, l) :: r => do
    let row ← profRow factor l
    let rows ← profRows factor r
    return (k, row) :: rows

/-- The lines printed by `~TimerManager`, 96-121; `merge`: all threads in one line. -/
def profReport (merge : Bool) (factor : Rat) (t : ProfTable β τ) : Outcome (List (β × ProfRow)) :=
  if merge then profRows factor (t.map fun e => (e.1, (e.2.map (·.2)).flatten))
  else profRows factor (t.flatMap fun e => e.2.map fun v => (e.1, v.2))

end
end Verif
