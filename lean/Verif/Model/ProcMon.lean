import Verif.Model.MultiTraj
import Verif.Model.Floats
/-! The process monitor of a build with profiling (common/performance/process_info.cc): it reads files of
`/proc`, works out the share of the processor and writes a line per second to a log.

The files are texts without NUL characters. `none` stands for a file that cannot be opened. -/
namespace Verif

/-- What repeated calls of `fgets` with a buffer for `room` characters return: a line with its end, or a
full buffer. `left` is the room left and `cur` what has been read of the current line. -/
def chunksFrom (room : ℕ) : ℕ → List Char → List Char → List (List Char)
  | _, cur, [] => if cur = [] then [] else [cur]
  | left, cur, c :: cs =>
    if c = '\n' ∨ left ≤ 1 then (cur ++ [c]) :: chunksFrom room room [] cs
    else chunksFrom room (left - 1) (cur ++ [c]) cs

/-- All lines of a file. -/
def chunks (room : ℕ) (text : List Char) : List (List Char) := chunksFrom room room [] text

/-- common/performance/process_info.cc:64-80 (`GetItems`), the loop: the text after the blank number
`item - 1`. -/
def getItemsFrom (item : ℕ) : ℕ → List Char → List Char
  | _, [] => []
  | count, c :: cs =>
    if c = ' ' then if count + 1 = item - 1 then cs else getItemsFrom item (count + 1) cs
    else getItemsFrom item count cs

/-- common/performance/process_info.cc:64-80 (`GetItems`). -/
def getItems (buffer : List Char) (item : ℕ) : List Char := getItemsFrom item 0 buffer

/-- The text after a sign. -/
def afterSign : List Char → List Char
  | [] => []
  | c :: r => if c = '-' ∨ c = '+' then r else c :: r

/-- `%ld` (`bound` is 2^63) and `%d` (2^31) of `sscanf`: white space, a sign, digits. No value if there is
no number; a number that does not fit is undefined behaviour. -/
def scanNum (bound : Int) (s : List Char) : Outcome (Option (Int × List Char)) :=
  let t := s.dropWhile isSpaceChar
  if (afterSign t).takeWhile isDigitChar = [] then .ok none
  else if -bound ≤ signedDigits t ∧ signedDigits t < bound then
    .ok (some (signedDigits t, (afterSign t).dropWhile isDigitChar))
  else .ub

/-- `k` numbers in a row: `sscanf` stops at the first that is missing. -/
def scanNums (bound : Int) : ℕ → List Char → Outcome (List Int)
  | 0, _ => .ok []
  | k + 1, s => do
    match ← scanNum bound s with
    | none => return []
    | some (v, r) =>
      let vs ← scanNums bound k r
      return v :: vs

/-- `%s`: white space, then everything up to the next white space; and what follows. -/
def scanWord (s : List Char) : List Char × List Char :=
  let t := s.dropWhile isSpaceChar
  (t.takeWhile fun c => !isSpaceChar c, t.dropWhile fun c => !isSpaceChar c)

/-- The sum of four variables of type `uint64_t`: undefined if one of them was not read. -/
def sumFour : List Int → Outcome ℕ
  | [a, b, c, d] => .ok ((a + b + c + d) % 18446744073709551616).toNat
  | _ => .ub

/-- common/performance/process_info.cc:82-99 (`GetCpuTotalOccpy`) with the text of `/proc/stat`. The name
has room for 63 characters. -/
def cpuTotal : Option (List Char) → Outcome ℕ
  | none => .ok 0
  | some text =>
    match chunks 1023 text with
    | [] => .ub
    | buff :: _ =>
      let w := scanWord buff
      if w.1 = [] ∨ 63 < w.1.length then .ub
      else do
        let vs ← scanNums 9223372036854775808 4 w.2
        sumFour vs

/-- common/performance/process_info.cc:101-121 (`GetCpuProcOccpy`) with the text of `/proc/<pid>/stat`. The
number of the process is read as well, but not used. -/
def cpuProc : Option (List Char) → Outcome ℕ
  | none => .ok 0
  | some text =>
    match chunks 1023 text with
    | [] => .ub
    | buff :: _ => do
      let vs ← scanNums 9223372036854775808 4 (getItems buff 14)
      sumFour vs

/-- The difference of two variables of type `uint64_t`. -/
def sub64 (a b : ℕ) : ℕ := (((a : Int) - b) % 18446744073709551616).toNat

/-- common/performance/process_info.cc:134-140: the share in percent, from the counters before and after. The
numbers become `double`, the result `float`. -/
def cpuShare (total1 proc1 total2 proc2 : ℕ) : ℚ :=
  if sub64 total2 total1 = 0 then 0
  else toF32 (toF64 (toF64 (100 * toF64 (sub64 proc2 proc1)) / toF64 (sub64 total2 total1)))

/-- The variables of `ProcStatus` (common/performance/process_info.cc:44-50) that are filled from a file;
`none` until they are. -/
structure ProcVars where
  name : Option (List Char) := none
  vm : Option Int := none
  mem : Option Int := none
  threads : Option Int := none
deriving DecidableEq

/-- `strstr`. -/
def strStr (needle : List Char) : List Char → Bool
  | [] => needle.isPrefixOf []
  | c :: cs => needle.isPrefixOf (c :: cs) || strStr needle cs

/-- `sscanf(line, "%s %d", line_name, &var)`: `var` keeps its value if there is no number. -/
def scanVar (line : List Char) (old : Option Int) : Outcome (Option Int) :=
  let w := scanWord line
  if 63 < w.1.length then .ub
  else if w.1 = [] then .ok old
  else do
    match ← scanNum 2147483648 w.2 with
    | none => return old
    | some (v, _) => return some v

/-- `sscanf(line, "%s %s", line_name, name)`; the name has room for 255 characters. -/
def scanName (line : List Char) (old : Option (List Char)) : Outcome (Option (List Char)) :=
  let w := scanWord line
  let v := scanWord w.2
  if 63 < w.1.length ∨ 255 < v.1.length then .ub
  else if w.1 = [] ∨ v.1 = [] then .ok old
  else .ok (some v.1)

/-- common/performance/process_info.cc:155-166: one line of the file. -/
def statusLine (st : ProcVars) (line : List Char) : Outcome ProcVars :=
  if strStr "Name:".toList line then do
    let v ← scanName line st.name
    return { st with name := v }
  else if strStr "VmSize:".toList line then do
    let v ← scanVar line st.vm
    return { st with vm := v }
  else if strStr "VmRSS:".toList line then do
    let v ← scanVar line st.mem
    return { st with mem := v }
  else if strStr "Threads:".toList line then do
    let v ← scanVar line st.threads
    return { st with threads := v }
  else return st

/-- common/performance/process_info.cc:143-169 (`GetProcStatus`), the lines of an open file. -/
def statusLines : ProcVars → List (List Char) → Outcome ProcVars
  | st, [] => .ok st
  | st, l :: ls => do
    let st ← statusLine st l
    statusLines st ls

/-- What the files hold in one turn of the monitor: the counters before and after the pause of a second, and
the status. -/
structure MonTurn where
  total1 : Option (List Char)
  proc1 : Option (List Char)
  total2 : Option (List Char)
  proc2 : Option (List Char)
  status : Option (List Char)

/-- A line of the log (common/performance/process_info.cc:203-206): share, memory, virtual memory. -/
structure MonLine where
  share : ℚ
  mem : Int
  vm : Int
deriving DecidableEq

/-- Writing a line: undefined if a variable was never filled. -/
def monLine (share : ℚ) (st : ProcVars) : Outcome MonLine :=
  match st.mem, st.vm with
  | some m, some v => .ok ⟨share, m, v⟩
  | _, _ => .ub

/-- common/performance/process_info.cc:123-141 (`GetProcCpu`). -/
def procCpu (t : MonTurn) : Outcome ℚ := do
  let t1 ← cpuTotal t.total1
  let p1 ← cpuProc t.proc1
  let t2 ← cpuTotal t.total2
  let p2 ← cpuProc t.proc2
  return cpuShare t1 p1 t2 p2

/-- common/performance/process_info.cc:196-207: the turns of the loop, with an open log file. A turn whose
status file cannot be opened writes nothing. -/
def monTurns : ProcVars → List MonTurn → Outcome (List MonLine)
  | _, [] => .ok []
  | st, t :: ts => do
    let share ← procCpu t
    match t.status with
    | none => monTurns { st with name := some [] } ts
    | some text =>
      let st ← statusLines { st with name := some [] } (chunks 511 text)
      let l ← monLine share st
      let ls ← monTurns st ts
      return l :: ls

/-- common/performance/process_info.cc:171-211 (`Run`): the name of the log file needs the name of the process
from a first reading. The lines of the log. -/
def monRun (first : Option (List Char)) (ts : List MonTurn) : Outcome (List MonLine) :=
  match first with
  | none => .ub
  | some text => do
    let st ← statusLines {} (chunks 511 text)
    match st.name with
    | none => .ub
    | some _ => monTurns st ts

end Verif
