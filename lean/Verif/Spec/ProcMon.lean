import Verif.Model.ProcMon
/-! The files of `/proc` as the kernel writes them. -/
namespace Verif.Spec
open Verif

/-- Numbers, each followed by a blank. -/
def numbersText (ns : List ℕ) : List Char := ns.flatMap fun n => decNat n ++ [' ']

/-- Words, each followed by a blank. -/
def wordsText (ws : List (List Char)) : List Char := ws.flatMap fun w => w ++ [' ']

/-- `/proc/stat` begins with the counters of all processors: user, nice, system, idle and others. -/
def TotalFile (text : List Char) (user nice system idle : ℕ) : Prop :=
  (∃ rest, text = "cpu  ".toList ++ numbersText [user, nice, system, idle] ++ rest) ∧
    ∀ n ∈ [user, nice, system, idle], n < 2 ^ 63

/-- `/proc/<pid>/stat`: the number and the name of the process, ten words (fields 3 to 12), the page faults
of waited-for children (field 13) and four times (fields 14 to 17: own user and system time, those of
children). -/
def ProcFile (text name : List Char) (faults utime stime cutime cstime : ℕ) : Prop :=
  (∃ pid words rest, text = decNat pid ++ ' ' :: name ++ ' ' :: wordsText words ++
      numbersText [faults, utime, stime, cutime, cstime] ++ rest ∧ words.length = 10 ∧
      (∀ w ∈ words, ' ' ∉ w ∧ '\n' ∉ w) ∧ (decNat pid ++ ' ' :: name ++ ' ' :: wordsText words).length ≤ 900) ∧
    '\n' ∉ name ∧ ∀ n ∈ [faults, utime, stime, cutime, cstime], n < 2 ^ 63

/-- A line of `/proc/<pid>/status`. -/
def statusText (l : List Char × List Char) : List Char := l.1 ++ ':' :: l.2 ++ ['\n']

/-- White space and a number, and perhaps a unit. -/
def NumberValue (v : List Char) (n : ℕ) : Prop :=
  ∃ a b, v = a ++ decNat n ++ b ∧ a ≠ [] ∧ (∀ c ∈ a, isSpaceChar c = true) ∧ (b = [] ∨ ∃ r, b = ' ' :: r)

/-- `/proc/<pid>/status`: short lines with different keys, no colon in a value, and the sizes among them. -/
def StatusFile (text name : List Char) (vm mem : ℕ) : Prop :=
  ∃ ls : List (List Char × List Char), text = ls.flatMap statusText ∧ (ls.map Prod.fst).Nodup ∧
    (∀ l ∈ ls, (statusText l).length ≤ 255 ∧ '\n' ∉ l.1 ∧ '\n' ∉ l.2 ∧ ':' ∉ l.1 ∧ ':' ∉ l.2 ∧ l.1.length < 60) ∧
    (∀ l ∈ ls, ∀ k ∈ ["Name".toList, "VmSize".toList, "VmRSS".toList, "Threads".toList], k <:+ l.1 → l.1 = k) ∧
    (∃ v, ("VmSize".toList, v) ∈ ls ∧ NumberValue v vm) ∧ (∃ v, ("VmRSS".toList, v) ∈ ls ∧ NumberValue v mem) ∧
    (∃ v n, ("Threads".toList, v) ∈ ls ∧ NumberValue v n ∧ n < 2 ^ 31) ∧
    (∃ b, ("Name".toList, '\t' :: name ++ b) ∈ ls ∧ name ≠ [] ∧ (∀ c ∈ name, isSpaceChar c = false) ∧
      (b = [] ∨ ∃ r, b = ' ' :: r)) ∧ vm < 2 ^ 31 ∧ mem < 2 ^ 31

/-- The share is the part of the time of all processors, in percent, up to the rounding. -/
def ShareOf (share : ℚ) (used all : ℕ) : Prop :=
  0 ≤ share ∧ share ≤ 100 ∧ |share - 100 * used / all| ≤ 100 * used / all / 2 ^ 23

/-- The line `l` of the log is right for the turn `t`: the sizes are those of the status file, and the share is
that of the time the process used between the two readings in the time of all processors. -/
def RightLine (t : MonTurn) (l : MonLine) : Prop :=
  ∃ (text1 text2 proc1 proc2 status name sname : List Char) (u1 n1 s1 i1 u2 n2 s2 i2 f1 a1 b1 c1 d1 f2 a2 b2 c2 d2 vm mem : ℕ),
    t = ⟨some text1, some proc1, some text2, some proc2, some status⟩ ∧
    TotalFile text1 u1 n1 s1 i1 ∧ TotalFile text2 u2 n2 s2 i2 ∧ ProcFile proc1 name f1 a1 b1 c1 d1 ∧
    ProcFile proc2 name f2 a2 b2 c2 d2 ∧ StatusFile status sname vm mem ∧
    l.mem = mem ∧ l.vm = vm ∧ ShareOf l.share ((a2 + b2 + c2 + d2) - (a1 + b1 + c1 + d1)) ((u2 + n2 + s2 + i2) - (u1 + n1 + s1 + i1))

/-- The files of a turn are as the kernel writes them, the name of the process has no blank, and no counter
runs backwards or over; the process used no more than all processors had. -/
def OrdinaryTurn (t : MonTurn) : Prop :=
  ∃ (text1 text2 proc1 proc2 status name sname : List Char) (u1 n1 s1 i1 u2 n2 s2 i2 f1 a1 b1 c1 d1 f2 a2 b2 c2 d2 vm mem : ℕ),
    t = ⟨some text1, some proc1, some text2, some proc2, some status⟩ ∧
    TotalFile text1 u1 n1 s1 i1 ∧ TotalFile text2 u2 n2 s2 i2 ∧ ProcFile proc1 name f1 a1 b1 c1 d1 ∧
    ProcFile proc2 name f2 a2 b2 c2 d2 ∧ StatusFile status sname vm mem ∧ ' ' ∉ name ∧
    u1 + n1 + s1 + i1 ≤ u2 + n2 + s2 + i2 ∧ u2 + n2 + s2 + i2 < 2 ^ 64 ∧
    a1 + b1 + c1 + d1 ≤ a2 + b2 + c2 + d2 ∧ a2 + b2 + c2 + d2 < 2 ^ 64 ∧
    (a2 + b2 + c2 + d2) - (a1 + b1 + c1 + d1) ≤ (u2 + n2 + s2 + i2) - (u1 + n1 + s1 + i1)

end Verif.Spec
