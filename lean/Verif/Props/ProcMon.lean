import Verif.Proofs.ProcMon
/-! C97: the log of the process monitor. -/
namespace Verif
open Spec

/-- **C97.** The time of a process is the sum of the fields 14 to 17 of its file, if its name has no blank. -/
theorem C97_process_time_partial (text name : List Char) (f u s cu cs : ℕ) (h : ProcFile text name f u s cu cs)
    (hname : ' ' ∉ name) : cpuProc (some text) = .ok ((u + s + cu + cs) % 2 ^ 64) := cpuProc_file h hname

/-- **C97 (negation).** With a blank in the name the fields are counted wrongly: page faults are taken for
time and the system time of children is left out. -/
theorem C97_process_time_fails (text a b : List Char) (f u s cu cs : ℕ) (h : ProcFile text (a ++ ' ' :: b) f u s cu cs)
    (ha : ' ' ∉ a) (hb : ' ' ∉ b) : cpuProc (some text) = .ok ((f + u + s + cu) % 2 ^ 64) := cpuProc_blank h ha hb

/-- A file of a process. -/
theorem procFile_example (name : List Char) (hn : '\n' ∉ name) (hl : name.length ≤ 64) (f u s cu cs : ℕ)
    (hb : ∀ n ∈ [f, u, s, cu, cs], n < 2 ^ 63) :
    ProcFile (decNat 4711 ++ ' ' :: name ++ ' ' :: wordsText (List.replicate 10 ['0']) ++ numbersText [f, u, s, cu, cs] ++ ['2', '0', '\n'])
      name f u s cu cs := by
  refine ⟨⟨4711, List.replicate 10 ['0'], ['2', '0', '\n'], rfl, rfl, ?_, ?_⟩, hn, hb⟩
  · intro w hw
    rw [List.eq_of_mem_replicate hw]
    decide
  · have h1 := decNat_length_le 3 4711 (by norm_num)
    have h2 : (wordsText (List.replicate 10 ['0'])).length = 20 := by decide
    simp only [List.length_append, List.length_cons]
    omega

/-- Two names, the same times: the name decides what is read. -/
example : (∃ text, ProcFile text "(static_mapping)".toList 7 100 20 3 1 ∧ cpuProc (some text) = .ok 124) ∧
    ∃ text, ProcFile text "(static mapping)".toList 7 100 20 3 1 ∧ cpuProc (some text) = .ok 130 := by
  have h := fun name hn hl => procFile_example name hn hl 7 100 20 3 1 (by decide)
  exact ⟨⟨_, h _ (by decide) (by decide), C97_process_time_partial _ _ _ _ _ _ _ (h _ (by decide) (by decide)) (by decide)⟩,
    ⟨_, h ("(static".toList ++ ' ' :: "mapping)".toList) (by decide) (by decide), C97_process_time_fails _ _ _ _ _ _ _ _ (h _ (by decide) (by decide)) (by decide) (by decide)⟩⟩

/-- **C97.** The time of all processors is the sum of the first four counters of the file: user, nice, system
and idle. -/
theorem C97_total_time_partial (text : List Char) (user nice system idle : ℕ) (h : TotalFile text user nice system idle) :
    cpuTotal (some text) = .ok ((user + nice + system + idle) % 2 ^ 64) := cpuTotal_file h

/-- **C97 (negation).** Time spent waiting for disks or on interrupts is missing: two files that differ in the
fifth counter give the same total. -/
theorem C97_total_time_fails (user nice system idle wait wait' : ℕ) (h : ∀ n ∈ [user, nice, system, idle], n < 2 ^ 63) (rest : List Char) :
    cpuTotal (some ("cpu  ".toList ++ numbersText [user, nice, system, idle] ++ (numbersText [wait] ++ rest))) =
    cpuTotal (some ("cpu  ".toList ++ numbersText [user, nice, system, idle] ++ (numbersText [wait'] ++ rest))) := by
  rw [C97_total_time_partial _ user nice system idle ⟨⟨_, rfl⟩, h⟩, C97_total_time_partial _ user nice system idle ⟨⟨_, rfl⟩, h⟩]

example : ∃ text, TotalFile text 10 0 5 85 ∧ cpuTotal (some text) = .ok 100 :=
  have h : TotalFile ("cpu  ".toList ++ numbersText [10, 0, 5, 85] ++ ['9', '\n']) 10 0 5 85 := ⟨⟨_, rfl⟩, by decide⟩
  ⟨_, h, C97_total_time_partial _ _ _ _ _ h⟩

/-- **C97.** The share lies between 0 and 100 and is right up to the rounding to `float`, as long as no counter
runs backwards. -/
theorem C97_share_partial (t1 p1 t2 p2 : ℕ) (ht : t1 ≤ t2) (hp : p1 ≤ p2) (hle : p2 - p1 ≤ t2 - t1) (h64 : t2 < 2 ^ 64)
    (h64' : p2 < 2 ^ 64) : ShareOf (cpuShare t1 p1 t2 p2) (p2 - p1) (t2 - t1) := cpuShare_shareOf ht hp hle h64 h64'

example : cpuShare 1000 10 1400 110 = 25 := by decide +kernel

/-- **C97 (negation).** If the file of the process cannot be opened at the second reading its time counts as 0,
the difference wraps around and the share is beyond 10^18 percent. -/
theorem C97_share_fails : ∃ t1 p1 t2 : ℕ, t1 < t2 ∧ ∃ p2, cpuProc none = .ok p2 ∧ 10 ^ 18 < cpuShare t1 p1 t2 p2 :=
  ⟨1000, 10, 1400, by norm_num, 0, rfl, by decide +kernel⟩

/-- **C97.** With files as the kernel writes them and a name without blanks, every turn writes one line: the
sizes of the status file and the share. -/
theorem C97_log_partial (text name : List Char) (vm mem : ℕ) (ts : List MonTurn) (hfirst : StatusFile text name vm mem)
    (hts : ∀ t ∈ ts, OrdinaryTurn t) : ∃ ls, monRun (some text) ts = .ok ls ∧ List.Forall₂ RightLine ts ls := by
  obtain ⟨st, e, en, _, _⟩ := statusFile_read hfirst {}
  obtain ⟨ls, el, h⟩ := monTurns_right ts st hts
  refine ⟨ls, ?_, h⟩
  rw [monRun, e, Outcome.bind_ok, en]
  exact el

/-- A status file. -/
theorem statusFile_example (vm mem : ℕ) (hvm : vm < 2 ^ 31) (hmem : mem < 2 ^ 31) :
    StatusFile ([("Name".toList, "\tnode".toList), ("VmPeak".toList, "\t  900 kB".toList), ("VmSize".toList, ['\t'] ++ decNat vm ++ " kB".toList),
      ("VmRSS".toList, ['\t'] ++ decNat mem ++ " kB".toList), ("Threads".toList, ['\t'] ++ decNat 3 ++ [])].flatMap statusText) "node".toList vm mem := by
  have hd : ∀ n, n < 2 ^ 31 → (decNat n).length ≤ 10 := fun n h => decNat_length_le 9 n (lt_trans h (by norm_num))
  have hno : ∀ n c, isDigitChar c = false → c ∉ decNat n := fun n c h => decNat_no n c h
  refine ⟨_, rfl, (by show ["Name".toList, "VmPeak".toList, "VmSize".toList, "VmRSS".toList, "Threads".toList].Nodup; decide), ?_, ?_, ⟨_, by simp, ['\t'], " kB".toList, rfl, by decide, by decide, Or.inr ⟨"kB".toList, by decide⟩⟩,
    ⟨['\t'] ++ decNat mem ++ " kB".toList, by simp, ['\t'], " kB".toList, rfl, by decide, by decide, Or.inr ⟨"kB".toList, by decide⟩⟩,
    ⟨['\t'] ++ decNat 3 ++ [], 3, by simp, ⟨['\t'], [], rfl, by decide, by decide, Or.inl rfl⟩, by norm_num⟩,
    ⟨[], by simp, by decide, by decide, Or.inl rfl⟩, hvm, hmem⟩
  · intro l hl
    have h1 := hd vm hvm
    have h2 := hd mem hmem
    have h3 := hd 3 (by norm_num)
    simp only [List.mem_cons, List.not_mem_nil, or_false] at hl
    rcases hl with rfl | rfl | rfl | rfl | rfl
    · decide
    · decide
    · refine ⟨?_, (by show '\n' ∉ "VmSize".toList; decide), ?_, (by show ':' ∉ "VmSize".toList; decide), ?_, (by show "VmSize".toList.length < 60; decide)⟩
      · simp only [statusText, List.length_append, List.length_cons, List.length_nil]
        have e1 : "VmSize".toList.length = 6 := by decide
        have e2 : " kB".toList.length = 3 := by decide
        omega
      · simp only [List.mem_append, not_or]; exact ⟨⟨by decide, hno _ _ (by decide)⟩, by decide⟩
      · simp only [List.mem_append, not_or]; exact ⟨⟨by decide, hno _ _ (by decide)⟩, by decide⟩
    · refine ⟨?_, (by show '\n' ∉ "VmRSS".toList; decide), ?_, (by show ':' ∉ "VmRSS".toList; decide), ?_, (by show "VmRSS".toList.length < 60; decide)⟩
      · simp only [statusText, List.length_append, List.length_cons, List.length_nil]
        have e1 : "VmRSS".toList.length = 5 := by decide
        have e2 : " kB".toList.length = 3 := by decide
        omega
      · simp only [List.mem_append, not_or]; exact ⟨⟨by decide, hno _ _ (by decide)⟩, by decide⟩
      · simp only [List.mem_append, not_or]; exact ⟨⟨by decide, hno _ _ (by decide)⟩, by decide⟩
    · refine ⟨?_, by decide, ?_, by decide, ?_, by decide⟩
      · simp only [statusText, List.length_append, List.length_cons, List.length_nil]
        have e1 : "Threads".toList.length = 7 := by decide
        omega
      · simp only [List.mem_append, not_or]; exact ⟨⟨by decide, hno _ _ (by decide)⟩, by decide⟩
      · simp only [List.mem_append, not_or]; exact ⟨⟨by decide, hno _ _ (by decide)⟩, by decide⟩
  · intro l hl k hk
    have e : l.1 ∈ ["Name".toList, "VmPeak".toList, "VmSize".toList, "VmRSS".toList, "Threads".toList] := by
      simp only [List.mem_cons, List.not_mem_nil, or_false] at hl ⊢
      rcases hl with rfl | rfl | rfl | rfl | rfl <;> simp
    generalize l.1 = x at *
    simp only [List.mem_cons, List.not_mem_nil, or_false] at e hk
    rcases e with rfl | rfl | rfl | rfl | rfl <;> rcases hk with rfl | rfl | rfl | rfl <;> decide

/-- A turn of a process that used a quarter of the time. -/
example : ∃ first t, (∃ n v m, StatusFile first n v m) ∧ OrdinaryTurn t := by
  have hp := fun u (hb : ∀ n ∈ [0, u, 0, 0, 0], n < 2 ^ 63) => procFile_example "(node)".toList (by decide) (by decide) 0 u 0 0 0 hb
  have ht := fun u (hb : ∀ n ∈ [u, 0, 0, 100], n < 2 ^ 63) => (⟨⟨['\n'], rfl⟩, hb⟩ : TotalFile ("cpu  ".toList ++ numbersText [u, 0, 0, 100] ++ ['\n']) u 0 0 100)
  have hs := statusFile_example 9000 4000 (by norm_num) (by norm_num)
  exact ⟨_, ⟨_, _, _, _, _⟩, ⟨_, _, _, hs⟩, _, _, _, _, _, _, _, 100, 0, 0, 100, 200, 0, 0, 100, 0, 10, 0, 0, 0, 0, 35, 0, 0, 0, 9000, 4000, rfl,
    ht 100 (by decide), ht 200 (by decide), hp 10 (by decide), hp 35 (by decide), hs, by decide, by norm_num, by norm_num, by norm_num, by norm_num, by norm_num⟩

/-- **C97 (negation).** Without the lines of the sizes (a process that has ended but not been waited for has
none) the values written were never set, and so is the name if the file cannot be opened at first. -/
theorem C97_log_fails (t : MonTurn) (hshare : ∃ q, procCpu t = .ok q) (hstatus : t.status = some "Name:\tnode\nState:\tZ (zombie)\n".toList) :
    monRun (some "Name:\tnode\nState:\tZ (zombie)\n".toList) [t] = .ub ∧ ∀ ts, monRun none ts = .ub := by
  refine ⟨?_, fun ts => rfl⟩
  obtain ⟨q, hq⟩ := hshare
  have e : ∀ st : ProcVars, statusLines st (chunks 511 "Name:\tnode\nState:\tZ (zombie)\n".toList) = .ok { st with name := some "node".toList } := by
    intro st
    rw [show chunks 511 "Name:\tnode\nState:\tZ (zombie)\n".toList = ["Name:\tnode\n".toList, "State:\tZ (zombie)\n".toList] from by decide +kernel]
    have h1 : ∀ o, scanName "Name:\tnode\n".toList o = .ok (some "node".toList) := by
      intro o
      unfold scanName
      rw [show scanWord "Name:\tnode\n".toList = ("Name:".toList, "\tnode\n".toList) from by decide +kernel]
      dsimp only
      rw [show scanWord "\tnode\n".toList = ("node".toList, "\n".toList) from by decide +kernel]
      dsimp only
      rw [if_neg (by decide), if_neg (by decide)]
    rw [statusLines, statusLine, if_pos (by decide +kernel), h1, Outcome.bind_ok, Outcome.pure_eq, Outcome.bind_ok, statusLines, statusLine,
      if_neg (by decide +kernel), if_neg (by decide +kernel), if_neg (by decide +kernel), if_neg (by decide +kernel), Outcome.pure_eq,
      Outcome.bind_ok, statusLines]
  rw [monRun, e, Outcome.bind_ok]
  dsimp only
  rw [monTurns, hq, Outcome.bind_ok, hstatus]
  dsimp only
  rw [e, Outcome.bind_ok]
  rfl

/-- **C97.** Which numbers can be read: a negative one down to and including the smallest of its type, beyond
which the reading is undefined. -/
theorem C97_negative (bound n : ℕ) (b : List Char) (hb : AfterNum b) :
    (n ≤ bound → 0 < bound → scanNum bound ('-' :: (decNat n ++ b)) = .ok (some (-(n : Int), b))) ∧
    (bound < n → scanNum bound ('-' :: (decNat n ++ b)) = .ub) := by
  have hdw : ('-' :: (decNat n ++ b)).dropWhile isSpaceChar = '-' :: (decNat n ++ b) :=
    List.dropWhile_cons_of_neg (by decide)
  have has : afterSign ('-' :: (decNat n ++ b)) = decNat n ++ b := by rw [afterSign, if_pos (Or.inl rfl)]
  have hsd : signedDigits ('-' :: (decNat n ++ b)) = -(n : Int) := by
    rw [signedDigits, if_pos rfl, atoiDigits_stop b hb (decNat n) 0 (decNat_digits n), atoiDigits_decNat]
  have htk : (decNat n ++ b).takeWhile isDigitChar = decNat n := by
    rw [List.takeWhile_append_of_pos (decNat_digits n), (afterNum_takeDigits b hb).1, List.append_nil]
  have hdd : (decNat n ++ b).dropWhile isDigitChar = b := by
    rw [List.dropWhile_append_of_pos (decNat_digits n), (afterNum_takeDigits b hb).2]
  unfold scanNum
  dsimp only
  rw [hdw, has, hsd, htk, hdd, if_neg (decNat_ne_nil n)]
  constructor
  · intro h h0
    rw [if_pos ⟨by omega, by omega⟩]
  · intro h
    rw [if_neg (by omega)]

example : scanNum 2147483648 ('-' :: (decNat 2147483648 ++ [])) = .ok (some (-2147483648, [])) :=
  (C97_negative 2147483648 2147483648 [] (Or.inl rfl)).1 le_rfl (by norm_num)

/-- **C97.** If the statistics of the processors can be opened at neither reading the share is 0, whatever the
process has used. -/
theorem C97_missing (t : MonTurn) (h1 : t.total1 = none) (h2 : t.total2 = none) (p1 p2 : ℕ)
    (hp1 : cpuProc t.proc1 = .ok p1) (hp2 : cpuProc t.proc2 = .ok p2) : procCpu t = .ok 0 := by
  have e : cpuShare 0 p1 0 p2 = 0 := by rw [cpuShare, if_pos (by decide)]
  rw [procCpu, h1, h2, hp1, hp2]
  exact congrArg Outcome.ok e

example : procCpu ⟨none, none, none, none, none⟩ = .ok 0 := C97_missing _ rfl rfl 0 0 rfl rfl

/-- **C97.** The label in front of the counters has room for 63 characters: a longer one is written past its
buffer. -/
theorem C97_label (w rest : List Char) (u n s i : ℕ) (hw : w ≠ []) (hsp : ∀ c ∈ w, isSpaceChar c = false)
    (hl : w.length ≤ 900) (hb : ∀ k ∈ [u, n, s, i], k < 2 ^ 63) :
    (w.length ≤ 63 → cpuTotal (some (w ++ ' ' :: (numbersText [u, n, s, i] ++ rest))) = .ok ((u + n + s + i) % 2 ^ 64)) ∧
    (63 < w.length → cpuTotal (some (w ++ ' ' :: (numbersText [u, n, s, i] ++ rest))) = .ub) := by
  have hlen := numbersText_length [u, n, s, i] hb
  have hnl : '\n' ∉ w := fun h => absurd (hsp _ h) (by decide)
  obtain ⟨tail, cs, e⟩ := chunks_head 1023 (w ++ ' ' :: numbersText [u, n, s, i]) rest (by simp)
    (by rw [List.mem_append, not_or]
        exact ⟨hnl, fun h => by
          rcases List.mem_cons.1 h with h | h
          · exact absurd h (by decide)
          · exact numbersText_line _ h⟩)
    (by rw [List.length_append, List.length_cons]; simp only [List.length_cons, List.length_nil] at hlen; omega)
  rw [show w ++ ' ' :: (numbersText [u, n, s, i] ++ rest) = w ++ ' ' :: numbersText [u, n, s, i] ++ rest from by simp, cpuTotal, e]
  dsimp only
  have hsw := scanWord_noSpace w (' ' :: numbersText [u, n, s, i] ++ tail) hw hsp
    (by intro c hc; simp only [List.cons_append, List.head?_cons, Option.some.injEq] at hc; subst hc; decide) [] (by simp)
  rw [List.nil_append] at hsw
  rw [show w ++ ' ' :: numbersText [u, n, s, i] ++ tail = w ++ (' ' :: numbersText [u, n, s, i] ++ tail) from by simp, hsw]
  dsimp only
  constructor
  · intro h
    rw [if_neg (by rintro (h' | h'); exact hw h'; omega)]
    have := scanNums_numbers 9223372036854775808 tail [u, n, s, i] [' '] (by decide)
      (by intro x hx; have := hb x hx; omega)
    rw [show [u, n, s, i].length = 4 from rfl] at this
    simp only [List.cons_append, List.nil_append] at this ⊢
    rw [this, Outcome.bind_ok]
    exact sumFour_nat u n s i
  · intro h
    rw [if_pos (Or.inr h)]

example : cpuTotal (some (List.replicate 64 'c' ++ ' ' :: (numbersText [1, 2, 3, 4] ++ []))) = .ub :=
  (C97_label (List.replicate 64 'c') [] 1 2 3 4 (by simp) (by decide) (by decide) (by decide)).2 (by decide)

/-- **C97.** A line of a size without a number leaves the value of the last reading. -/
theorem C97_unreadable (st : ProcVars) (a r : List Char) (c : Char) (ha : a ≠ []) (hsp : ∀ x ∈ a, isSpaceChar x = true)
    (hc : isSpaceChar c = false ∧ isDigitChar c = false ∧ c ≠ '-' ∧ c ≠ '+') (hcol : ':' ∉ a ++ c :: r) :
    statusLine st (statusText ("VmRSS".toList, a ++ c :: r)) = .ok st ∧
    statusLine st (statusText ("VmSize".toList, a ++ c :: r)) = .ok st := by
  have hno : ∀ (k : List Char) (old : Option Int), (∀ x ∈ k, isSpaceChar x = false) → k.length < 60 →
      scanVar (statusText (k, a ++ c :: r)) old = .ok old := by
    intro k old hk hl
    have hs : ∀ x, ((a ++ c :: r) ++ ['\n']).head? = some x → isSpaceChar x = true := by
      intro x hx
      cases a with
      | nil => exact absurd rfl ha
      | cons y a =>
        simp only [List.cons_append, List.head?_cons, Option.some.injEq] at hx
        subst hx
        exact hsp _ (by simp)
    unfold scanVar
    rw [scanWord_line k _ hk hs]
    dsimp only
    rw [if_neg (by simp only [List.length_append, List.length_cons, List.length_nil]; omega), if_neg (by simp)]
    have has : afterSign (c :: (r ++ ['\n'])) = c :: (r ++ ['\n']) := by
      rw [afterSign, if_neg (by rintro (h | h); exact hc.2.2.1 h; exact hc.2.2.2 h)]
    have hn : scanNum 2147483648 ((a ++ c :: r) ++ ['\n']) = .ok none := by
      unfold scanNum
      dsimp only
      rw [List.append_assoc, List.dropWhile_append_of_pos hsp, List.cons_append,
        List.dropWhile_cons_of_neg (by rw [hc.1]; simp), has, List.takeWhile_cons_of_neg (by rw [hc.2.1]; simp), if_pos rfl]
    rw [hn, Outcome.bind_ok]
    rfl
  have key : ∀ (q k : List Char), ':' ∉ k → ¬ q <:+ k → strStr (q ++ [':']) (statusText (k, a ++ c :: r)) ≠ true := by
    intro q k hk hq h
    exact hq ((strStr_key q (k, a ++ c :: r) hk hcol).1 h)
  have keyp : ∀ (k : List Char), ':' ∉ k → strStr (k ++ [':']) (statusText (k, a ++ c :: r)) = true :=
    fun k hk => (strStr_key k (k, a ++ c :: r) hk hcol).2 (List.suffix_refl _)
  have n1 := key "Name".toList "VmRSS".toList (by decide) (by decide)
  have n2 := key "VmSize".toList "VmRSS".toList (by decide) (by decide)
  have n3 := key "Name".toList "VmSize".toList (by decide) (by decide)
  have p1 := keyp "VmRSS".toList (by decide)
  have p2 := keyp "VmSize".toList (by decide)
  rw [show "Name".toList ++ [':'] = "Name:".toList from by decide] at n1 n3
  rw [show "VmSize".toList ++ [':'] = "VmSize:".toList from by decide] at n2 p2
  rw [show "VmRSS".toList ++ [':'] = "VmRSS:".toList from by decide] at p1
  unfold statusLine
  rw [if_neg n1, if_neg n2, if_pos p1, if_neg n3, if_pos p2, hno _ _ (by decide) (by decide), hno _ _ (by decide) (by decide)]
  exact ⟨rfl, rfl⟩

example : statusLine ⟨none, some 7, some 9, none⟩ (statusText ("VmRSS".toList, "\t".toList ++ 'k' :: "B".toList)) =
    .ok ⟨none, some 7, some 9, none⟩ :=
  (C97_unreadable _ "\t".toList "B".toList 'k' (by decide) (by decide) (by decide) (by decide)).1

/-- **C97.** A turn in which the status cannot be opened writes no line, and the others write what they would
have written without it. -/
theorem C97_skipped (first : List Char) (t : MonTurn) (ts ts' : List MonTurn) (hs : t.status = none) (q : ℚ)
    (hq : procCpu t = .ok q) : monRun (some first) (ts ++ t :: ts') = monRun (some first) (ts ++ ts') := by
  have hname : ∀ (st : ProcVars) (l : List MonTurn), monTurns { st with name := some [] } l = monTurns st l := by
    intro st l
    cases l with
    | nil => rfl
    | cons x l => rw [monTurns, monTurns]
  have key : ∀ (ts : List MonTurn) (st : ProcVars), monTurns st (ts ++ t :: ts') = monTurns st (ts ++ ts') := by
    intro ts
    induction ts with
    | nil =>
      intro st
      rw [List.nil_append, List.nil_append, monTurns, hq, Outcome.bind_ok, hs]
      exact hname st ts'
    | cons x ts ih =>
      intro st
      rw [List.cons_append, List.cons_append, monTurns, monTurns]
      simp only [ih]
  unfold monRun
  dsimp only
  simp only [key]

example : ∃ t, t.status = none ∧ procCpu t = .ok 0 :=
  ⟨⟨none, none, none, none, none⟩, rfl, C97_missing _ rfl rfl 0 0 rfl rfl⟩

/-- **C97.** A counter of the process that runs backwards counts as if the process had used nearly 2^64 ticks. -/
theorem C97_wrapped (t1 p1 t2 p2 : ℕ) (h : p2 < p1) (h64 : p1 < 2 ^ 64) :
    cpuShare t1 p1 t2 p2 = cpuShare t1 0 t2 (2 ^ 64 + p2 - p1) := by
  have e : sub64 p2 p1 = sub64 (2 ^ 64 + p2 - p1) 0 := by
    unfold sub64
    norm_num at h64 ⊢
    omega
  unfold cpuShare
  rw [e]

example : cpuShare 1000 10 1400 9 = cpuShare 1000 0 1400 (2 ^ 64 - 1) := C97_wrapped _ _ _ _ (by norm_num) (by norm_num)

/-- **C97.** A line of the name without a name leaves the name of the last reading. -/
theorem C97_unnamed (st : ProcVars) (a : List Char) (hsp : ∀ x ∈ a, isSpaceChar x = true) :
    statusLine st (statusText ("Name".toList, a)) = .ok st := by
  have hs : ∀ x, (a ++ ['\n']).head? = some x → isSpaceChar x = true := by
    intro x hx
    have : x ∈ a ++ ['\n'] := List.mem_of_mem_head? hx
    rcases List.mem_append.1 this with h | h
    · exact hsp x h
    · rw [List.mem_singleton.1 h]
      decide
  have hw : scanWord (a ++ ['\n']) = ([], []) := by
    unfold scanWord
    have : (a ++ ['\n']).dropWhile isSpaceChar = [] := by
      rw [List.dropWhile_eq_nil_iff]
      intro x hx
      rcases List.mem_append.1 hx with h | h
      · exact hsp x h
      · rw [List.mem_singleton.1 h]
        decide
    rw [this]
    rfl
  have hn : scanName (statusText ("Name".toList, a)) st.name = .ok st.name := by
    unfold scanName
    rw [scanWord_line "Name".toList _ (by decide) hs]
    dsimp only
    rw [hw]
    dsimp only
    rw [if_neg (by decide), if_pos (Or.inr rfl)]
  have hp : strStr "Name:".toList (statusText ("Name".toList, a)) = true := by
    simp [statusText, strStr]
  rw [statusLine, if_pos hp, hn]
  rfl

example (st : ProcVars) : statusLine st "Name:\t\n".toList = .ok st := C97_unnamed st ['\t'] (by decide)

end Verif
