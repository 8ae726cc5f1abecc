import Verif.Spec.ProcMon
import Verif.Proofs.MultiTraj
import Verif.Proofs.Seconds
import Verif.Proofs.PlaceFloat
import Verif.Proofs.Tools
import Verif.Proofs.AverageF
namespace Verif
open Spec

theorem chunksFrom_prefix (room : ℕ) (rest : List Char) : ∀ (p : List Char) (left : ℕ) (cur : List Char),
    '\n' ∉ p → p.length < left →
    chunksFrom room left cur (p ++ rest) = chunksFrom room (left - p.length) (cur ++ p) rest := by
  intro p
  induction p with
  | nil => intro left cur _ _; simp
  | cons c p ih =>
    intro left cur hn hl
    simp only [List.mem_cons, not_or, List.length_cons] at hn hl
    rw [List.cons_append, chunksFrom, if_neg (by rintro (h | h); exact hn.1 h.symm; omega),
      ih _ _ hn.2 (by omega)]
    simp only [List.length_cons, List.append_assoc, List.cons_append, List.nil_append]
    congr 1; omega

theorem chunksFrom_line (room : ℕ) (p rest : List Char) (cur : List Char) (left : ℕ) (hn : '\n' ∉ p)
    (hl : p.length < left) :
    chunksFrom room left cur (p ++ '\n' :: rest) = (cur ++ p ++ ['\n']) :: chunksFrom room room [] rest := by
  rw [chunksFrom_prefix room ('\n' :: rest) p left cur hn hl, chunksFrom, if_pos (Or.inl rfl)]

theorem chunksFrom_head (room : ℕ) : ∀ (rest : List Char) (left : ℕ) (cur : List Char), cur ≠ [] →
    ∃ tail cs, chunksFrom room left cur rest = (cur ++ tail) :: cs := by
  intro rest
  induction rest with
  | nil => intro left cur h; exact ⟨[], [], by rw [chunksFrom, if_neg h]; simp⟩
  | cons c rest ih =>
    intro left cur h
    rw [chunksFrom]
    split
    · exact ⟨[c], _, rfl⟩
    · obtain ⟨t, cs, e⟩ := ih (left - 1) (cur ++ [c]) (by simp)
      exact ⟨c :: t, cs, by rw [e]; simp⟩

theorem chunks_head (room : ℕ) (p rest : List Char) (hp : p ≠ []) (hn : '\n' ∉ p) (hl : p.length < room) :
    ∃ tail cs, chunks room (p ++ rest) = (p ++ tail) :: cs := by
  obtain ⟨t, cs, e⟩ := chunksFrom_head room rest (room - p.length) ([] ++ p) (by simpa using hp)
  exact ⟨t, cs, by unfold chunks; rw [chunksFrom_prefix room rest p room [] hn hl, e]; simp⟩

theorem chunks_lines (room : ℕ) (ls : List (List Char × List Char))
    (h : ∀ l ∈ ls, (statusText l).length ≤ room ∧ '\n' ∉ l.1 ∧ '\n' ∉ l.2) :
    chunks room (ls.flatMap statusText) = ls.map statusText := by
  induction ls with
  | nil => simp [chunks, chunksFrom]
  | cons l ls ih =>
    obtain ⟨hl, h1, h2⟩ := h l (by simp)
    have e : (l :: ls).flatMap statusText = (l.1 ++ ':' :: l.2) ++ '\n' :: ls.flatMap statusText := by
      simp [List.flatMap_cons, statusText]
    unfold chunks at ih ⊢
    rw [e, chunksFrom_line]
    · rw [ih (fun x hx => h x (by simp [hx]))]
      simp [statusText]
    · simp only [List.mem_append, List.mem_cons, not_or]
      exact ⟨h1, by decide, h2⟩
    · simp only [statusText, List.length_append, List.length_cons, List.length_nil] at hl ⊢
      omega

theorem decNat_noSpace (n : ℕ) : ∀ c ∈ decNat n, isSpaceChar c = false := by
  intro c hc
  obtain ⟨d, hd, rfl⟩ := decNat_chars n c hc
  exact (digitChar_plain d hd).1

theorem decNat_digits (n : ℕ) : ∀ c ∈ decNat n, isDigitChar c = true := by
  intro c hc
  obtain ⟨d, hd, rfl⟩ := decNat_chars n c hc
  exact isDigitChar_digit d hd

theorem decNat_no (n : ℕ) (c : Char) (h : isDigitChar c = false) : c ∉ decNat n := by
  intro hc
  rw [decNat_digits n c hc] at h
  exact absurd h (by simp)

theorem decNat_length_le : ∀ (k n : ℕ), n < 10 ^ (k + 1) → (decNat n).length ≤ k + 1 := by
  intro k
  induction k with
  | zero => intro n h; rw [decNat, if_pos (by omega)]; simp
  | succ k ih =>
    intro n h
    rw [decNat]
    split
    · simp
    · have := ih (n / 10) (by rw [pow_succ] at h; omega)
      simp only [List.length_append, List.length_cons, List.length_nil]
      omega

/-- What may follow a number. -/
def AfterNum (b : List Char) : Prop := b = [] ∨ ∃ r, b = ' ' :: r ∨ b = '\n' :: r

theorem atoiDigits_stop (b : List Char) (hb : AfterNum b) : ∀ (l : List Char) (acc : ℕ), (∀ c ∈ l, isDigitChar c = true) →
    atoiDigits (l ++ b) acc = atoiDigits l acc := by
  intro l
  induction l with
  | nil =>
    intro acc _
    rcases hb with rfl | ⟨r, rfl | rfl⟩
    · rfl
    · simp only [List.nil_append, atoiDigits]; rw [if_neg (by decide)]
    · simp only [List.nil_append, atoiDigits]; rw [if_neg (by decide)]
  | cons c l ih =>
    intro acc h
    simp only [List.cons_append, atoiDigits]
    rw [if_pos (h c (by simp)), ih _ (fun x hx => h x (by simp [hx])), if_pos (h c (by simp))]

theorem afterNum_takeDigits (b : List Char) (hb : AfterNum b) : b.takeWhile isDigitChar = [] ∧ b.dropWhile isDigitChar = b := by
  rcases hb with rfl | ⟨r, rfl | rfl⟩
  · exact ⟨rfl, rfl⟩
  · exact ⟨List.takeWhile_cons_of_neg (by decide), List.dropWhile_cons_of_neg (by decide)⟩
  · exact ⟨List.takeWhile_cons_of_neg (by decide), List.dropWhile_cons_of_neg (by decide)⟩

theorem scanNum_decNat (bound : Int) (a b : List Char) (n : ℕ) (ha : ∀ c ∈ a, isSpaceChar c = true)
    (hb : AfterNum b) (hn : (n : Int) < bound) :
    scanNum bound (a ++ decNat n ++ b) = .ok (some ((n : Int), b)) := by
  obtain ⟨d, r, hd, hnn⟩ := decNat_head n
  have hp := digitChar_plain d hd
  have hdw : (a ++ decNat n ++ b).dropWhile isSpaceChar = decNat n ++ b := by
    rw [List.append_assoc, List.dropWhile_append_of_pos ha, hnn, List.cons_append,
      List.dropWhile_cons_of_neg (by rw [hp.1]; simp)]
  have has : afterSign (decNat n ++ b) = decNat n ++ b := by
    rw [hnn, List.cons_append, afterSign, if_neg (by rintro (h | h); exact hp.2.1 h; exact hp.2.2.1 h)]
  have hsd : signedDigits (decNat n ++ b) = n := by
    have h1 := atoiDigits_stop b hb (decNat n) 0 (decNat_digits n)
    rw [atoiDigits_decNat] at h1
    rw [hnn, List.cons_append] at h1 ⊢
    unfold signedDigits
    dsimp only
    rw [if_neg hp.2.1, if_neg hp.2.2.1, h1]
  have htk : (decNat n ++ b).takeWhile isDigitChar = decNat n := by
    rw [List.takeWhile_append_of_pos (decNat_digits n), (afterNum_takeDigits b hb).1, List.append_nil]
  have hdd : (decNat n ++ b).dropWhile isDigitChar = b := by
    rw [List.dropWhile_append_of_pos (decNat_digits n), (afterNum_takeDigits b hb).2]
  unfold scanNum
  dsimp only
  rw [hdw, has, hsd, htk, hdd, if_neg (decNat_ne_nil n), if_pos ⟨by omega, hn⟩]

theorem scanNums_numbers (bound : Int) (tail : List Char) : ∀ (ns : List ℕ) (a : List Char),
    (∀ c ∈ a, isSpaceChar c = true) → (∀ n ∈ ns, (n : Int) < bound) →
    scanNums bound ns.length (a ++ numbersText ns ++ tail) = .ok (ns.map fun n => (n : Int)) := by
  intro ns
  induction ns with
  | nil => intro a _ _; rfl
  | cons n ns ih =>
    intro a ha h
    have e : a ++ numbersText (n :: ns) ++ tail = a ++ decNat n ++ ' ' :: (numbersText ns ++ tail) := by
      simp [numbersText, List.flatMap_cons]
    rw [e, List.length_cons, scanNums, scanNum_decNat bound a _ n ha (Or.inr ⟨_, Or.inl rfl⟩) (h n (by simp))]
    rw [Outcome.bind_ok]
    dsimp only
    have := ih [' '] (by intro c hc; simp at hc; subst hc; decide) (fun x hx => h x (by simp [hx]))
    simp only [List.cons_append, List.nil_append] at this
    rw [this, Outcome.bind_ok, Outcome.pure_eq]
    rfl

theorem numbersText_line (ns : List ℕ) : '\n' ∉ numbersText ns := by
  intro h
  simp only [numbersText, List.mem_flatMap, List.mem_append, List.mem_cons, List.not_mem_nil, or_false] at h
  obtain ⟨n, _, h | h⟩ := h
  · exact decNat_no n '\n' (by decide) h
  · exact absurd h (by decide)

theorem numbersText_length (ns : List ℕ) (h : ∀ n ∈ ns, n < 2 ^ 63) : (numbersText ns).length ≤ 20 * ns.length := by
  induction ns with
  | nil => simp [numbersText]
  | cons n ns ih =>
    have h1 := decNat_length_le 18 n (lt_trans (h n (by simp)) (by norm_num))
    have h2 := ih fun x hx => h x (by simp [hx])
    simp only [numbersText, List.flatMap_cons, List.length_append, List.length_cons, List.length_nil] at h2 ⊢
    omega

theorem sumFour_nat (a b c d : ℕ) : sumFour [(a : Int), b, c, d] = .ok ((a + b + c + d) % 2 ^ 64) := by
  unfold sumFour
  congr 1

theorem cpuTotal_file {text : List Char} {u n s i : ℕ} (h : TotalFile text u n s i) :
    cpuTotal (some text) = .ok ((u + n + s + i) % 2 ^ 64) := by
  obtain ⟨⟨rest, rfl⟩, hb⟩ := h
  have hl := numbersText_length [u, n, s, i] hb
  obtain ⟨tail, cs, e⟩ := chunks_head 1023 ("cpu  ".toList ++ numbersText [u, n, s, i]) rest (by simp)
    (by rw [List.mem_append, not_or]; exact ⟨by decide, numbersText_line _⟩)
    (by rw [List.length_append]; simp only [List.length_cons, List.length_nil] at hl; have : "cpu  ".toList.length = 5 := by decide
        omega)
  rw [cpuTotal, e]
  dsimp only
  have hw : scanWord ("cpu  ".toList ++ numbersText [u, n, s, i] ++ tail) =
      ("cpu".toList, [' ', ' '] ++ numbersText [u, n, s, i] ++ tail) := by
    rw [show "cpu  ".toList = ['c', 'p', 'u', ' ', ' '] from by decide, show "cpu".toList = ['c', 'p', 'u'] from by decide]
    unfold scanWord
    simp only [List.cons_append, List.nil_append]
    rw [List.dropWhile_cons_of_neg (by decide)]
    rw [List.takeWhile_cons_of_pos (by decide), List.takeWhile_cons_of_pos (by decide),
      List.takeWhile_cons_of_pos (by decide), List.takeWhile_cons_of_neg (by decide),
      List.dropWhile_cons_of_pos (by decide), List.dropWhile_cons_of_pos (by decide),
      List.dropWhile_cons_of_pos (by decide), List.dropWhile_cons_of_neg (by decide)]
  rw [hw]
  dsimp only
  rw [if_neg (by decide)]
  have := scanNums_numbers 9223372036854775808 tail [u, n, s, i] [' ', ' '] (by decide)
    (by intro x hx; have := hb x hx; omega)
  rw [show [u, n, s, i].length = 4 from rfl] at this
  rw [this, Outcome.bind_ok]
  exact sumFour_nat u n s i

theorem getItems_word (k : ℕ) (r : List Char) : ∀ w : List Char, ' ' ∉ w →
    getItemsFrom 14 k (w ++ ' ' :: r) = if k + 1 = 13 then r else getItemsFrom 14 (k + 1) r := by
  intro w
  induction w with
  | nil => intro _; rw [List.nil_append, getItemsFrom, if_pos rfl]
  | cons c w ih =>
    intro h
    simp only [List.mem_cons, not_or] at h
    rw [List.cons_append, getItemsFrom, if_neg (fun e => h.1 e.symm), ih h.2]

theorem getItems_words (r : List Char) : ∀ (ws : List (List Char)) (k : ℕ), (∀ w ∈ ws, ' ' ∉ w) → k + ws.length < 13 →
    getItemsFrom 14 k (wordsText ws ++ r) = getItemsFrom 14 (k + ws.length) r := by
  intro ws
  induction ws with
  | nil => intro k _ _; simp [wordsText]
  | cons w ws ih =>
    intro k h hk
    simp only [List.length_cons] at hk
    have e : wordsText (w :: ws) ++ r = w ++ ' ' :: (wordsText ws ++ r) := by simp [wordsText, List.flatMap_cons]
    rw [e, getItems_word k _ w (h w (by simp)), if_neg (by omega), ih (k + 1) (fun x hx => h x (by simp [hx])) (by omega)]
    rw [List.length_cons]; congr 1; omega

theorem wordsText_line (ws : List (List Char)) (h : ∀ w ∈ ws, '\n' ∉ w) : '\n' ∉ wordsText ws := by
  intro hc
  simp only [wordsText, List.mem_flatMap, List.mem_append, List.mem_cons, List.not_mem_nil, or_false] at hc
  obtain ⟨n, hn, hc | hc⟩ := hc
  · exact h n hn hc
  · exact absurd hc (by decide)

theorem numbersText_cons (n : ℕ) (ns : List ℕ) : numbersText (n :: ns) = decNat n ++ ' ' :: numbersText ns := by
  simp [numbersText, List.flatMap_cons]

/-- The line of a process is read up to the times, and more. -/
theorem procFile_line {text name : List Char} {f u s cu cs : ℕ} (h : ProcFile text name f u s cu cs) :
    ∃ pid words tail more, chunks 1023 text = (decNat pid ++ ' ' :: (name ++ ' ' :: (wordsText words ++
      (numbersText [f, u, s, cu, cs] ++ tail)))) :: more ∧ words.length = 10 ∧ ∀ w ∈ words, ' ' ∉ w := by
  obtain ⟨⟨pid, words, rest, rfl, hw, hws, hlen⟩, hname, hb⟩ := h
  have hl := numbersText_length [f, u, s, cu, cs] hb
  obtain ⟨tail, more, e⟩ := chunks_head 1023 (decNat pid ++ ' ' :: name ++ ' ' :: wordsText words ++
      numbersText [f, u, s, cu, cs]) rest (by simp)
    (by
      simp only [List.mem_append, List.mem_cons, not_or]
      exact ⟨⟨⟨decNat_no pid _ (by decide), by decide, hname⟩, by decide, wordsText_line _ (fun w hx => (hws w hx).2)⟩,
        numbersText_line _⟩)
    (by
      simp only [List.length_append, List.length_cons, List.length_nil] at hl hlen ⊢
      omega)
  refine ⟨pid, words, tail, more, ?_, hw, fun w hx => (hws w hx).1⟩
  rw [e]
  simp

theorem cpuProc_file {text name : List Char} {f u s cu cs : ℕ} (h : ProcFile text name f u s cu cs)
    (hname : ' ' ∉ name) : cpuProc (some text) = .ok ((u + s + cu + cs) % 2 ^ 64) := by
  obtain ⟨pid, words, tail, more, e, hw, hws⟩ := procFile_line h
  rw [cpuProc, e]
  dsimp only
  have hg : getItems (decNat pid ++ ' ' :: (name ++ ' ' :: (wordsText words ++
      (numbersText [f, u, s, cu, cs] ++ tail)))) 14 = numbersText [u, s, cu, cs] ++ tail := by
    unfold getItems
    rw [getItems_word _ _ _ (decNat_no pid _ (by decide)), if_neg (by decide), getItems_word _ _ _ hname, if_neg (by decide),
      getItems_words _ _ _ hws (by omega), hw, numbersText_cons, List.append_assoc, List.cons_append,
      getItems_word _ _ _ (decNat_no f _ (by decide)), if_pos rfl]
  have hb := h.2.2
  have := scanNums_numbers 9223372036854775808 tail [u, s, cu, cs] [] (by decide)
    (by intro x hx; have := hb x (List.mem_cons_of_mem _ hx); omega)
  rw [show [u, s, cu, cs].length = 4 from rfl, List.nil_append] at this
  rw [hg, this, Outcome.bind_ok]
  exact sumFour_nat u s cu cs

theorem cpuProc_blank {text a b : List Char} {f u s cu cs : ℕ} (h : ProcFile text (a ++ ' ' :: b) f u s cu cs)
    (ha : ' ' ∉ a) (hb' : ' ' ∉ b) : cpuProc (some text) = .ok ((f + u + s + cu) % 2 ^ 64) := by
  obtain ⟨pid, words, tail, more, e, hw, hws⟩ := procFile_line h
  rw [cpuProc, e]
  dsimp only
  have hg : getItems (decNat pid ++ ' ' :: (a ++ ' ' :: b ++ ' ' :: (wordsText words ++
      (numbersText [f, u, s, cu, cs] ++ tail)))) 14 = numbersText [f, u, s, cu, cs] ++ tail := by
    obtain ⟨ws, w, rfl⟩ : ∃ ws w, words = ws ++ [w] :=
      ⟨words.dropLast, words.getLast (by intro h0; rw [h0] at hw; simp at hw), (List.dropLast_append_getLast _).symm⟩
    simp only [List.length_append, List.length_cons, List.length_nil] at hw
    unfold getItems
    rw [List.append_assoc, List.cons_append]
    rw [getItems_word _ _ _ (decNat_no pid _ (by decide)), if_neg (by decide), getItems_word _ _ _ ha, if_neg (by decide),
      getItems_word _ _ _ hb', if_neg (by decide)]
    have e2 : wordsText (ws ++ [w]) = wordsText ws ++ (w ++ [' ']) := by simp [wordsText]
    rw [e2, List.append_assoc, getItems_words _ _ _ (fun x hx => hws x (by simp [hx])) (by omega), List.append_assoc,
      List.cons_append, List.nil_append, getItems_word _ _ _ (hws w (by simp)), if_pos (by omega)]
  have hb := h.2.2
  have := scanNums_numbers 9223372036854775808 (decNat cs ++ ' ' :: tail) [f, u, s, cu] [] (by decide)
    (by intro x hx; have := hb x (by simp at hx ⊢; tauto); omega)
  have e3 : numbersText [f, u, s, cu, cs] ++ tail = numbersText [f, u, s, cu] ++ (decNat cs ++ ' ' :: tail) := by
    simp [numbersText]
  rw [show [f, u, s, cu].length = 4 from rfl, List.nil_append] at this
  rw [hg, e3, this, Outcome.bind_ok]
  exact sumFour_nat f u s cu

theorem strStr_iff (n : List Char) : ∀ h : List Char, strStr n h = true ↔ n <:+: h := by
  intro h
  induction h with
  | nil => simp [strStr]
  | cons c h ih =>
    rw [strStr, Bool.or_eq_true, ih, List.infix_cons_iff]
    simp

theorem split_colon {x b : List Char} : ∀ {y c : List Char}, x ++ ':' :: b = y ++ ':' :: c → ':' ∉ y → ':' ∉ c → x = y := by
  induction x with
  | nil =>
    intro y c h hy _
    cases y with
    | nil => rfl
    | cons d y => simp only [List.nil_append, List.cons_append, List.cons.injEq] at h; exact absurd h.1 (by rintro rfl; simp at hy)
  | cons e x ih =>
    intro y c h hy hc
    cases y with
    | nil =>
      simp only [List.nil_append, List.cons_append, List.cons.injEq] at h
      exact absurd (h.2 ▸ (by simp : ':' ∈ x ++ ':' :: b)) hc
    | cons d y =>
      simp only [List.cons_append, List.cons.injEq] at h
      rw [h.1, ih h.2 (fun hm => hy (by simp [hm])) hc]

theorem strStr_key (k : List Char) (l : List Char × List Char) (h1 : ':' ∉ l.1) (h2 : ':' ∉ l.2) :
    strStr (k ++ [':']) (statusText l) = true ↔ k <:+ l.1 := by
  rw [strStr_iff]
  unfold statusText
  constructor
  · rintro ⟨a, b, h⟩
    have h' : (a ++ k) ++ ':' :: b = l.1 ++ ':' :: (l.2 ++ ['\n']) := by simpa using h
    have := split_colon h' h1 (by rw [List.mem_append, not_or]; exact ⟨h2, by decide⟩)
    exact ⟨a, this⟩
  · rintro ⟨a, h⟩
    exact ⟨a, l.2 ++ ['\n'], by rw [← h]; simp⟩

theorem key_noSpace {k : List Char} (h : k ∈ ["Name".toList, "VmSize".toList, "VmRSS".toList, "Threads".toList]) :
    k ≠ [] ∧ k.length < 60 ∧ ∀ c ∈ k, isSpaceChar c = false := by
  simp only [List.mem_cons, List.not_mem_nil, or_false] at h
  rcases h with rfl | rfl | rfl | rfl <;> decide

theorem scanWord_noSpace (w r : List Char) (hw : w ≠ []) (h : ∀ c ∈ w, isSpaceChar c = false)
    (hr : ∀ c, r.head? = some c → isSpaceChar c = true) (a : List Char) (ha : ∀ c ∈ a, isSpaceChar c = true) :
    scanWord (a ++ (w ++ r)) = (w, r) := by
  have e1 : (a ++ (w ++ r)).dropWhile isSpaceChar = w ++ r := by
    rw [List.dropWhile_append_of_pos ha]
    cases w with
    | nil => exact absurd rfl hw
    | cons c w => rw [List.cons_append, List.dropWhile_cons_of_neg (by rw [h c (by simp)]; simp)]
  have e2 : r.takeWhile (fun c => !isSpaceChar c) = [] ∧ r.dropWhile (fun c => !isSpaceChar c) = r := by
    cases r with
    | nil => exact ⟨rfl, rfl⟩
    | cons c r =>
      have := hr c rfl
      exact ⟨List.takeWhile_cons_of_neg (by simp [this]), List.dropWhile_cons_of_neg (by simp [this])⟩
  have hh : ∀ c ∈ w, (!isSpaceChar c) = true := fun c hc => by rw [h c hc]; rfl
  unfold scanWord
  dsimp only
  rw [e1, List.takeWhile_append_of_pos hh, List.dropWhile_append_of_pos hh, e2.1, e2.2, List.append_nil]

/-- The first word of a line is the key with the colon. -/
theorem scanWord_line (k v : List Char) (hk : ∀ c ∈ k, isSpaceChar c = false)
    (hv : ∀ c, (v ++ ['\n']).head? = some c → isSpaceChar c = true) :
    scanWord (statusText (k, v)) = (k ++ [':'], v ++ ['\n']) := by
  have := scanWord_noSpace (k ++ [':']) (v ++ ['\n']) (by simp)
    (by intro c hc; simp only [List.mem_append, List.mem_cons, List.not_mem_nil, or_false] at hc
        rcases hc with hc | rfl
        · exact hk c hc
        · decide) hv [] (by simp)
  simpa [statusText] using this

/-- Values begin with white space. -/
def SpaceFirst (v : List Char) : Prop := ∀ c, (v ++ ['\n']).head? = some c → isSpaceChar c = true

theorem scanVar_line (k v : List Char) (n : ℕ) (old : Option Int) (hk : ∀ c ∈ k, isSpaceChar c = false) (hl : k.length < 60)
    (hs : SpaceFirst v) (hv : NumberValue v n) (hn : n < 2 ^ 31) : scanVar (statusText (k, v)) old = .ok (some (n : Int)) := by
  unfold scanVar
  rw [scanWord_line k v hk hs]
  dsimp only
  rw [if_neg (by simp only [List.length_append, List.length_cons, List.length_nil]; omega), if_neg (by simp)]
  obtain ⟨a, b, rfl, _, ha, hb⟩ := hv
  have hb' : AfterNum (b ++ ['\n']) := by
    rcases hb with rfl | ⟨r, rfl⟩
    · exact Or.inr ⟨[], Or.inr rfl⟩
    · exact Or.inr ⟨r ++ ['\n'], Or.inl rfl⟩
  rw [List.append_assoc, scanNum_decNat 2147483648 a _ n ha hb' (by omega), Outcome.bind_ok]
  rfl

theorem scanName_line (k name b : List Char) (old : Option (List Char)) (hk : ∀ c ∈ k, isSpaceChar c = false) (hl : k.length < 60)
    (hne : name ≠ []) (hn : ∀ c ∈ name, isSpaceChar c = false) (hlen : name.length ≤ 255) (hb : b = [] ∨ ∃ r, b = ' ' :: r) :
    scanName (statusText (k, '\t' :: name ++ b)) old = .ok (some name) := by
  unfold scanName
  rw [scanWord_line k _ hk (by intro c hc; simp at hc; subst hc; decide)]
  dsimp only
  have hw : scanWord ('\t' :: name ++ b ++ ['\n']) = (name, b ++ ['\n']) := by
    have := scanWord_noSpace name (b ++ ['\n']) hne hn (by
      rcases hb with rfl | ⟨r, rfl⟩
      · intro c hc; simp at hc; subst hc; decide
      · intro c hc; simp at hc; subst hc; decide) ['\t'] (by decide)
    simpa using this
  rw [hw]
  dsimp only
  rw [if_neg (by simp only [List.length_append, List.length_cons, List.length_nil]; omega), if_neg (by simp [hne])]

/-- A line whose key is none of the four changes nothing; the others set their variable. -/
structure GoodLine (name : List Char) (l : List Char × List Char) : Prop where
  key : ':' ∉ l.1
  value : ':' ∉ l.2
  suffix : ∀ k ∈ ["Name".toList, "VmSize".toList, "VmRSS".toList, "Threads".toList], k <:+ l.1 → l.1 = k
  isName : l.1 = "Name".toList → ∃ b, l.2 = '\t' :: name ++ b ∧ (b = [] ∨ ∃ r, b = ' ' :: r)
  isNum : l.1 = "VmSize".toList ∨ l.1 = "VmRSS".toList ∨ l.1 = "Threads".toList →
    ∃ n, NumberValue l.2 n ∧ n < 2 ^ 31 ∧ SpaceFirst l.2

theorem statusLine_good {name : List Char} (hne : name ≠ []) (hn : ∀ c ∈ name, isSpaceChar c = false) (hlen : name.length ≤ 255)
    (st : ProcVars) (l : List Char × List Char) (h : GoodLine name l) :
    ∃ st', statusLine st (statusText l) = .ok st' ∧
      (l.1 = "Name".toList → st'.name = some name) ∧ (l.1 ≠ "Name".toList → st'.name = st.name) ∧
      (∀ n, l.1 = "VmSize".toList → NumberValue l.2 n → n < 2 ^ 31 → st'.vm = some (n : Int)) ∧
      (l.1 ≠ "VmSize".toList → st'.vm = st.vm) ∧
      (∀ n, l.1 = "VmRSS".toList → NumberValue l.2 n → n < 2 ^ 31 → st'.mem = some (n : Int)) ∧
      (l.1 ≠ "VmRSS".toList → st'.mem = st.mem) := by
  obtain ⟨k, v⟩ := l
  have key : ∀ q ∈ ["Name".toList, "VmSize".toList, "VmRSS".toList, "Threads".toList],
      (strStr (q ++ [':']) (statusText (k, v)) = true ↔ k = q) := by
    intro q hq
    rw [strStr_key q (k, v) h.key h.value]
    exact ⟨h.suffix q hq, fun e => by subst e; exact List.suffix_refl _⟩
  have k1 := key _ (by simp : "Name".toList ∈ _)
  have k2 := key _ (by simp : "VmSize".toList ∈ _)
  have k3 := key _ (by simp : "VmRSS".toList ∈ _)
  have k4 := key _ (by simp : "Threads".toList ∈ _)
  rw [show "Name".toList ++ [':'] = "Name:".toList from by decide] at k1
  rw [show "VmSize".toList ++ [':'] = "VmSize:".toList from by decide] at k2
  rw [show "VmRSS".toList ++ [':'] = "VmRSS:".toList from by decide] at k3
  rw [show "Threads".toList ++ [':'] = "Threads:".toList from by decide] at k4
  unfold statusLine
  by_cases c1 : k = "Name".toList
  · rw [if_pos (k1.mpr c1)]
    obtain ⟨b, hb, hb'⟩ := h.isName c1
    dsimp only at hb
    have hk := key_noSpace (k := k) (by rw [c1]; simp)
    rw [hb, scanName_line k name b st.name hk.2.2 hk.2.1 hne hn hlen hb', Outcome.bind_ok]
    exact ⟨_, rfl, fun _ => rfl, fun hc => absurd c1 hc, fun n e => absurd (c1.symm.trans e) (by decide), fun _ => rfl,
      fun n e => absurd (c1.symm.trans e) (by decide), fun _ => rfl⟩
  rw [if_neg (fun e => c1 (k1.mp e))]
  by_cases c2 : k = "VmSize".toList
  · rw [if_pos (k2.mpr c2)]
    obtain ⟨m, hm, hm', hs⟩ := h.isNum (Or.inl c2)
    have hk := key_noSpace (k := k) (by rw [c2]; simp)
    have hval : ∀ n, NumberValue v n → n < 2 ^ 31 → scanVar (statusText (k, v)) st.vm = .ok (some (n : Int)) := fun n hv hn =>
      scanVar_line k v n st.vm hk.2.2 hk.2.1 hs hv hn
    rw [hval m hm hm', Outcome.bind_ok]
    refine ⟨_, rfl, fun e => absurd e c1, fun _ => rfl, fun n _ hv hn => ?_, fun hc => absurd c2 hc,
      fun n e => absurd (c2.symm.trans e) (by decide), fun _ => rfl⟩
    have e1 := hval m hm hm'
    rw [hval n hv hn] at e1
    simpa using e1.symm
  rw [if_neg (fun e => c2 (k2.mp e))]
  by_cases c3 : k = "VmRSS".toList
  · rw [if_pos (k3.mpr c3)]
    obtain ⟨m, hm, hm', hs⟩ := h.isNum (Or.inr (Or.inl c3))
    have hk := key_noSpace (k := k) (by rw [c3]; simp)
    have hval : ∀ n, NumberValue v n → n < 2 ^ 31 → scanVar (statusText (k, v)) st.mem = .ok (some (n : Int)) := fun n hv hn =>
      scanVar_line k v n st.mem hk.2.2 hk.2.1 hs hv hn
    rw [hval m hm hm', Outcome.bind_ok]
    refine ⟨_, rfl, fun e => absurd e c1, fun _ => rfl, fun n e => absurd e c2, fun _ => rfl, fun n _ hv hn => ?_,
      fun hc => absurd c3 hc⟩
    have e1 := hval m hm hm'
    rw [hval n hv hn] at e1
    simpa using e1.symm
  rw [if_neg (fun e => c3 (k3.mp e))]
  by_cases c4 : k = "Threads".toList
  · rw [if_pos (k4.mpr c4)]
    obtain ⟨m, hm, hm', hs⟩ := h.isNum (Or.inr (Or.inr c4))
    have hk := key_noSpace (k := k) (by rw [c4]; simp)
    rw [scanVar_line k v m st.threads hk.2.2 hk.2.1 hs hm hm', Outcome.bind_ok]
    exact ⟨_, rfl, fun e => absurd e c1, fun _ => rfl, fun n e => absurd e c2, fun _ => rfl, fun n e => absurd e c3, fun _ => rfl⟩
  rw [if_neg (fun e => c4 (k4.mp e))]
  exact ⟨st, rfl, fun e => absurd e c1, fun _ => rfl, fun n e => absurd e c2, fun _ => rfl, fun n e => absurd e c3, fun _ => rfl⟩

theorem statusLines_good {name : List Char} (hne : name ≠ []) (hn : ∀ c ∈ name, isSpaceChar c = false) (hlen : name.length ≤ 255) :
    ∀ (ls : List (List Char × List Char)) (st : ProcVars), (∀ l ∈ ls, GoodLine name l) → (ls.map Prod.fst).Nodup →
    ∃ st', statusLines st (ls.map statusText) = .ok st' ∧
      ((∃ v, ("Name".toList, v) ∈ ls) → st'.name = some name) ∧ ((∀ l ∈ ls, l.1 ≠ "Name".toList) → st'.name = st.name) ∧
      (∀ v n, ("VmSize".toList, v) ∈ ls → NumberValue v n → n < 2 ^ 31 → st'.vm = some (n : Int)) ∧
      ((∀ l ∈ ls, l.1 ≠ "VmSize".toList) → st'.vm = st.vm) ∧
      (∀ v n, ("VmRSS".toList, v) ∈ ls → NumberValue v n → n < 2 ^ 31 → st'.mem = some (n : Int)) ∧
      ((∀ l ∈ ls, l.1 ≠ "VmRSS".toList) → st'.mem = st.mem) := by
  intro ls
  induction ls with
  | nil => intro st _ _; exact ⟨st, rfl, by simp, by simp, by simp, by simp, by simp, by simp⟩
  | cons l ls ih =>
    intro st hg hd
    rw [List.map_cons, List.nodup_cons] at hd
    obtain ⟨s1, e1, a1, a2, a3, a4, a5, a6⟩ := statusLine_good hne hn hlen st l (hg l (by simp))
    obtain ⟨s2, e2, b1, b2, b3, b4, b5, b6⟩ := ih s1 (fun x hx => hg x (by simp [hx])) hd.2
    have fresh : ∀ k, l.1 = k → ∀ x ∈ ls, x.1 ≠ k := by
      intro k hk x hx e
      exact hd.1 (List.mem_map.mpr ⟨x, hx, by rw [e, hk]⟩)
    refine ⟨s2, ?_, ?_, ?_, ?_, ?_, ?_, ?_⟩
    · rw [List.map_cons, statusLines, e1, Outcome.bind_ok, e2]
    · rintro ⟨v, hv⟩
      rcases List.mem_cons.mp hv with h | h
      · rw [b2 (fresh _ (by rw [← h]))]; exact a1 (by rw [← h])
      · exact b1 ⟨v, h⟩
    · intro h
      rw [b2 (fun x hx => h x (by simp [hx])), a2 (h l (by simp))]
    · intro v n hv h1 h2
      rcases List.mem_cons.mp hv with h | h
      · rw [b4 (fresh _ (by rw [← h]))]; exact a3 n (by rw [← h]) (by rw [← h]; exact h1) h2
      · exact b3 v n h h1 h2
    · intro h
      rw [b4 (fun x hx => h x (by simp [hx])), a4 (h l (by simp))]
    · intro v n hv h1 h2
      rcases List.mem_cons.mp hv with h | h
      · rw [b6 (fresh _ (by rw [← h]))]; exact a5 n (by rw [← h]) (by rw [← h]; exact h1) h2
      · exact b5 v n h h1 h2
    · intro h
      rw [b6 (fun x hx => h x (by simp [hx])), a6 (h l (by simp))]

/-- Two lines with the same key are the same line. -/
theorem line_unique {ls : List (List Char × List Char)} (h : (ls.map Prod.fst).Nodup) {k v w : List Char}
    (h1 : (k, v) ∈ ls) (h2 : (k, w) ∈ ls) : v = w := by
  have := List.inj_on_of_nodup_map h h1 h2 rfl
  simpa using this

theorem spaceFirst_number {v : List Char} {n : ℕ} (h : NumberValue v n) : SpaceFirst v := by
  obtain ⟨a, b, rfl, hne, ha, _⟩ := h
  intro c hc
  cases a with
  | nil => exact absurd rfl hne
  | cons d a =>
    simp only [List.cons_append, List.head?_cons, Option.some.injEq] at hc
    exact hc ▸ ha d (by simp)

theorem statusFile_read {text name : List Char} {vm mem : ℕ} (h : StatusFile text name vm mem) (st : ProcVars) :
    ∃ st', statusLines st (chunks 511 text) = .ok st' ∧ st'.name = some name ∧ st'.vm = some (vm : Int) ∧ st'.mem = some (mem : Int) := by
  obtain ⟨ls, rfl, hd, hl, hs, ⟨v1, hv1, n1⟩, ⟨v2, hv2, n2⟩, ⟨v3, m3, hv3, n3, l3⟩, ⟨b, hb, hne, hsp, hb'⟩, hvm, hmem⟩ := h
  rw [chunks_lines 511 ls (fun l hx => ⟨le_trans (hl l hx).1 (by norm_num), (hl l hx).2.1, (hl l hx).2.2.1⟩)]
  have hlen : name.length ≤ 255 := by
    have := (hl _ hb).1
    simp only [statusText, List.length_append, List.length_cons, List.length_nil] at this
    omega
  have good : ∀ l ∈ ls, GoodLine name l := by
    intro l hx
    have hh := hl l hx
    refine ⟨hh.2.2.2.1, hh.2.2.2.2.1, hs l hx, ?_, ?_⟩
    · intro e
      have := line_unique hd (k := "Name".toList) (v := l.2) (by rw [← e]; exact hx) hb
      exact ⟨b, this, hb'⟩
    · intro e
      rcases e with e | e | e
      · have := line_unique hd (k := l.1) hx (by rw [e]; exact hv1)
        rw [this]; exact ⟨vm, n1, hvm, spaceFirst_number n1⟩
      · have := line_unique hd (k := l.1) hx (by rw [e]; exact hv2)
        rw [this]; exact ⟨mem, n2, hmem, spaceFirst_number n2⟩
      · have := line_unique hd (k := l.1) hx (by rw [e]; exact hv3)
        rw [this]; exact ⟨m3, n3, l3, spaceFirst_number n3⟩
  obtain ⟨s, e, c1, _, c2, _, c3, _⟩ := statusLines_good hne hsp hlen ls st good hd
  exact ⟨s, e, c1 ⟨_, hb⟩, c2 v1 vm hv1 n1 hvm, c3 v2 mem hv2 n2 hmem⟩

theorem sub64_of_le {a b : ℕ} (h : b ≤ a) (ha : a < 2 ^ 64) : sub64 a b = a - b := by
  unfold sub64; omega

/-- Three roundings of a quotient of counters. -/
theorem share_near {p t : ℚ} (hp : 0 ≤ p) (ht : 0 < t) :
    |toF64 (toF64 (100 * toF64 p) / toF64 t) - 100 * p / t| ≤ 100 * p / t / 2 ^ 50 := by
  have e1 := abs_le.mp (toF64_err p)
  rw [abs_of_nonneg hp] at e1
  have hP : 0 ≤ toF64 p := toF64_nonneg hp
  have e2 := abs_le.mp (toF64_err (100 * toF64 p))
  rw [abs_of_nonneg (by positivity)] at e2
  have e3 := abs_le.mp (toF64_err t)
  rw [abs_of_pos ht] at e3
  generalize toF64 (100 * toF64 p) = A at *
  generalize toF64 t = B at *
  generalize toF64 p = P at *
  have hB : 0 < B := by linarith [show t / 2 ^ 53 < t from by apply div_lt_self ht; norm_num]
  have e4 := abs_le.mp (toF64_err (A / B))
  have hA : 0 ≤ A := by nlinarith
  rw [abs_of_nonneg (by positivity)] at e4
  generalize toF64 (A / B) = Q at *
  have hAu : A ≤ 100 * p * (1 + 3 / 2 ^ 53) := by norm_num at *; nlinarith
  have hAl : 100 * p * (1 - 3 / 2 ^ 53) ≤ A := by norm_num at *; nlinarith
  have hqu : A / B ≤ 100 * p / t * (1 + 5 / 2 ^ 53) := by
    rw [div_le_iff₀ hB]
    have h1 : 100 * p / t * (1 + 5 / 2 ^ 53) * (t * (1 - 1 / 2 ^ 53)) ≤ 100 * p / t * (1 + 5 / 2 ^ 53) * B := by
      apply mul_le_mul_of_nonneg_left _ (by positivity); linarith
    have h2 : 100 * p / t * (1 + 5 / 2 ^ 53) * (t * (1 - 1 / 2 ^ 53)) = 100 * p * ((1 + 5 / 2 ^ 53) * (1 - 1 / 2 ^ 53)) := by
      field_simp
    have h3 : 100 * p * (1 + 3 / 2 ^ 53) ≤ 100 * p * ((1 + 5 / 2 ^ 53) * (1 - 1 / 2 ^ 53)) := by
      apply mul_le_mul_of_nonneg_left _ (by positivity); norm_num
    linarith
  have hql : 100 * p / t * (1 - 5 / 2 ^ 53) ≤ A / B := by
    rw [le_div_iff₀ hB]
    have h1 : 100 * p / t * (1 - 5 / 2 ^ 53) * B ≤ 100 * p / t * (1 - 5 / 2 ^ 53) * (t * (1 + 1 / 2 ^ 53)) := by
      apply mul_le_mul_of_nonneg_left _ (by apply mul_nonneg; positivity; norm_num); linarith
    have h2 : 100 * p / t * (1 - 5 / 2 ^ 53) * (t * (1 + 1 / 2 ^ 53)) = 100 * p * ((1 - 5 / 2 ^ 53) * (1 + 1 / 2 ^ 53)) := by
      field_simp
    have h3 : 100 * p * ((1 - 5 / 2 ^ 53) * (1 + 1 / 2 ^ 53)) ≤ 100 * p * (1 - 3 / 2 ^ 53) := by
      apply mul_le_mul_of_nonneg_left _ (by positivity); norm_num
    linarith
  have hX : 0 ≤ 100 * p / t := by positivity
  generalize 100 * p / t = X at *
  generalize A / B = Y at *
  rw [abs_le]
  constructor <;> norm_num at * <;> nlinarith

theorem cpuShare_shareOf {t1 p1 t2 p2 : ℕ} (ht : t1 ≤ t2) (hp : p1 ≤ p2) (hle : p2 - p1 ≤ t2 - t1) (h64 : t2 < 2 ^ 64) (h64' : p2 < 2 ^ 64) :
    ShareOf (cpuShare t1 p1 t2 p2) (p2 - p1) (t2 - t1) := by
  unfold cpuShare ShareOf
  rw [sub64_of_le ht h64, sub64_of_le hp h64']
  split
  · rename_i h0
    rw [h0] at hle ⊢
    simp
  · rename_i h0
    have htp : (0 : ℚ) < ((t2 - t1 : ℕ) : ℚ) := by exact_mod_cast Nat.pos_of_ne_zero h0
    have hpp : (0 : ℚ) ≤ ((p2 - p1 : ℕ) : ℚ) := by positivity
    have hle' : ((p2 - p1 : ℕ) : ℚ) ≤ ((t2 - t1 : ℕ) : ℚ) := by exact_mod_cast hle
    generalize ((p2 - p1 : ℕ) : ℚ) = p at *
    generalize ((t2 - t1 : ℕ) : ℚ) = t at *
    have hn := share_near hpp htp
    have hq : 0 ≤ toF64 (toF64 (100 * toF64 p) / toF64 t) :=
      toF64_nonneg (div_nonneg (toF64_nonneg (mul_nonneg (by norm_num) (toF64_nonneg hpp))) (toF64_nonneg htp.le))
    have hX : 0 ≤ 100 * p / t := by positivity
    have hX100 : 100 * p / t ≤ 100 := by rw [div_le_iff₀ htp]; linarith
    generalize toF64 (toF64 (100 * toF64 p) / toF64 t) = q at *
    generalize 100 * p / t = X at *
    have h1 := abs_le.mp hn
    refine ⟨toF32_nonneg hq, ?_, ?_⟩
    · refine le_trans (toF32_mono (y := 100 + 100 / 2 ^ 50) (by linarith [h1.2, show X / 2 ^ 50 ≤ 100 / 2 ^ 50 from by gcongr])) ?_
      decide +kernel
    · have h2 := abs_le.mp (toF32_err q)
      rw [abs_of_nonneg hq] at h2
      rw [abs_le]
      rw [show u32 = 1 / 2 ^ 24 from rfl] at h2
      constructor
      · norm_num at h1 h2 ⊢; linarith
      · norm_num at h1 h2 ⊢; linarith

theorem monTurns_right : ∀ (ts : List MonTurn) (st : ProcVars), (∀ t ∈ ts, OrdinaryTurn t) →
    ∃ ls, monTurns st ts = .ok ls ∧ List.Forall₂ RightLine ts ls := by
  intro ts
  induction ts with
  | nil => intro st _; exact ⟨[], rfl, List.Forall₂.nil⟩
  | cons t ts ih =>
    intro st h
    obtain ⟨text1, text2, proc1, proc2, status, name, sname, u1, n1, s1, i1, u2, n2, s2, i2, f1, a1, b1, c1, d1, f2, a2, b2, c2, d2, vm, mem,
      rfl, T1, T2, P1, P2, S, hname, ht, ht64, hp, hp64, hle⟩ := h t (by simp)
    obtain ⟨st', es, _, evm, emem⟩ := statusFile_read S { st with name := some [] }
    obtain ⟨ls, el, hls⟩ := ih st' (fun x hx => h x (by simp [hx]))
    have hcpu : procCpu ⟨some text1, some proc1, some text2, some proc2, some status⟩ =
        .ok (cpuShare (u1 + n1 + s1 + i1) (a1 + b1 + c1 + d1) (u2 + n2 + s2 + i2) (a2 + b2 + c2 + d2)) := by
      unfold procCpu
      dsimp only
      rw [cpuTotal_file T1, Outcome.bind_ok, cpuProc_file P1 hname, Outcome.bind_ok, cpuTotal_file T2, Outcome.bind_ok,
        cpuProc_file P2 hname, Outcome.bind_ok, Outcome.pure_eq, Nat.mod_eq_of_lt (by omega), Nat.mod_eq_of_lt (by omega),
        Nat.mod_eq_of_lt ht64, Nat.mod_eq_of_lt hp64]
    refine ⟨⟨cpuShare (u1 + n1 + s1 + i1) (a1 + b1 + c1 + d1) (u2 + n2 + s2 + i2) (a2 + b2 + c2 + d2), mem, vm⟩ :: ls, ?_, ?_⟩
    · rw [monTurns, hcpu, Outcome.bind_ok]
      dsimp only
      rw [es, Outcome.bind_ok]
      unfold monLine
      rw [emem, evm]
      dsimp only
      rw [Outcome.bind_ok, el, Outcome.bind_ok, Outcome.pure_eq]
    · exact List.Forall₂.cons ⟨text1, text2, proc1, proc2, status, name, sname, u1, n1, s1, i1, u2, n2, s2, i2, f1, a1, b1, c1, d1, f2, a2, b2,
        c2, d2, vm, mem, rfl, T1, T2, P1, P2, S, rfl, rfl, cpuShare_shareOf ht hp hle ht64 hp64⟩ hls

end Verif
