import Verif.Model.Names
import Verif.Spec.Names
import Mathlib.Tactic.IntervalCases
/-! Facts about decimal names and path splitting. -/
namespace Verif
open Spec

theorem digitChar_toNat (d : Nat) (h : d < 10) : (digitChar d).toNat = 48 + d := by
  interval_cases d <;> decide

theorem decNat_chars (n : Nat) : ∀ c ∈ decNat n, ∃ d, d < 10 ∧ c = digitChar d := by
  induction n using Nat.strongRecOn with
  | _ n ih =>
    intro c hc
    rw [decNat] at hc
    split at hc
    · rename_i h
      simp only [List.mem_singleton] at hc
      exact ⟨n, h, hc⟩
    · rename_i h
      rw [List.mem_append, List.mem_singleton] at hc
      rcases hc with hc | hc
      · exact ih (n / 10) (by omega) c hc
      · exact ⟨n % 10, Nat.mod_lt _ (by omega), hc⟩

theorem decNat_ne_nil (n : Nat) : decNat n ≠ [] := by
  rw [decNat]; split <;> simp

/-- The number a decimal text stands for. -/
def decVal (s : List Char) : Nat := s.foldl (fun acc c => 10 * acc + (c.toNat - 48)) 0

theorem decVal_decNat (n : Nat) : decVal (decNat n) = n := by
  induction n using Nat.strongRecOn with
  | _ n ih =>
    rw [decNat]
    split
    · rename_i h
      simp [decVal, digitChar_toNat n h]
    · rename_i h
      have := ih (n / 10) (by omega)
      unfold decVal at this ⊢
      rw [List.foldl_append, this]
      simp only [List.foldl_cons, List.foldl_nil]
      rw [digitChar_toNat _ (Nat.mod_lt _ (by omega))]
      omega

theorem decNat_inj {a b : Nat} (h : decNat a = decNat b) : a = b := by
  rw [← decVal_decNat a, ← decVal_decNat b, h]

/-- Characters of a printed integer: never an underscore, a dot or an `f`. -/
theorem decInt_chars (z : Int) : ∀ c ∈ decInt z, c ≠ '_' ∧ c ≠ 'f' ∧ c ≠ '.' ∧ c ≠ ',' ∧ c ≠ ')' := by
  have hd : ∀ d, d < 10 → digitChar d ≠ '_' ∧ digitChar d ≠ 'f' ∧ digitChar d ≠ '.' ∧
      digitChar d ≠ ',' ∧ digitChar d ≠ ')' := by
    intro d h; interval_cases d <;> decide
  intro c hc
  cases z with
  | ofNat n =>
    obtain ⟨d, h, rfl⟩ := decNat_chars n c hc
    exact hd d h
  | negSucc n =>
    simp only [decInt, List.mem_cons] at hc
    rcases hc with rfl | hc
    · decide
    · obtain ⟨d, h, rfl⟩ := decNat_chars _ c hc
      exact hd d h

theorem decInt_ne_nil (z : Int) : decInt z ≠ [] := by
  cases z <;> simp [decInt, decNat_ne_nil]

theorem decInt_inj {a b : Int} (h : decInt a = decInt b) : a = b := by
  have hm : ∀ n, '-' ∉ decNat n := by
    intro n hn
    obtain ⟨d, hd, e⟩ := decNat_chars n _ hn
    interval_cases d <;> revert e <;> decide
  cases a with
  | ofNat n =>
    cases b with
    | ofNat m => rw [decNat_inj h]
    | negSucc m =>
      have h' : decNat n = '-' :: decNat (m + 1) := h
      exact absurd (by rw [h']; simp) (hm n)
  | negSucc n =>
    cases b with
    | ofNat m =>
      have h' : '-' :: decNat (n + 1) = decNat m := h
      exact absurd (by rw [← h']; simp) (hm m)
    | negSucc m =>
      have h' : '-' :: decNat (n + 1) = '-' :: decNat (m + 1) := h
      have := decNat_inj (List.cons.inj h').2
      have : n = m := by omega
      rw [this]

/-- Cutting at the first separator is unambiguous. -/
theorem sep_unique (c : Char) : ∀ (a a' r r' : List Char), c ∉ a → c ∉ a' →
    a ++ c :: r = a' ++ c :: r' → a = a' ∧ r = r'
  | [], [], r, r', _, _, h => ⟨rfl, (List.cons.inj h).2⟩
  | [], x :: a', r, r', _, h', h => by
    have := (List.cons.inj h).1
    exact absurd (by rw [this]; simp) h'
  | x :: a, [], r, r', h1, _, h => by
    have := (List.cons.inj h).1
    exact absurd (by rw [this]; simp) h1
  | x :: a, y :: a', r, r', h1, h2, h => by
    have hh := List.cons.inj h
    have := sep_unique c a a' r r' (fun k => h1 (by simp [k])) (fun k => h2 (by simp [k])) hh.2
    exact ⟨by rw [hh.1, this.1], this.2⟩

theorem no_underscore (z : Int) : '_' ∉ decInt z := fun h => (decInt_chars z _ h).1 rfl
theorem no_comma (z : Int) : ',' ∉ decInt z := fun h => (decInt_chars z _ h).2.2.2.1 rfl

theorem submapFileName_inj {pre : List Char} {a b : SubmapId}
    (h : submapFileName pre a = submapFileName pre b) : a = b := by
  unfold submapFileName at h
  have h1 := List.append_cancel_left h
  obtain ⟨e1, e2⟩ := sep_unique '_' _ _ _ _ (no_underscore _) (no_underscore _) h1
  have e3 := List.append_cancel_right e2
  cases a; cases b
  simp only [SubmapId.mk.injEq]
  exact ⟨decInt_inj e1, decInt_inj e3⟩

theorem frameFileName_inj {a b : FrameId} (h : frameFileName a = frameFileName b) : a = b := by
  unfold frameFileName FrameId.debugString at h
  have h0 := List.append_cancel_right h
  have h1 := (List.cons.inj (List.cons.inj h0).2).2
  obtain ⟨e1, e2⟩ := sep_unique '_' _ _ _ _ (no_underscore _) (no_underscore _) h1
  obtain ⟨e3, e4⟩ := sep_unique '_' _ _ _ _ (no_underscore _) (no_underscore _) e2
  cases a; cases b
  simp only [FrameId.mk.injEq]
  exact ⟨decInt_inj e1, decInt_inj e3, decInt_inj e4⟩

theorem pieceFileName_inj {pre : List Char} {x y x' y' : Int}
    (h : pieceFileName pre x y = pieceFileName pre x' y') : x = x' ∧ y = y' := by
  unfold pieceFileName at h
  have h1 := List.append_cancel_left h
  obtain ⟨e1, e2⟩ := sep_unique '_' _ _ _ _ (no_underscore _) (no_underscore _) h1
  exact ⟨decInt_inj e1, decInt_inj (List.append_cancel_right e2)⟩

theorem submap_frame_ne {pre : List Char} (hp : ¬ ['f', '_'] <+: pre) (a : SubmapId) (f : FrameId) :
    submapFileName pre a ≠ frameFileName f := by
  intro h
  unfold submapFileName frameFileName FrameId.debugString at h
  obtain ⟨c, t, ht⟩ := List.exists_cons_of_ne_nil (decInt_ne_nil a.trajectory)
  have hc := decInt_chars a.trajectory c (by rw [ht]; simp)
  match pre, hp with
  | [], _ =>
    rw [ht] at h
    simp only [List.nil_append, List.cons_append] at h
    exact hc.2.1 (List.cons.inj h).1
  | [p], _ =>
    rw [ht] at h
    simp only [List.nil_append, List.cons_append] at h
    exact hc.1 (List.cons.inj (List.cons.inj h).2).1
  | p :: q :: r, hp =>
    simp only [List.cons_append] at h
    have h1 := (List.cons.inj h).1
    have h2 := (List.cons.inj (List.cons.inj h).2).1
    exact hp ⟨r, by rw [h1, h2]; rfl⟩

/-! Paths -/

theorem findLast_none {c : Char} : ∀ {s : List Char}, findLast c s = none ↔ c ∉ s
  | [] => by simp [findLast]
  | x :: xs => by
    have ih := findLast_none (c := c) (s := xs)
    unfold findLast
    cases h : findLast c xs with
    | some i =>
      have : c ∈ xs := by
        by_contra hn
        rw [ih.2 hn] at h; cases h
      simp [this]
    | none =>
      have := ih.1 h
      by_cases hx : x = c
      · simp [hx]
      · have : ¬ c = x := fun e => hx e.symm
        simp [hx, *]

theorem findLast_some {c : Char} : ∀ {s : List Char} {i : Nat}, findLast c s = some i →
    s = s.take i ++ c :: s.drop (i + 1) ∧ c ∉ s.drop (i + 1)
  | [], i, h => by simp [findLast] at h
  | x :: xs, i, h => by
    unfold findLast at h
    cases hx : findLast c xs with
    | some j =>
      rw [hx] at h
      simp only [Option.some.injEq] at h
      subst h
      have ih := findLast_some hx
      refine ⟨?_, by simpa using ih.2⟩
      simpa using ih.1
    | none =>
      rw [hx] at h
      by_cases he : x = c
      · simp only [he, ↓reduceIte, Option.some.injEq] at h
        subst h
        have hn := findLast_none.1 hx
        simp [he, hn]
      · simp [he] at h

theorem filePath_split (s : List Char) : ∃ f, s = filePath s ++ f ∧ '/' ∉ f ∧
    (filePath s = [] ∨ EndsWithSlash (filePath s)) ∧ f.take 127 = splitFileName s := by
  unfold filePath splitFileName
  cases h : findLast '/' s with
  | none => exact ⟨s, rfl, findLast_none.1 h, Or.inl rfl, rfl⟩
  | some i =>
    obtain ⟨h1, h2⟩ := findLast_some h
    refine ⟨s.drop (i + 1), ?_, h2, Or.inr ⟨_, rfl⟩, rfl⟩
    rw [List.append_assoc]
    exact h1

theorem dirPart_of_split {d f : List Char} (hf : '/' ∉ f) (hd : d = [] ∨ EndsWithSlash d) :
    IsDirPart (d ++ f) d := by
  refine ⟨⟨f, rfl⟩, hd, ?_⟩
  rintro p ⟨q, hq⟩ ⟨e, rfl⟩
  by_contra hlt
  have hlen : d.length ≤ e.length := by simp at hlt; omega
  -- the slash lies inside `f`
  have h1 : (d ++ f)[e.length]? = some '/' := by
    rw [← hq]; simp
  rw [List.getElem?_append_right hlen] at h1
  exact hf (List.mem_of_getElem? h1)

theorem dirPart_unique {s d d' : List Char} (h : IsDirPart s d) (h' : IsDirPart s d') : d = d' := by
  have key : ∀ {a b : List Char}, IsDirPart s a → IsDirPart s b → a.length ≤ b.length := by
    intro a b ha hb
    rcases ha.shape with e | e
    · simp [e]
    · exact hb.longest a ha.isPrefix e
  have hl := Nat.le_antisymm (key h h') (key h' h)
  exact List.IsPrefix.eq_of_length (List.prefix_of_prefix_length_le h.isPrefix h'.isPrefix hl.le) hl

theorem stripSlashes_spec (s : List Char) : ∃ n, s = stripSlashes s ++ List.replicate n '/' ∧
    ¬ EndsWithSlash (stripSlashes s) := by
  have key : ∀ r : List Char, ∃ n, r = List.replicate n '/' ++ r.dropWhile (· == '/') ∧
      ∀ t, r.dropWhile (· == '/') ≠ '/' :: t := by
    intro r
    induction r with
    | nil => exact ⟨0, by simp⟩
    | cons x r ih =>
      by_cases hx : x = '/'
      · obtain ⟨n, h1, h2⟩ := ih
        refine ⟨n + 1, ?_, ?_⟩
        · simp only [hx, List.dropWhile_cons, beq_self_eq_true, ↓reduceIte,
            List.replicate_succ, List.cons_append, List.cons.injEq, true_and]
          exact h1
        · simpa [hx] using h2
      · refine ⟨0, by simp [hx], ?_⟩
        intro t
        simp [hx]
  obtain ⟨n, h1, h2⟩ := key s.reverse
  refine ⟨n, ?_, ?_⟩
  · have := congrArg List.reverse h1
    simpa [stripSlashes] using this
  · rintro ⟨e, he⟩
    have := congrArg List.reverse he
    unfold stripSlashes at this
    rw [List.reverse_reverse] at this
    simp only [List.reverse_append, List.reverse_cons, List.reverse_nil, List.nil_append,
      List.singleton_append] at this
    exact h2 _ this

theorem stripSlashes_append (s : List Char) (n : Nat) :
    stripSlashes (s ++ List.replicate n '/') = stripSlashes s := by
  unfold stripSlashes
  congr 1
  rw [List.reverse_append, List.reverse_replicate]
  induction n with
  | zero => simp
  | succ n ih => simpa [List.replicate_succ] using ih

end Verif
