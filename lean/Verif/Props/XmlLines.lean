import Verif.Spec.XmlLines
import Verif.Props.Xml
/-! C101: files whose lines end as other systems end them. -/
namespace Verif
open Spec

theorem dropLf_other {a : List Char} (h : a.head? ≠ some '\n') : dropLf a = a := by
  cases a with
  | nil => rfl
  | cons c a =>
    unfold dropLf
    split
    · rename_i heq
      cases heq
      exact absurd rfl h
    · rfl

theorem lines_pcdata {a b : List Char} (h : LineEnds a b) (t : List Char) : (∀ c ∈ a, c ≠ '<' ∧ c ≠ '&') →
    ∀ k, a.length < k → pcdata k (a ++ '<' :: t) = (b, '<' :: t) := by
  induction h with
  | nil =>
    intro _ k hk
    obtain ⟨k, rfl⟩ : ∃ j, k = j + 1 := ⟨k - 1, by simp at hk; omega⟩
    simp [pcdata]
  | @char c a b hc _ ih =>
    intro hw k hk
    obtain ⟨k, rfl⟩ : ∃ j, k = j + 1 := ⟨k - 1, by simp at hk; omega⟩
    obtain ⟨h1, h2⟩ := hw c (List.mem_cons_self ..)
    have := ih (fun c hc => hw c (List.mem_cons_of_mem _ hc)) k (by simp at hk; omega)
    rw [List.cons_append]
    unfold pcdata
    simp [h1, h2, hc, this]
  | @crlf a b _ ih =>
    intro hw k hk
    obtain ⟨k, rfl⟩ : ∃ j, k = j + 1 := ⟨k - 1, by simp at hk; omega⟩
    have := ih (fun c hc => hw c (List.mem_cons_of_mem _ (List.mem_cons_of_mem _ hc))) k (by simp at hk; omega)
    rw [List.cons_append, List.cons_append]
    unfold pcdata
    simp [dropLf, this]
  | @cr a b hh _ ih =>
    intro hw k hk
    obtain ⟨k, rfl⟩ : ∃ j, k = j + 1 := ⟨k - 1, by simp at hk; omega⟩
    have := ih (fun c hc => hw c (List.mem_cons_of_mem _ hc)) k (by simp at hk; omega)
    have hd : dropLf (a ++ '<' :: t) = a ++ '<' :: t := by
      apply dropLf_other
      cases a with
      | nil => simp
      | cons c a => simpa using hh
    rw [List.cons_append]
    unfold pcdata
    simp [hd, this]

theorem lines_zero {a b : List Char} (h : LineEnds a b) (h0 : Char.ofNat 0 ∉ a) : Char.ofNat 0 ∉ b := by
  induction h with
  | nil => simp
  | @char c a b hc _ ih =>
    rw [List.mem_cons, not_or] at h0 ⊢
    exact ⟨h0.1, ih h0.2⟩
  | @crlf a b _ ih =>
    rw [List.mem_cons, List.mem_cons, not_or, not_or] at h0
    rw [List.mem_cons, not_or]
    exact ⟨by decide, ih h0.2.2⟩
  | @cr a b _ _ ih =>
    rw [List.mem_cons, not_or] at h0
    rw [List.mem_cons, not_or]
    exact ⟨by decide, ih h0.2⟩

theorem text_first (rest : List Char) : ∀ w : List Char, (∀ c ∈ w, c ≠ '<') → (∃ c ∈ w, isXmlSpace c = false) →
    ∃ c' r', (w ++ rest).dropWhile isXmlSpace = c' :: r' ∧ c' ≠ '<'
  | [], _, h => by obtain ⟨c, hc, _⟩ := h; simp at hc
  | d :: w, hw, hex => by
    by_cases hd : isXmlSpace d = true
    · rw [List.cons_append, List.dropWhile_cons_of_pos hd]
      refine text_first rest w (fun c hc => hw c (List.mem_cons_of_mem _ hc)) ?_
      obtain ⟨c, hc, h1⟩ := hex
      rcases List.mem_cons.1 hc with rfl | hc
      · rw [hd] at h1; cases h1
      · exact ⟨c, hc, h1⟩
    · rw [List.cons_append, List.dropWhile_cons_of_neg hd]
      exact ⟨d, _, rfl, hw d (List.mem_cons_self ..)⟩

/-- The text of an element is read with line feeds at the ends of its lines, whichever way they end in the file. -/
theorem C101_lines (n a b : List Char) (hn : XmlName n) (hab : LineEnds a b)
    (ha : ∀ c ∈ a, c ≠ '<' ∧ c ≠ '&' ∧ c ≠ Char.ofNat 0)
    (hs : ∃ c ∈ a, c ≠ ' ' ∧ c ≠ '\t' ∧ c ≠ '\n' ∧ c ≠ '\r') :
    loadXml ('<' :: (n ++ ('>' :: (a ++ ('<' :: '/' :: (n ++ ['>'])))))) =
      .ok (.elem n [] (.text b .nil) .nil) := by
  have hn0 : Char.ofNat 0 ∉ n := fun h => absurd (xmlName_symbols hn _ h) (by decide)
  have ha0 : Char.ofNat 0 ∉ a := fun h => (ha _ h).2.2 rfl
  have hz : Char.ofNat 0 ∉ '<' :: (n ++ ('>' :: (a ++ ('<' :: '/' :: (n ++ ['>']))))) := by
    simp only [List.mem_cons, List.mem_append, not_or]
    exact ⟨by decide, hn0, by decide, ha0, by decide, by decide, hn0, by decide, by simp⟩
  rw [loadXml_eq hz (skipBom_lt _), parseFrom_tag]
  have h1 := xmlTag_push (a := []) hn (by simp) (a ++ ('<' :: '/' :: (n ++ ['>'])))
    { open_ := [], kids := .nil }
  simp only [writeAttrs, List.nil_append, List.map_nil] at h1
  rw [h1]
  dsimp only
  have h2 : parseFrom (a ++ ('<' :: '/' :: (n ++ ['>'])))
      (XmlState.push { open_ := [], kids := .nil } n []) =
      parseFrom ('<' :: '/' :: (n ++ ['>']))
        { open_ := [⟨n, [], .nil⟩], kids := .text b .nil } := by
    have hb0 := lines_zero hab ha0
    obtain ⟨c', r', hd, hc'⟩ := text_first ('<' :: '/' :: (n ++ ['>'])) a (fun c hc => (ha c hc).1) (by
      obtain ⟨c, hc, h1, h2, h3, h4⟩ := hs
      exact ⟨c, hc, by simp [isXmlSpace, h1, h2, h3, h4]⟩)
    have hpc := lines_pcdata hab ('/' :: (n ++ ['>'])) (fun c hc => ⟨(ha c hc).1, (ha c hc).2.1⟩)
      ((a ++ '<' :: '/' :: (n ++ ['>'])).length + 1) (by simp; omega)
    cases a with
    | nil => obtain ⟨c, hc, _⟩ := hs; simp at hc
    | cons c v =>
      have hc1 := (ha c (List.mem_cons_self ..)).1
      generalize hr : '<' :: '/' :: (n ++ ['>']) = rest at *
      rw [List.cons_append] at hpc hd ⊢
      show parseTree ((v ++ rest).length + 1 + 1) (c :: (v ++ rest)) _ = _
      conv_lhs => unfold parseTree
      dsimp only
      rw [if_neg hc1, hd]
      dsimp only
      rw [if_neg hc', if_neg (by simp [XmlState.push])]
      rw [List.length_cons] at hpc
      rw [hpc]
      simp only [XmlState.push, XmlForest.app]
      rw [cStr_id (by exact hb0)]
      exact parseTree_eq (by simp; omega)
  rw [h2, parseFrom_tag]
  have h3 := xmlTag_pop hn [] .nil (.text b .nil) [] []
  rw [h3]
  dsimp only
  rw [parseFrom_nil, if_pos rfl]
  rfl

example : LineEnds "a\r\nb\rc\nd".toList "a\nb\nc\nd".toList :=
  .char (by decide) (.crlf (.char (by decide) (.cr (by decide) (.char (by decide) (.char (by decide)
    (.char (by decide) .nil))))))
example : loadXml "<p>1\r\n2\r3</p>".toList = .ok (.elem "p".toList [] (.text "1\n2\n3".toList .nil) .nil) := by
  decide +kernel

/-- In the value of an attribute every line end, however it is written, is read as one blank, as a tab is. -/
theorem C101_lines_value (q : Char) (hq : isXmlSpace q = false) {a b : List Char} (h : LineEnds a b) (t : List Char) :
    (∀ c ∈ a, c ≠ q ∧ c ≠ '&') → ∀ k, a.length < k →
    attrVal k q (a ++ q :: t) = some (b.map fun c => if c = '\t' ∨ c = '\n' then ' ' else c, t) := by
  have hq' : q ≠ '\n' ∧ q ≠ '\r' := by
    constructor <;> (rintro rfl; revert hq; decide)
  induction h with
  | nil =>
    intro _ k hk
    obtain ⟨k, rfl⟩ : ∃ j, k = j + 1 := ⟨k - 1, by simp at hk; omega⟩
    simp [attrVal]
  | @char c a b hc _ ih =>
    intro hw k hk
    obtain ⟨k, rfl⟩ : ∃ j, k = j + 1 := ⟨k - 1, by simp at hk; omega⟩
    obtain ⟨h1, h2⟩ := hw c (List.mem_cons_self ..)
    have := ih (fun c hc => hw c (List.mem_cons_of_mem _ hc)) k (by simp at hk; omega)
    rw [List.cons_append]
    unfold attrVal
    by_cases hs : isXmlSpace c = true
    · have hs' : (if c = '\t' ∨ c = '\n' then ' ' else c) = ' ' := by
        unfold isXmlSpace at hs
        simp only [Bool.or_eq_true, decide_eq_true_eq] at hs
        rcases hs with ((hs | hs) | hs) | hs
        · rw [if_pos (.inl hs)]
        · rw [if_pos (.inr hs)]
        · exact absurd hs hc
        · rw [hs]; decide
      rw [if_neg h1, if_pos hs]
      dsimp only
      rw [if_neg hc, this]
      simp only [List.map_cons, hs']
    · have hs' : (if c = '\t' ∨ c = '\n' then ' ' else c) = c := by
        refine if_neg ?_
        rintro (rfl | rfl) <;> exact hs (by decide)
      rw [if_neg h1, if_neg hs, if_neg h2, this]
      simp only [List.map_cons, hs']
  | @crlf a b _ ih =>
    intro hw k hk
    obtain ⟨k, rfl⟩ : ∃ j, k = j + 1 := ⟨k - 1, by simp at hk; omega⟩
    have := ih (fun c hc => hw c (List.mem_cons_of_mem _ (List.mem_cons_of_mem _ hc))) k (by simp at hk; omega)
    rw [List.cons_append, List.cons_append]
    unfold attrVal
    rw [if_neg (Ne.symm hq'.2), if_pos (by decide)]
    dsimp only
    rw [if_pos rfl, show dropLf ('\n' :: (a ++ q :: t)) = a ++ q :: t from rfl, this]
    rfl
  | @cr a b hh _ ih =>
    intro hw k hk
    obtain ⟨k, rfl⟩ : ∃ j, k = j + 1 := ⟨k - 1, by simp at hk; omega⟩
    have := ih (fun c hc => hw c (List.mem_cons_of_mem _ hc)) k (by simp at hk; omega)
    have hd : dropLf (a ++ q :: t) = a ++ q :: t := by
      apply dropLf_other
      cases a with
      | nil => simpa using hq'.1
      | cons c a => simpa using hh
    rw [List.cons_append]
    unfold attrVal
    rw [if_neg (Ne.symm hq'.2), if_pos (by decide)]
    dsimp only
    rw [if_pos rfl, hd, this]
    rfl

example : attrVal 9 '"' "1\r\n2\r3\" b".toList = some ("1 2 3".toList, " b".toList) := by decide +kernel

end Verif
