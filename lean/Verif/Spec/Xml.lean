import Verif.Model.Xml
/-
What a document stored in an XML file is supposed to be when it is read again (C101).
-/
namespace Verif.Spec
open Verif

/-- A byte a name may begin with: a letter, `_`, `:`, or part of a non-ASCII character. -/
def NameStart (c : Char) : Prop := c.isAlpha = true ∨ c = '_' ∨ c = ':' ∨ 128 ≤ c.toNat

/-- A byte a name may contain. -/
def NameChar (c : Char) : Prop := NameStart c ∨ c.isDigit = true ∨ c = '-' ∨ c = '.'

/-- A name of an element or an attribute. -/
def XmlName (n : List Char) : Prop := (∃ c r, n = c :: r ∧ NameStart c) ∧ ∀ c ∈ n, NameChar c

/-- A value is a string of the program: it contains no zero byte. -/
def XmlValue (v : List Char) : Prop := Char.ofNat 0 ∉ v

/-- A document as the program builds it: elements with attributes, no texts. -/
def DocOk : XmlForest → Prop
  | .nil => True
  | .elem n a k t => XmlName n ∧ (∀ p ∈ a, XmlName p.1 ∧ XmlValue p.2) ∧ DocOk k ∧ DocOk t
  | .text _ _ => False

/-- The value with every tab replaced by a space. -/
def noTabs (v : List Char) : List Char := v.map fun c => if c = '\t' then ' ' else c

/-- The document with every tab in a value replaced by a space. -/
def docNoTabs : XmlForest → XmlForest
  | .nil => .nil
  | .elem n a k t => .elem n (a.map fun p => (p.1, noTabs p.2)) (docNoTabs k) (docNoTabs t)
  | .text v t => .text v (docNoTabs t)

/-- No value contains a tab. -/
def DocTabFree : XmlForest → Prop
  | .nil => True
  | .elem _ a k t => (∀ p ∈ a, '\t' ∉ p.2) ∧ DocTabFree k ∧ DocTabFree t
  | .text _ t => DocTabFree t

/-- The text of a document type between `<!DOCTYPE` and the closing `>` : quoted strings, comments,
processing instructions and nested declarations are closed (conditional sections, which belong to
external files, are left out). -/
inductive DtdText : List Char → Prop
  | nil : DtdText []
  | char {c : Char} {r : List Char} : c ≠ '<' → c ≠ '>' → c ≠ '"' → c ≠ '\'' → DtdText r → DtdText (c :: r)
  | quoted {q : Char} {b r : List Char} : q = '"' ∨ q = '\'' → q ∉ b → DtdText r → DtdText (q :: (b ++ q :: r))
  | comment {b r : List Char} : ¬ ['-', '-', '>'] <:+: b ++ ['-', '-'] → DtdText r →
      DtdText ('<' :: '!' :: '-' :: '-' :: (b ++ '-' :: '-' :: '>' :: r))
  | instruction {b r : List Char} : ¬ ['?', '>'] <:+: b ++ ['?'] → DtdText r →
      DtdText ('<' :: '?' :: (b ++ '?' :: '>' :: r))
  | declaration {b r : List Char} : DtdText b → b.head? ≠ some '-' → b.head? ≠ some '[' → DtdText r →
      DtdText ('<' :: '!' :: (b ++ '>' :: r))

/-- A text written with other line ends. -/
def withLineEnds (e u : List Char) : List Char := u.flatMap fun c => if c = '\n' then e else [c]

end Verif.Spec
