import Verif.Spec.Xml
import Verif.Spec.XmlNum
/-
XML files written by hand (C104): what text stands for what document.  Layout is free, there may be
comments, texts, references and both kinds of quotes.
-/
namespace Verif.Spec
open Verif

/-- White space of XML. -/
def Blank (s : List Char) : Prop := ∀ c ∈ s, c = ' ' ∨ c = '\t' ∨ c = '\n' ∨ c = '\r'

/-- The UTF-8 bytes of a character. -/
def utf8Text (c : Char) : List Char := (String.utf8EncodeChar c).map fun b => Char.ofNat b.toNat

/-- A reference and the bytes it stands for. -/
inductive Reference : List Char → List Char → Prop
  | amp : Reference ['&', 'a', 'm', 'p', ';'] ['&']
  | lt : Reference ['&', 'l', 't', ';'] ['<']
  | gt : Reference ['&', 'g', 't', ';'] ['>']
  | quot : Reference ['&', 'q', 'u', 'o', 't', ';'] ['"']
  | apos : Reference ['&', 'a', 'p', 'o', 's', ';'] ['\'']
  | dec {ds : List Char} {n : Nat} : digitsVal ds 0 = some n → ds ≠ [] → n.isValidChar → n ≠ 0 →
      Reference ('&' :: '#' :: (ds ++ [';'])) (utf8Text (Char.ofNat n))
  | hex {ds : List Char} {n : Nat} : hexVal ds 0 = some n → ds ≠ [] → n.isValidChar → n ≠ 0 →
      Reference ('&' :: '#' :: 'x' :: (ds ++ [';'])) (utf8Text (Char.ofNat n))

/-- The value between two quotes `q`: tabs and line ends count as spaces. -/
inductive AttrText (q : Char) : List Char → List Char → Prop
  | nil : AttrText q [] []
  | plain {c : Char} {s v : List Char} : c ≠ q → c ≠ '&' → c ≠ '\t' → c ≠ '\n' → c ≠ '\r' → c ≠ Char.ofNat 0 →
      AttrText q s v → AttrText q (c :: s) (c :: v)
  | blank {c : Char} {s v : List Char} : c = '\t' ∨ c = '\n' → AttrText q s v → AttrText q (c :: s) (' ' :: v)
  | ref {e u s v : List Char} : Reference e u → AttrText q s v → AttrText q (e ++ s) (u ++ v)

/-- The text between two tags (with Unix line ends). -/
inductive BodyText : List Char → List Char → Prop
  | nil : BodyText [] []
  | plain {c : Char} {s v : List Char} : c ≠ '<' → c ≠ '&' → c ≠ '\r' → c ≠ Char.ofNat 0 →
      BodyText s v → BodyText (c :: s) (c :: v)
  | ref {e u s v : List Char} : Reference e u → BodyText s v → BodyText (e ++ s) (u ++ v)

/-- The attributes in a tag. -/
inductive AttrsText : List Char → XmlAttrs → Prop
  | nil : AttrsText [] []
  | cons {b n b1 b2 raw v s : List Char} {q : Char} {a : XmlAttrs} : Blank b → b ≠ [] → XmlName n → Blank b1 → Blank b2 →
      (q = '"' ∨ q = '\'') → AttrText q raw v → AttrsText s a →
      AttrsText (b ++ (n ++ (b1 ++ '=' :: (b2 ++ q :: (raw ++ q :: s))))) ((n, v) :: a)

/-- What may stand in a comment. -/
def CommentText (c : List Char) : Prop := ¬ ['-', '-'] <:+: c ∧ c.getLast? ≠ some '-' ∧ Char.ofNat 0 ∉ c

/-- Elements, comments and (inside an element, `inside = true`) texts. -/
inductive Markup : Bool → List Char → XmlForest → Prop
  | stop {i : Bool} {b : List Char} : Blank b → Markup i b .nil
  | comment {i : Bool} {b c s : List Char} {f : XmlForest} : Blank b → CommentText c → Markup i s f →
      Markup i (b ++ '<' :: '!' :: '-' :: '-' :: (c ++ '-' :: '-' :: '>' :: s)) f
  | leaf {i : Bool} {b n t b' s : List Char} {a : XmlAttrs} {f : XmlForest} : Blank b → XmlName n → AttrsText t a →
      Blank b' → Markup i s f → Markup i (b ++ '<' :: (n ++ (t ++ (b' ++ '/' :: '>' :: s)))) (.elem n a .nil f)
  | node {i : Bool} {b n t b' ks b2 s : List Char} {a : XmlAttrs} {k f : XmlForest} : Blank b → XmlName n → AttrsText t a →
      Blank b' → Markup true ks k → Blank b2 → Markup i s f →
      Markup i (b ++ '<' :: (n ++ (t ++ (b' ++ '>' :: (ks ++ '<' :: '/' :: (n ++ (b2 ++ '>' :: s)))))))
        (.elem n a k f)
  | text {t v s : List Char} {f : XmlForest} : BodyText t v → ¬ Blank t → Markup true s f →
      (s = [] ∨ s.head? = some '<') → Markup true (t ++ s) (.text v f)

/-- A whole file: an XML declaration, if there is one, and the elements. -/
inductive Document : List Char → XmlForest → Prop
  | plain {s : List Char} {f : XmlForest} : Markup false s f → Document s f
  | decl {d s : List Char} {f : XmlForest} : '?' ∉ d → Char.ofNat 0 ∉ d → Markup false s f →
      Document ('<' :: '?' :: 'x' :: 'm' :: 'l' :: ' ' :: (d ++ '?' :: '>' :: s)) f

end Verif.Spec
