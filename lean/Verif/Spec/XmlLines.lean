import Verif.Spec.Xml
namespace Verif.Spec

/-- What is in a file and what is read: a line may end with a line feed, with a carriage return and a line feed, or with
a carriage return alone; it is read as if it ended with a line feed (XML 1.0, 2.11). -/
inductive LineEnds : List Char → List Char → Prop
  | nil : LineEnds [] []
  | char {c : Char} {a b : List Char} : c ≠ '\r' → LineEnds a b → LineEnds (c :: a) (c :: b)
  | crlf {a b : List Char} : LineEnds a b → LineEnds ('\r' :: '\n' :: a) ('\n' :: b)
  | cr {a b : List Char} : a.head? ≠ some '\n' → LineEnds a b → LineEnds ('\r' :: a) ('\n' :: b)

end Verif.Spec
