import Verif.Model.Outcome
/-! Texts and their encodings as bytes (the Unicode standard, section 3.9/3.10, and ISO 8859-1).  A text is a list
of Unicode characters, a byte is a `Char` of code below 256. -/
namespace Verif.Spec

def byte (n : Nat) : Char := Char.ofNat (n % 256)

inductive Order where
  | big | little

/-- The bytes of one 16-bit unit. -/
def unit16 (o : Order) (n : Nat) : List Char :=
  match o with
  | .big => [byte (n / 256), byte n]
  | .little => [byte n, byte (n / 256)]

/-- UTF-8, as in Lean's own strings. -/
def asUtf8 (t : List Char) : List Char := t.flatMap fun c => (String.utf8EncodeChar c).map fun b => Char.ofNat b.toNat

/-- UTF-16: characters above U+FFFF take a high and a low surrogate. -/
def asUtf16 (o : Order) (t : List Char) : List Char := t.flatMap fun c =>
  if c.toNat < 0x10000 then unit16 o c.toNat
  else unit16 o (0xD800 + (c.toNat - 0x10000) / 1024) ++ unit16 o (0xDC00 + (c.toNat - 0x10000) % 1024)

/-- UTF-32. -/
def asUtf32 (o : Order) (t : List Char) : List Char := t.flatMap fun c =>
  match o with
  | .big => unit16 .big (c.toNat / 65536) ++ unit16 .big c.toNat
  | .little => unit16 .little c.toNat ++ unit16 .little (c.toNat / 65536)

/-- The Unicode encodings a file can have. -/
inductive Form where
  | utf8
  | utf16 (o : Order)
  | utf32 (o : Order)

def Form.bytes : Form → List Char → List Char
  | .utf8, t => asUtf8 t
  | .utf16 o, t => asUtf16 o t
  | .utf32 o, t => asUtf32 o t

/-- The byte order mark. -/
def bom : Char := Char.ofNat 0xFEFF

def nul : Char := Char.ofNat 0

/-- The text begins with a declaration that names Latin-1 as its encoding. -/
def SaysLatin1 (t : List Char) : Prop :=
  ∃ sp pre sp1 sp2 name rest q, (∀ c ∈ sp ++ sp1 ++ sp2, c = ' ' ∨ c = '\t' ∨ c = '\n' ∨ c = '\r') ∧ sp ≠ [] ∧
    (∀ c ∈ pre, c ≠ '?') ∧ (∀ a b, pre ≠ a ++ 'e' :: 'n' :: b) ∧ (q = '"' ∨ q = '\'') ∧
    name.map Char.toLower ∈ ["iso-8859-1".toList, "latin1".toList] ∧
    t = "<?xml".toList ++ sp ++ pre ++ "encoding".toList ++ sp1 ++ '=' :: (sp2 ++ q :: (name ++ q :: rest))

end Verif.Spec
