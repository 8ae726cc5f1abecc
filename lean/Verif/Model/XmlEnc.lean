import Verif.Model.ConfigText
/-
third_parties/pugixml/pugixml.cc, the encodings of XML files: `guess_buffer_encoding`,
`parse_declaration_encoding`, `convert_buffer` and the decoders, as `load_file` (4776-4803, 7103-7110)
uses them with `encoding_auto`.  A byte is a `Char` of code below 256, as in Model/Xml.

Simplified: a Latin-1 file without bytes above 127 is parsed in place, its last byte being remembered
instead of a zero being added (2208-2222, 3519-3520); here it is parsed as if the zero was added, as it
is for all other files.
-/
namespace Verif

/-- pugixml.hpp:166-178 `xml_encoding`, what a file can turn out to be. -/
inductive XmlEncoding where
  | utf8 | utf16be | utf16le | utf32be | utf32le | latin1
  deriving DecidableEq, Repr

/-- pugixml.cc:1935-1962 : from the letters `en` of the declaration on; the name of the encoding. -/
def encodingName (s : List Char) : Option (List Char) :=
  match s with
  | 'e' :: 'n' :: 'c' :: 'o' :: 'd' :: 'i' :: 'n' :: 'g' :: r =>
    match r.dropWhile isXmlSpace with
    | '=' :: r =>
      match r.dropWhile isXmlSpace with
      | q :: r =>
        if q = '"' ∨ q = '\'' then
          if (r.dropWhile isXmlSymbol).head? = some q then some (r.takeWhile isXmlSymbol) else none
        else none
      | [] => none
    | _ => none
  | _ => none

/-- pugixml.cc:1928-1965 : looking for the letters `en`, up to the first question mark. -/
def declScan : List Char → Option (List Char)
  | c :: d :: r =>
    if c = '?' then none
    else if c = 'e' ∧ d = 'n' then encodingName (c :: d :: r)
    else declScan (d :: r)
  | _ => none

/-- pugixml.cc:1918-1970 `parse_declaration_encoding`. -/
def declEncoding (data : List Char) : Option (List Char) :=
  match data with
  | '<' :: '?' :: 'x' :: 'm' :: 'l' :: c :: r => if isXmlSpace c then declScan r else none
  | _ => none

/-- pugixml.cc:2003-2007, 2011-2013 : `enc[i] | ' '` compared with a small letter. -/
def isLetter (c l : Char) : Bool := (c.toNat ||| 32) = l.toNat

/-- pugixml.cc:2002-2014. -/
def isLatin1Name (n : List Char) : Bool :=
  match n with
  | [c0, c1, c2, '-', '8', '8', '5', '9', '-', '1'] => isLetter c0 'i' && isLetter c1 's' && isLetter c2 'o'
  | [c0, c1, c2, c3, c4, '1'] =>
    isLetter c0 'l' && isLetter c1 'a' && isLetter c2 't' && isLetter c3 'i' && isLetter c4 'n'
  | _ => false

/-- pugixml.cc:1972-2018 `guess_buffer_encoding`. -/
def guessEncoding (data : List Char) : XmlEncoding :=
  match data with
  | d0 :: d1 :: d2 :: d3 :: _ =>
    if d0.toNat = 0 ∧ d1.toNat = 0 ∧ d2.toNat = 0xfe ∧ d3.toNat = 0xff then .utf32be
    else if d0.toNat = 0xff ∧ d1.toNat = 0xfe ∧ d2.toNat = 0 ∧ d3.toNat = 0 then .utf32le
    else if d0.toNat = 0xfe ∧ d1.toNat = 0xff then .utf16be
    else if d0.toNat = 0xff ∧ d1.toNat = 0xfe then .utf16le
    else if d0.toNat = 0xef ∧ d1.toNat = 0xbb ∧ d2.toNat = 0xbf then .utf8
    else if d0.toNat = 0 ∧ d1.toNat = 0 ∧ d2.toNat = 0 ∧ d3.toNat = 0x3c then .utf32be
    else if d0.toNat = 0x3c ∧ d1.toNat = 0 ∧ d2.toNat = 0 ∧ d3.toNat = 0 then .utf32le
    else if d0.toNat = 0 ∧ d1.toNat = 0x3c ∧ d2.toNat = 0 ∧ d3.toNat = 0x3f then .utf16be
    else if d0.toNat = 0x3c ∧ d1.toNat = 0 ∧ d2.toNat = 0x3f ∧ d3.toNat = 0 then .utf16le
    else if d0.toNat = 0 ∧ d1.toNat = 0x3c then .utf16be
    else if d0.toNat = 0x3c ∧ d1.toNat = 0 then .utf16le
    else
      match declEncoding data with
      | some n => if isLatin1Name n then .latin1 else .utf8
      | none => .utf8
  | _ => .utf8

/-- The bytes of a file as the 16-bit words the machine sees (`native`: its low bytes come first), an
odd byte at the end being left out (pugixml.cc:2176-2177, 1901-1906). -/
def words16 (native : Bool) : List Char → List Nat
  | a :: b :: r => (if native then a.toNat + 256 * b.toNat else 256 * a.toNat + b.toNat) :: words16 native r
  | _ => []

/-- The same with 32-bit words. -/
def words32 (native : Bool) : List Char → List Nat
  | a :: b :: c :: d :: r =>
    (if native then a.toNat + 256 * b.toNat + 65536 * c.toNat + 16777216 * d.toNat
      else 16777216 * a.toNat + 65536 * b.toNat + 256 * c.toNat + d.toNat) :: words32 native r
  | _ => []

/-- pugixml.cc:1438-1441 `endian_swap` of a 16-bit word. -/
def swap16 (v : Nat) : Nat := v % 256 * 256 + v / 256

/-- pugixml.cc:1443-1446 `endian_swap` of a 32-bit word. -/
def swap32 (v : Nat) : Nat :=
  v % 256 * 16777216 + v / 256 % 256 * 65536 + v / 65536 % 256 * 256 + v / 16777216

/-- pugixml.cc:1686-1736 `utf16_decoder` on the words after swapping, writing UTF-8. -/
def decode16 : List Nat → List Char
  | [] => []
  | u :: r =>
    if u < 0xD800 then utf8Bytes u ++ decode16 r
    else if 0xE000 ≤ u then utf8Bytes u ++ decode16 r
    else if u < 0xDC00 then
      match r with
      | [] => []
      | v :: r' =>
        if 0xDC00 ≤ v ∧ v < 0xE000 then utf8Bytes (0x10000 + u % 1024 * 1024 + v % 1024) ++ decode16 r'
        else decode16 (v :: r')
    else decode16 r

/-- pugixml.cc:1738-1766 `utf32_decoder`. -/
def decode32 (l : List Nat) : List Char := l.flatMap utf8Bytes

/-- pugixml.cc:1768-1785, 2208-2243 : the 7-bit prefix is copied, the rest decoded (`low` of a byte). -/
def decodeLatin1 (data : List Char) : List Char :=
  data.takeWhile (fun c => c.toNat ≤ 127) ++ (data.dropWhile (fun c => c.toNat ≤ 127)).flatMap fun c => utf8Bytes c.toNat

/-- pugixml.cc:2245-2277 `convert_buffer`, after 2020-2038 `get_buffer_encoding`. -/
def decodeFile (native : Bool) (data : List Char) : List Char :=
  match guessEncoding data with
  | .utf8 => data
  | .utf16be => decode16 (if native then (words16 native data).map swap16 else words16 native data)
  | .utf16le => decode16 (if native then words16 native data else (words16 native data).map swap16)
  | .utf32be => decode32 (if native then (words32 native data).map swap32 else words32 native data)
  | .utf32le => decode32 (if native then words32 native data else (words32 native data).map swap32)
  | .latin1 => decodeLatin1 data

/-- pugixml.cc:4776-4803 `load_file_impl` with 4679-4708 `load_buffer_impl`. -/
def loadFile (native : Bool) (data : List Char) : Except XmlStatus XmlForest := loadXml (decodeFile native data)

/-- map_builder_options.cc:71-322 `Initialise` on the bytes of the settings file. -/
def startFromFile (native : Bool) (mkdir : List Char → Bool) (fmax slope : Rat) (name : String) (bytes : Option (List Char)) :
    Outcome (BuilderCfg × List FilterConfig) :=
  startBuilder mkdir fmax slope name (bytes.map (decodeFile native))

end Verif
