import Verif.Model.Names
/-
third_parties/pugixml/pugixml.cc, the part of the vendored XML library that the map files pass
through: `xml_document::save_file` with the default flags (builder/map_builder.cc:813,
builder/map_package.cc:227, builder/multi_trajectory/multi_trajectory_map_builder.cc:227) and
`xml_document::load_file` with the default options (builder/map_builder_options.cc:83,
builder/multi_trajectory/multi_trajectory_map_builder.cc:151, tools/join_pieces.cc:49).

A file is the list of its bytes, a byte being a `Char` of code below 256.  A document is a forest in
the first-child / next-sibling form the library uses.  Not modelled: memory allocation failures.  The
conversion of other encodings is in Model/XmlEnc (a file that does not announce one is taken as UTF-8,
which is passed through unchanged).
-/
namespace Verif

abbrev XmlAttrs := List (List Char × List Char)

/-- The children of a node: nothing, an element and what follows it, or a text and what follows it. -/
inductive XmlForest where
  | nil
  | elem (name : List Char) (attrs : XmlAttrs) (kids next : XmlForest)
  | text (value : List Char) (next : XmlForest)
  deriving DecidableEq, Repr

/-- Appending children (pugixml.cc:1231-1252 `append_node`). -/
def XmlForest.app : XmlForest → XmlForest → XmlForest
  | .nil, g => g
  | .elem n a k t, g => .elem n a k (t.app g)
  | .text v t, g => .text v (t.app g)

/-- pugixml.cc:1834-1840, 1842-1862 : `ct_space`. -/
def isXmlSpace (c : Char) : Bool := c = '\t' || c = '\n' || c = '\r' || c = ' '

/-- pugixml.cc:1838, 1842-1862 : `ct_start_symbol`. -/
def isXmlStart (c : Char) : Bool :=
  (65 ≤ c.toNat && c.toNat ≤ 90) || (97 ≤ c.toNat && c.toNat ≤ 122) || c = '_' || c = ':' ||
    128 ≤ c.toNat

/-- pugixml.cc:1837, 1842-1862 : `ct_symbol`. -/
def isXmlSymbol (c : Char) : Bool :=
  isXmlStart c || (48 ≤ c.toNat && c.toNat ≤ 57) || c = '-' || c = '.'

/-! Writing -/

/-- pugixml.cc:3906-3945 `text_output_escaped` with `ctx_special_attr` (1862-1890), one byte. -/
def escAttrChar (c : Char) : List Char :=
  if c = '&' then ['&', 'a', 'm', 'p', ';']
  else if c = '<' then ['&', 'l', 't', ';']
  else if c = '>' then ['&', 'g', 't', ';']
  else if c = '"' then ['&', 'q', 'u', 'o', 't', ';']
  else if c.toNat < 32 ∧ c ≠ '\t' then
    ['&', '#', digitChar (c.toNat / 10), digitChar (c.toNat % 10), ';']
  else [c]

def escAttr (v : List Char) : List Char := v.flatMap escAttrChar

/-- pugixml.cc:4060-4088 `node_output_attributes`. -/
def writeAttrs : XmlAttrs → List Char
  | [] => []
  | (n, v) :: as => ' ' :: (n ++ '=' :: '"' :: (escAttr v ++ '"' :: writeAttrs as))

/-- pugixml.cc:3977-4015 `text_output_indent` with the default indentation. -/
def writeIndent (depth : Nat) : List Char := List.replicate depth '\t'

/-- pugixml.cc:4090-4150 `node_output_start`, 4152-4161 `node_output_end`, 4222-4315 `node_output`
(the newline the code writes before every node but the first and once at the end is written here
after every node).  The project adds no text nodes; they are not written. -/
def writeForest : Nat → XmlForest → List Char
  | _, .nil => []
  | d, .elem n a .nil next =>
    writeIndent d ++ '<' :: (n ++ writeAttrs a ++ ' ' :: '/' :: '>' :: '\n' :: writeForest d next)
  | d, .elem n a kids next =>
    writeIndent d ++ '<' :: (n ++ writeAttrs a ++ '>' :: '\n' ::
      (writeForest (d + 1) kids ++ writeIndent d ++ '<' :: '/' :: (n ++ '>' :: '\n' ::
        writeForest d next)))
  | d, .text _ next => writeForest d next

/-- pugixml.cc:7149-7155. -/
def xmlDecl : List Char := "<?xml version=\"1.0\"?>\n".toList

/-- pugixml.cc:7143-7169 `xml_document::save`. -/
def saveXml (f : XmlForest) : List Char := xmlDecl ++ writeForest 0 f

/-! Reading -/

inductive XmlStatus where
  | noDocumentElement | unrecognizedTag | badPi | badComment | badCdata | badStartElement
  | badAttribute | badEndElement | endElementMismatch | badDoctype | fuel
  deriving DecidableEq, Repr

/-- pugixml.cc:1469-1512 `utf8_writer::any` (`low` and `high`; each byte is cast to `uint8_t`). -/
def utf8Bytes (n : Nat) : List Char :=
  let b := fun k : Nat => Char.ofNat (k % 256)
  if n < 0x80 then [b n]
  else if n < 0x800 then [b (0xC0 ||| (n / 64)), b (0x80 ||| (n % 64))]
  else if n < 0x10000 then [b (0xE0 ||| (n / 4096)), b (0x80 ||| (n / 64 % 64)), b (0x80 ||| (n % 64))]
  else [b (0xF0 ||| (n / 262144)), b (0x80 ||| (n / 4096 % 64)), b (0x80 ||| (n / 64 % 64)),
    b (0x80 ||| (n % 64))]

/-- pugixml.cc:2484-2498 : the digits of `&#…;`; the number is an `unsigned int`. -/
def escDec (acc : Nat) : List Char → Option (Nat × List Char)
  | [] => none
  | c :: r =>
    if 48 ≤ c.toNat ∧ c.toNat ≤ 57 then escDec ((10 * acc + (c.toNat - 48)) % 2 ^ 32) r
    else if c = ';' then some (acc, r)
    else none

/-- pugixml.cc:2462-2476 : the digits of `&#x…;`. -/
def escHex (acc : Nat) : List Char → Option (Nat × List Char)
  | [] => none
  | c :: r =>
    if 48 ≤ c.toNat ∧ c.toNat ≤ 57 then escHex ((16 * acc + (c.toNat - 48)) % 2 ^ 32) r
    else if 97 ≤ c.toNat ∧ c.toNat ≤ 102 then escHex ((16 * acc + (c.toNat - 87)) % 2 ^ 32) r
    else if 65 ≤ c.toNat ∧ c.toNat ≤ 70 then escHex ((16 * acc + (c.toNat - 55)) % 2 ^ 32) r
    else if c = ';' then some (acc, r)
    else none

/-- pugixml.cc:2446-2583 `strconv_escape`, after the `&`: what is stored and what is left to read.
Where the text is no escape the code steps over the part it has looked at and leaves it as it is;
those are letters, digits, `#` or `;`, which reading on from just behind the `&` leaves as well. -/
def xmlEscape : List Char → List Char × List Char
  | '#' :: 'x' :: ';' :: r => (['&'], '#' :: 'x' :: ';' :: r)
  | '#' :: 'x' :: r =>
    match escHex 0 r with
    | some (n, r') => (utf8Bytes n, r')
    | none => (['&'], '#' :: 'x' :: r)
  | '#' :: ';' :: r => (['&'], '#' :: ';' :: r)
  | '#' :: r =>
    match escDec 0 r with
    | some (n, r') => (utf8Bytes n, r')
    | none => (['&'], '#' :: r)
  | 'a' :: 'm' :: 'p' :: ';' :: r => (['&'], r)
  | 'a' :: 'p' :: 'o' :: 's' :: ';' :: r => (['\''], r)
  | 'g' :: 't' :: ';' :: r => (['>'], r)
  | 'l' :: 't' :: ';' :: r => (['<'], r)
  | 'q' :: 'u' :: 'o' :: 't' :: ';' :: r => (['"'], r)
  | s => (['&'], s)

/-- pugixml.cc:2680, 2805 : the line feed behind a carriage return is dropped. -/
def dropLf : List Char → List Char
  | '\n' :: r => r
  | r => r

/-- pugixml.cc:2782-2814 `strconv_attribute_impl::parse_wconv` : the value up to the closing quote
`q` and what follows; `none` at the end of the file.  The first argument bounds the number of
steps. -/
def attrVal : Nat → Char → List Char → Option (List Char × List Char)
  | 0, _, _ => none
  | _ + 1, _, [] => none
  | n + 1, q, c :: r =>
    if c = q then some ([], r)
    else if isXmlSpace c then
      let r' := if c = '\r' then dropLf r else r
      match attrVal n q r' with
      | some (v, t) => some (' ' :: v, t)
      | none => none
    else if c = '&' then
      match attrVal n q (xmlEscape r).2 with
      | some (v, t) => some ((xmlEscape r).1 ++ v, t)
      | none => none
    else
      match attrVal n q r with
      | some (v, t) => some (c :: v, t)
      | none => none

/-- pugixml.cc:2658-2703 `strconv_pcdata_impl<opt_false, opt_true, opt_true>` : the text up to the
next `<` (which is left to read here) or the end of the file. -/
def pcdata : Nat → List Char → List Char × List Char
  | 0, s => ([], s)
  | _ + 1, [] => ([], [])
  | n + 1, c :: r =>
    if c = '<' then ([], c :: r)
    else if c = '\r' then
      ('\n' :: (pcdata n (dropLf r)).1, (pcdata n (dropLf r)).2)
    else if c = '&' then
      ((xmlEscape r).1 ++ (pcdata n (xmlEscape r).2).1, (pcdata n (xmlEscape r).2).2)
    else (c :: (pcdata n r).1, (pcdata n r).2)

/-- A stored string ends at the first zero byte. -/
def cStr (v : List Char) : List Char := v.takeWhile (· ≠ Char.ofNat 0)

/-- pugixml.cc:3274-3343, `LOC_ATTRIBUTES` : the attributes, whether the element ends with `/>`, and
what follows the tag. -/
def xmlAttrs : Nat → List Char → XmlAttrs → Except XmlStatus (XmlAttrs × Bool × List Char)
  | 0, _, _ => .error .fuel
  | n + 1, s, acc =>
    match s.dropWhile isXmlSpace with
    | [] => .error .badStartElement
    | c :: r =>
      if isXmlStart c then
        match ((c :: r).dropWhile isXmlSymbol).dropWhile isXmlSpace with
        | '=' :: r2 =>
          match r2.dropWhile isXmlSpace with
          | q :: r3 =>
            if q = '"' ∨ q = '\'' then
              match attrVal (r3.length + 1) q r3 with
              | none => .error .badAttribute
              | some (v, r4) =>
                if r4.head?.any isXmlStart then .error .badAttribute
                else xmlAttrs n r4 (acc ++ [((c :: r).takeWhile isXmlSymbol, cStr v)])
            else .error .badAttribute
          | [] => .error .badAttribute
        | _ => .error .badAttribute
      else if c = '/' then
        match r with
        | '>' :: r2 => .ok (acc, true, r2)
        | _ => .error .badStartElement
      else if c = '>' then .ok (acc, false, r)
      else .error .badStartElement

/-- The text behind the first occurrence of `pat`. -/
def skipPast (pat : List Char) : List Char → Option (List Char)
  | [] => none
  | c :: r => if pat <+: (c :: r) then some ((c :: r).drop pat.length) else skipPast pat r

/-- An open element: its name, its attributes and the children of its parent in front of it. -/
structure XmlFrame where
  name : List Char
  attrs : XmlAttrs
  before : XmlForest
  deriving DecidableEq, Repr

/-- Where the parser stands: the open elements, innermost first, and the children of the innermost
one so far. -/
structure XmlState where
  open_ : List XmlFrame
  kids : XmlForest
  deriving DecidableEq, Repr

/-- `PUGI__PUSHNODE(node_element)`, 2590. -/
def XmlState.push (st : XmlState) (n : List Char) (a : XmlAttrs) : XmlState :=
  { open_ := { name := n, attrs := a, before := st.kids } :: st.open_, kids := .nil }

/-- An element without children, pushed and popped. -/
def XmlState.leaf (st : XmlState) (n : List Char) (a : XmlAttrs) : XmlState :=
  { st with kids := st.kids.app (.elem n a .nil .nil) }

/-- pugixml.cc:3150-3240 `parse_question`, after `<?` (declarations and processing instructions are
skipped with the default options). -/
def xmlQuestion (s : List Char) : Except XmlStatus (List Char) :=
  match s with
  | c :: _ =>
    if isXmlStart c then
      match s.dropWhile isXmlSymbol with
      | [] => .error .badPi
      | r =>
        match skipPast ['?', '>'] r with
        | some t => .ok t
        | none => .error .badPi
    else .error .badPi
  | [] => .error .badPi

/-- pugixml.cc:2954-2985 `parse_doctype_ignore`, after `<![` : what is behind the end of the section. -/
def doctypeIgnore : Nat → List Char → Option (List Char)
  | _, [] => none
  | depth, '<' :: '!' :: '[' :: r => doctypeIgnore (depth + 1) r
  | depth, ']' :: ']' :: '>' :: r => if depth = 0 then some r else doctypeIgnore (depth - 1) r
  | depth, _ :: r => doctypeIgnore depth r

/-- pugixml.cc:2987-3033 `parse_doctype_group` with 2926-2952 `parse_doctype_primitive`, after the opening
`<!` : what is behind the closing `>`.  The first number bounds the number of steps. -/
def doctypeGroup : Nat → Nat → List Char → Option (List Char)
  | 0, _, _ => none
  | _ + 1, _, [] => none
  | n + 1, depth, c :: r =>
    if c = '<' then
      match r with
      | '!' :: '-' :: '-' :: t => (skipPast ['-', '-', '>'] t).bind (doctypeGroup n depth)
      | '!' :: '-' :: _ => none
      | '!' :: '[' :: t => (doctypeIgnore 0 t).bind (doctypeGroup n depth)
      | '!' :: t => doctypeGroup n (depth + 1) t
      | '?' :: t => (skipPast ['?', '>'] t).bind (doctypeGroup n depth)
      | _ => none
    else if c = '"' ∨ c = '\'' then (skipPast [c] r).bind (doctypeGroup n depth)
    else if c = '>' then
      if depth = 0 then some r else doctypeGroup n (depth - 1) r
    else doctypeGroup n depth r

/-- pugixml.cc:2627-2653 `strconv_cdata` : a carriage return, with a line feed behind it or without, is read as a
line feed. -/
def eolNorm : List Char → List Char
  | [] => []
  | '\r' :: '\n' :: r => '\n' :: eolNorm r
  | '\r' :: r => '\n' :: eolNorm r
  | c :: r => c :: eolNorm r

/-- pugixml.cc:3035-3148 `parse_exclamation`, after `<!` : comments are skipped, a CDATA section is
kept as a text, a document type outside of all elements is skipped. -/
def xmlBang (s : List Char) (st : XmlState) : Except XmlStatus (List Char × XmlState) :=
  match s with
  | '-' :: '-' :: r =>
    match skipPast ['-', '-', '>'] r with
    | some t => .ok (t, st)
    | none => .error .badComment
  | '-' :: _ => .error .badComment
  | '[' :: 'C' :: 'D' :: 'A' :: 'T' :: 'A' :: '[' :: r =>
    match skipPast [']', ']', '>'] r with
    | some t => .ok (t, { st with
        kids := st.kids.app (.text (eolNorm (r.take (r.length - t.length - 3))) .nil) })
    | none => .error .badCdata
  | '[' :: _ => .error .badCdata
  | 'D' :: 'O' :: 'C' :: 'T' :: 'Y' :: 'P' :: 'E' :: r =>
    if st.open_ = [] then
      match doctypeGroup (r.length + 1) 0 r with
      | some t => .ok (t, st)
      | none => .error .badDoctype
    else .error .badDoctype
  | _ => .error .unrecognizedTag

/-- pugixml.cc:3371-3406, after `</`. -/
def xmlClose (s : List Char) (st : XmlState) : Except XmlStatus (List Char × XmlState) :=
  match st.open_ with
  | [] => .error .endElementMismatch
  | f :: fs =>
    if s.takeWhile isXmlSymbol = f.name then
      match (s.dropWhile isXmlSymbol).dropWhile isXmlSpace with
      | '>' :: r => .ok (r, { open_ := fs, kids := f.before.app (.elem f.name f.attrs st.kids .nil) })
      | _ => .error .badEndElement
    else .error .endElementMismatch

/-- pugixml.cc:3258-3370, after `<`, the name of an element. -/
def xmlOpen (s : List Char) (st : XmlState) : Except XmlStatus (List Char × XmlState) :=
  let n := s.takeWhile isXmlSymbol
  match s.dropWhile isXmlSymbol with
  | [] => .error .badStartElement
  | c :: r =>
    if c = '>' then .ok (r, st.push n [])
    else if isXmlSpace c then
      match xmlAttrs (r.length + 1) r [] with
      | .error e => .error e
      | .ok (a, closed, t) => .ok (t, if closed then st.leaf n a else st.push n a)
    else if c = '/' then
      match r with
      | '>' :: t => .ok (t, st.leaf n [])
      | _ => .error .badStartElement
    else .error .badStartElement

/-- pugixml.cc:3256-3421, `LOC_TAG` : what comes after a `<`. -/
def xmlTag (s : List Char) (st : XmlState) : Except XmlStatus (List Char × XmlState) :=
  match s with
  | [] => .error .unrecognizedTag
  | c :: r =>
    if isXmlStart c then xmlOpen (c :: r) st
    else if c = '/' then xmlClose r st
    else if c = '?' then
      match xmlQuestion r with
      | .ok t => .ok (t, st)
      | .error e => .error e
    else if c = '!' then xmlBang r st
    else .error .unrecognizedTag

/-- pugixml.cc:3242-3478 `parse_tree` with the default options.  The last byte of the buffer is the
zero that `load_file` adds (4752-4774), so `endch` is zero. -/
def parseTree : Nat → List Char → XmlState → Except XmlStatus XmlForest
  | 0, _, _ => .error .fuel
  | n + 1, s, st =>
    match s with
    | [] => if st.open_ = [] then .ok st.kids else .error .endElementMismatch
    | c :: r =>
      if c = '<' then
        match xmlTag r st with
        | .ok (t, st') => parseTree n t st'
        | .error e => .error e
      else
        match (c :: r).dropWhile isXmlSpace with
        | [] => parseTree n [] st
        | c' :: r' =>
          if c' = '<' then parseTree n (c' :: r') st
          else if st.open_ = [] then parseTree n ((c' :: r').dropWhile (· ≠ '<')) st
          else
            parseTree n (pcdata (r.length + 2) (c :: r)).2
              { st with kids := st.kids.app (.text (cStr (pcdata (r.length + 2) (c :: r)).1) .nil) }

/-- pugixml.cc:3496-3506 `has_element_node_siblings`. -/
def XmlForest.hasElement : XmlForest → Bool
  | .nil => false
  | .elem _ _ _ _ => true
  | .text _ t => t.hasElement

/-- pugixml.cc:3480-3486 `parse_skip_bom`. -/
def skipBom (s : List Char) : List Char :=
  match s with
  | a :: b :: c :: r => if a.toNat = 0xEF ∧ b.toNat = 0xBB ∧ c.toNat = 0xBF then r else s
  | _ => s

/-- pugixml.cc:3508-3552 `parse`, on the bytes of a file up to the first zero byte. -/
def loadXml (file : List Char) : Except XmlStatus XmlForest :=
  let s := skipBom (cStr file)
  match parseTree (s.length + 1) s { open_ := [], kids := .nil } with
  | .ok f => if f.hasElement then .ok f else .error .noDocumentElement
  | .error e => .error e

/-! Looking things up -/

/-- pugixml.cc:5494-5503 `xml_node::attribute`. -/
def attrOf (a : XmlAttrs) (name : List Char) : Option (List Char) :=
  (a.find? fun p => p.1 = name).map (·.2)

/-- pugixml.cc:5484-5492 `child(name)` followed by `next_sibling(name)` (5505-5513) until the end:
the attributes and children of every element of this name. -/
def XmlForest.named : XmlForest → List Char → List (XmlAttrs × XmlForest)
  | .nil, _ => []
  | .elem n a k t, m => if n = m then (a, k) :: t.named m else t.named m
  | .text _ t, m => t.named m

/-- pugixml.cc:6343-6356 `xml_text::_data` : the first text among the children. -/
def XmlForest.firstText : XmlForest → Option (List Char)
  | .nil => none
  | .elem _ _ _ t => t.firstText
  | .text v _ => some v

end Verif
