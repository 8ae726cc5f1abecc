import Verif.Proofs.Xml
/-
C101: the XML files the program writes (the map description, the map package description) are read
again as the documents that were written; a file that was cut off while it was written is rejected.
-/
namespace Verif
open Verif.Spec

instance (v : List Char) : Decidable (XmlValue v) := by unfold XmlValue; infer_instance

/-- The declaration behind its `<`, without the newline. -/
def declTail : List Char :=
  ['?', 'x', 'm', 'l', ' ', 'v', 'e', 'r', 's', 'i', 'o', 'n', '=', '"', '1', '.', '0', '"', '?', '>']

theorem xmlDecl_eq : xmlDecl = '<' :: (declTail ++ ['\n']) := by decide +kernel

theorem declTail_read (q : List Char) (st : XmlState) : xmlTag (declTail ++ q) st = .ok (q, st) := by
  have h1 : List.dropWhile isXmlSymbol ('x' :: 'm' :: 'l' :: ' ' :: 'v' :: 'e' :: 'r' :: 's' :: 'i' ::
      'o' :: 'n' :: '=' :: '"' :: '1' :: '.' :: '0' :: '"' :: '?' :: '>' :: q) =
      ' ' :: 'v' :: 'e' :: 'r' :: 's' :: 'i' ::
      'o' :: 'n' :: '=' :: '"' :: '1' :: '.' :: '0' :: '"' :: '?' :: '>' :: q := by
    rw [List.dropWhile_cons_of_pos (by decide), List.dropWhile_cons_of_pos (by decide),
      List.dropWhile_cons_of_pos (by decide), List.dropWhile_cons_of_neg (by decide)]
  unfold xmlTag declTail
  simp only [List.cons_append, List.nil_append]
  rw [if_neg (by decide), if_neg (by decide), if_pos trivial]
  unfold xmlQuestion
  simp only [h1]
  rw [if_pos (by decide)]
  simp [skipPast]

theorem decl_read (rest : List Char) (hr : Boundary rest) (st : XmlState) :
    parseFrom (xmlDecl ++ rest) st = parseFrom rest st := by
  have e : xmlDecl ++ rest = '<' :: (declTail ++ ('\n' :: rest)) := by
    rw [xmlDecl_eq]; simp
  rw [e, parseFrom_tag, declTail_read]
  exact parseFrom_ws (ws := ['\n']) st newline_space hr

theorem skipBom_lt (r : List Char) : skipBom ('<' :: r) = '<' :: r := by
  unfold skipBom
  split
  · rename_i a b c r' h
    simp only [List.cons.injEq] at h
    rw [if_neg]
    rw [← h.1]
    rintro ⟨h1, _⟩
    exact absurd h1 (by decide)
  · rfl

theorem mem_writeForest_value : ∀ (f : XmlForest) (d : Nat), DocOk f →
    Char.ofNat 0 ∉ writeForest d f := by
  have hname : ∀ {n : List Char}, XmlName n → Char.ofNat 0 ∉ n := by
    intro n hn hm
    exact absurd (xmlName_symbols hn _ hm) (by decide)
  have hesc : ∀ v : List Char, XmlValue v → Char.ofNat 0 ∉ escAttr v := by
    intro v hv h
    unfold escAttr at h
    rw [List.mem_flatMap] at h
    obtain ⟨c, hcv, hc⟩ := h
    unfold escAttrChar at hc
    split_ifs at hc with h1 h2 h3 h4 h5
    · exact absurd hc (by decide)
    · exact absurd hc (by decide)
    · exact absurd hc (by decide)
    · exact absurd hc (by decide)
    · have hl := h5.1
      generalize c.toNat = k at hl hc
      revert hc
      interval_cases k <;> decide
    · simp only [List.mem_singleton] at hc
      exact hv (hc ▸ hcv)
  have hattrs : ∀ a : XmlAttrs, (∀ p ∈ a, XmlName p.1 ∧ XmlValue p.2) → Char.ofNat 0 ∉ writeAttrs a := by
    intro a
    induction a with
    | nil => intro _; simp [writeAttrs]
    | cons p a ih =>
      intro h
      obtain ⟨n, v⟩ := p
      have h1 := hname (h _ (List.mem_cons_self ..)).1
      have h2 := hesc v (h _ (List.mem_cons_self ..)).2
      have h3 := ih (fun p hp => h p (List.mem_cons_of_mem _ hp))
      simp only [writeAttrs, List.mem_cons, List.mem_append, not_or]
      exact ⟨by decide, h1, by decide, by decide, h2, by decide, h3⟩
  have hind : ∀ d, Char.ofNat 0 ∉ writeIndent d := by
    intro d h
    exact absurd (indent_space d _ h) (by decide)
  intro f
  induction f with
  | nil => intro d _; simp [writeForest]
  | text v t ih => intro d hf; exact absurd hf id
  | elem n a k t ihk iht =>
    intro d hf
    obtain ⟨hn, ha, hk, ht⟩ := hf
    have h1 := hname hn
    have h2 := hattrs a ha
    have h3 := ihk (d + 1) hk
    have h4 := iht d ht
    have h5 := hind d
    rw [writeForest_elem]
    by_cases hkn : k = .nil
    · subst hkn
      simp only [elemBody, List.mem_cons, List.mem_append, not_or]
      exact ⟨h5, by decide, ⟨h1, h2, by decide, by decide, by decide, by simp⟩, by decide, h4⟩
    · rw [elemBody_kids hkn]
      simp only [List.mem_cons, List.mem_append, not_or]
      exact ⟨h5, by decide, ⟨h1, h2, by decide, by decide, h3, h5, by decide, by decide, h1, by decide,
        by simp⟩, by decide, h4⟩

theorem cStr_prefix {p s : List Char} (hs : Char.ofNat 0 ∉ s) (h : p <+: s) : cStr p = p :=
  cStr_id fun hp => hs (h.subset hp)

theorem saveXml_no_zero {f : XmlForest} (hf : DocOk f) : Char.ofNat 0 ∉ saveXml f := by
  unfold saveXml
  rw [List.mem_append, not_or]
  exact ⟨by decide, mem_writeForest_value f 0 hf⟩

theorem loadXml_eq {s : List Char} (h0 : Char.ofNat 0 ∉ s) (hb : skipBom s = s) :
    loadXml s = match parseFrom s { open_ := [], kids := .nil } with
      | .ok f => if f.hasElement then .ok f else .error .noDocumentElement
      | .error e => .error e := by
  unfold loadXml
  rw [cStr_id h0, hb]
  rfl

/-- C101, partial: a document written to a file is read again as it was, except that every tab in a
value has become a space.  Its values may contain anything else: quotes, `<`, `&`, line ends. -/
theorem C101_roundtrip_partial (f : XmlForest) (hf : DocOk f) (hne : f ≠ .nil) :
    loadXml (saveXml f) = .ok (docNoTabs f) := by
  have hb : skipBom (saveXml f) = saveXml f := skipBom_lt _
  rw [loadXml_eq (saveXml_no_zero hf) hb]
  have h1 := parseFrom_write f 0 [] { open_ := [], kids := .nil } hf boundary_nil
  rw [List.append_nil, parseFrom_nil, if_pos rfl] at h1
  have hbf : Boundary (writeForest 0 f) := by
    have := writeForest_boundary 0 hf boundary_nil
    rwa [List.append_nil] at this
  unfold saveXml
  rw [decl_read _ hbf, h1]
  cases f with
  | nil => exact absurd rfl hne
  | text v t => exact absurd hf id
  | elem n a k t => rfl

theorem docNoTabs_id : ∀ f : XmlForest, DocTabFree f → docNoTabs f = f := by
  intro f
  induction f with
  | nil => intro _; rfl
  | text v t ih => intro h; simp only [docNoTabs]; rw [ih h]
  | elem n a k t ihk iht =>
    rintro ⟨ha, hk, ht⟩
    simp only [docNoTabs]
    rw [ihk hk, iht ht]
    congr
    refine (List.map_congr_left (g := id) fun p hp => ?_).trans (List.map_id _)
    have : noTabs p.2 = p.2 := by
      unfold noTabs
      refine (List.map_congr_left (g := id) fun c hc => ?_).trans (List.map_id _)
      have : c ≠ '\t' := fun h => ha p hp (h ▸ hc)
      simp [this]
    rw [this]; rfl

/-- Without tabs the document is read exactly as it was written. -/
theorem C101_exact (f : XmlForest) (hf : DocOk f) (ht : DocTabFree f) (hne : f ≠ .nil) :
    loadXml (saveXml f) = .ok f := by
  rw [C101_roundtrip_partial f hf hne, docNoTabs_id f ht]

/-- A package description with one piece, whose file prefix contains the characters the writer has
to escape. -/
def xmlWitness (v : List Char) : XmlForest :=
  .elem "MapPackage".toList [] (.elem "Piece".toList
    [("x".toList, "10".toList), ("y".toList, "-2.5".toList), ("file".toList, v)] .nil
    (.elem "Piece".toList [("file".toList, "b".toList)] .nil .nil)) .nil

theorem xmlName_check {n : List Char} (h1 : n.head?.any isXmlStart = true)
    (h2 : n.all isXmlSymbol = true) : XmlName n := by
  cases n with
  | nil => simp at h1
  | cons c r =>
    refine ⟨⟨c, r, rfl, (isXmlStart_iff c).1 (by simpa using h1)⟩, fun c hc => ?_⟩
    exact (isXmlSymbol_iff c).1 (List.all_eq_true.1 h2 c hc)

theorem xmlWitness_ok {v : List Char} (hv : XmlValue v) : DocOk (xmlWitness v) := by
  refine ⟨xmlName_check (by decide) (by decide), by simp, ⟨xmlName_check (by decide) (by decide), ?_,
    trivial, xmlName_check (by decide) (by decide), ?_, trivial, trivial⟩, trivial⟩
  · intro p hp
    simp only [List.mem_cons, List.not_mem_nil, or_false] at hp
    rcases hp with rfl | rfl | rfl
    · exact ⟨xmlName_check (n := "x".toList) (by decide) (by decide), by decide⟩
    · exact ⟨xmlName_check (n := "y".toList) (by decide) (by decide), by decide⟩
    · exact ⟨xmlName_check (n := "file".toList) (by decide) (by decide), hv⟩
  · intro p hp
    simp only [List.mem_cons, List.not_mem_nil, or_false] at hp
    subst hp
    exact ⟨xmlName_check (by decide) (by decide), by decide⟩

example : loadXml (saveXml (xmlWitness "a \"b\" <c> & \n\r d'.pcd".toList)) =
    .ok (xmlWitness "a \"b\" <c> & \n\r d'.pcd".toList) :=
  C101_exact _ (xmlWitness_ok (by decide)) (by simp [xmlWitness, DocTabFree]) (by simp [xmlWitness])

/-- What the file looks like. -/
example : saveXml (xmlWitness "a\"b\n.pcd".toList) =
    ("<?xml version=\"1.0\"?>\n<MapPackage>\n\t<Piece x=\"10\" y=\"-2.5\" file=\"a&quot;b&#10;.pcd\" />\n" ++
      "\t<Piece file=\"b\" />\n</MapPackage>\n").toList := by decide +kernel

/-- C101 fails as it stands: a tab in a value is written as it is and read as a space, so a piece
whose file name contains a tab is looked for under another name. -/
theorem C101_tab_fails : ∃ f, DocOk f ∧ f ≠ .nil ∧ loadXml (saveXml f) ≠ .ok f := by
  refine ⟨xmlWitness "a\tb.pcd".toList, xmlWitness_ok (by decide), by simp [xmlWitness], ?_⟩
  rw [C101_roundtrip_partial _ (xmlWitness_ok (by decide)) (by simp [xmlWitness])]
  decide +kernel

/-- A document without elements is written to a file that is not accepted. -/
theorem C101_empty_fails : loadXml (saveXml .nil) = .error .noDocumentElement := by decide +kernel

/-- A file with one outermost element, as the program writes them, cut off anywhere before its last
`>` is not accepted: a map description that was not completely written is not taken for a smaller
map. -/
theorem C101_truncated (n : List Char) (a : XmlAttrs) (k : XmlForest)
    (hf : DocOk (.elem n a k .nil)) (p : List Char) (hp : p <+: saveXml (.elem n a k .nil))
    (hl : p.length + 1 < (saveXml (.elem n a k .nil)).length) : ∃ e, loadXml p = .error e := by
  obtain ⟨hn, ha, hk, _⟩ := id hf
  have h0 : Char.ofNat 0 ∉ p := fun h => saveXml_no_zero hf (hp.subset h)
  have e : saveXml (.elem n a k .nil) =
      '<' :: (declTail ++ ('\n' :: ('<' :: (elemBody 0 n a k ++ ['\n'])))) := by
    unfold saveXml
    rw [writeForest_elem]
    rw [xmlDecl_eq]; simp [writeIndent, writeForest]
  rw [e] at hp hl
  cases p with
  | nil => exact ⟨.noDocumentElement, by decide +kernel⟩
  | cons x p =>
    rw [List.cons_prefix_cons] at hp
    obtain ⟨rfl, hp⟩ := hp
    rw [loadXml_eq h0 (skipBom_lt p)]
    rcases prefix_append_cases hp with h | ⟨q, rfl, hq⟩
    · by_cases hw : p = declTail
      · subst hw
        exact ⟨.noDocumentElement, by decide +kernel⟩
      · have hp' : p <+: declTail.dropLast :=
          prefix_snoc_cases (c := '>') h hw
        obtain ⟨e, he⟩ := xmlTag_no_gt (prefix_no_gt hp' (by decide)) { open_ := [], kids := .nil }
        exact ⟨e, by rw [he]⟩
    · rw [parseFrom_tag, declTail_read]
      dsimp only
      cases q with
      | nil => exact ⟨.noDocumentElement, rfl⟩
      | cons x q =>
        rw [List.cons_prefix_cons] at hq
        obtain ⟨rfl, hq⟩ := hq
        cases q with
        | nil => exact ⟨.noDocumentElement, rfl⟩
        | cons x q =>
          rw [List.cons_prefix_cons] at hq
          obtain ⟨rfl, hq⟩ := hq
          have hne : q ≠ elemBody 0 n a k := by
            rintro rfl
            simp only [List.length_cons, List.length_append, List.length_nil] at hl
            omega
          have hq2 : q <+: elemBody 0 n a k := by
            refine prefix_snoc_cases hq ?_
            rintro rfl
            simp only [List.length_cons, List.length_append, List.length_nil] at hl
            omega
          have hws := parseFrom_ws (ws := ['\n']) { open_ := [], kids := .nil } newline_space
            (boundary_tag q)
          rw [List.singleton_append] at hws
          obtain ⟨e, he⟩ := elem_cut hn ha hk
            (fun p st ho hp => forest_cut k 1 p st hk ho hp) { open_ := [], kids := .nil } hq2 hne
          exact ⟨e, by rw [hws, he]⟩

example : ∃ e, loadXml ((saveXml (xmlWitness "b".toList)).take 80) = .error e :=
  C101_truncated _ _ _ (xmlWitness_ok (by decide)) _ (List.take_prefix _ _) (by decide +kernel)

/-- With two outermost elements a cut between them is not noticed. -/
theorem C101_two_roots_fails : ∃ f p, DocOk f ∧ p <+: saveXml f ∧
    p.length + 1 < (saveXml f).length ∧ loadXml p = .ok (.elem "a".toList [] .nil .nil) := by
  refine ⟨.elem "a".toList [] .nil (.elem "b".toList [] .nil .nil),
    (saveXml (.elem "a".toList [] .nil (.elem "b".toList [] .nil .nil))).take 27, ?_,
    List.take_prefix _ _, by decide +kernel, by decide +kernel⟩
  exact ⟨xmlName_check (by decide) (by decide), by simp, trivial,
    xmlName_check (by decide) (by decide), by simp, trivial, trivial⟩

/-- Reading ends for every file, with a document or an error of the library: the bounds on the number
of steps in the model are never reached. -/
theorem C101_total (s : List Char) : loadXml s ≠ .error .fuel ∧
    ∀ (q : Char) (t : List Char) (n m : Nat), t.length < n → t.length < m →
      attrVal n q t = attrVal m q t := by
  refine ⟨?_, fun q t n m hn hm => attrVal_fuel n m q t hn hm⟩
  unfold loadXml
  dsimp only
  have := parseTree_total ((skipBom (cStr s)).length + 1) (skipBom (cStr s))
    { open_ := [], kids := .nil } (Nat.lt_succ_self _)
  cases hp : parseTree ((skipBom (cStr s)).length + 1) (skipBom (cStr s))
    { open_ := [], kids := .nil } with
  | error e => rw [hp] at this; exact this
  | ok f => dsimp only; split_ifs <;> simp

theorem skipPast_first : ∀ (body t : List Char), ¬ ['-', '-', '>'] <:+: body ++ ['-', '-'] →
    skipPast ['-', '-', '>'] (body ++ (['-', '-', '>'] ++ t)) = some t := by
  intro body
  induction body with
  | nil => intro t _; simp [skipPast]
  | cons c r ih =>
    intro t h
    have hnp : ¬ ['-', '-', '>'] <+: c :: (r ++ (['-', '-', '>'] ++ t)) := by
      intro hp
      apply h
      refine List.IsPrefix.isInfix ?_
      have e : c :: (r ++ (['-', '-', '>'] ++ t)) = (c :: r ++ ['-', '-']) ++ ('>' :: t) := by simp
      rw [e] at hp
      exact List.prefix_of_prefix_length_le hp (List.prefix_append _ _) (by simp)
    rw [List.cons_append]
    unfold skipPast
    rw [if_neg hnp]
    refine ih t fun hi => h ?_
    exact hi.trans (List.suffix_cons _ _).isInfix

/-- Comments and white space between the elements of a file, in front of them or behind them make no
difference. -/
theorem C101_comment (f g : XmlForest) (hf : DocOk f) (hg : DocOk g) (hft : DocTabFree f)
    (hgt : DocTabFree g) (hne : f ≠ .nil) (body ws : List Char)
    (hbody : ¬ "-->".toList <:+: body ++ "--".toList)
    (hb0 : Char.ofNat 0 ∉ body) (hws : ∀ c ∈ ws, c = ' ' ∨ c = '\t' ∨ c = '\n' ∨ c = '\r') :
    loadXml (xmlDecl ++ writeForest 0 f ++ "<!--".toList ++ body ++ "-->".toList ++ ws ++
      writeForest 0 g) = .ok (f.app g) := by
  have hwsp : ∀ c ∈ ws, isXmlSpace c = true := by
    intro c hc
    rcases hws c hc with rfl | rfl | rfl | rfl <;> decide
  have hz : Char.ofNat 0 ∉ xmlDecl ++ writeForest 0 f ++ "<!--".toList ++ body ++ "-->".toList ++ ws ++
      writeForest 0 g := by
    simp only [List.mem_append, not_or]
    refine ⟨⟨⟨⟨⟨⟨by decide, mem_writeForest_value f 0 hf⟩, by decide⟩, hb0⟩, by decide⟩, ?_⟩,
      mem_writeForest_value g 0 hg⟩
    intro h
    exact absurd (hwsp _ h) (by decide)
  have e : xmlDecl ++ writeForest 0 f ++ "<!--".toList ++ body ++ "-->".toList ++ ws ++
      writeForest 0 g = xmlDecl ++ (writeForest 0 f ++ ('<' :: ('!' :: '-' :: '-' :: (body ++
        ("-->".toList ++ (ws ++ writeForest 0 g)))))) := by simp
  rw [loadXml_eq hz (skipBom_lt _), e]
  have hbg : Boundary (writeForest 0 g) := by
    have := writeForest_boundary 0 hg boundary_nil
    rwa [List.append_nil] at this
  rw [decl_read _ (writeForest_boundary 0 hf (boundary_tag _)),
    parseFrom_write f 0 _ _ hf (boundary_tag _), parseFrom_tag]
  have ht : ∀ st, xmlTag ('!' :: '-' :: '-' :: (body ++ ("-->".toList ++ (ws ++ writeForest 0 g)))) st =
      .ok (ws ++ writeForest 0 g, st) := by
    intro st
    have : skipPast "-->".toList (body ++ ("-->".toList ++ (ws ++ writeForest 0 g))) =
        some (ws ++ writeForest 0 g) := skipPast_first body _ hbody
    unfold xmlTag
    dsimp only
    rw [if_neg (by decide), if_neg (by decide), if_neg (by decide), if_pos rfl]
    unfold xmlBang
    show (match skipPast "-->".toList (body ++ ("-->".toList ++ (ws ++ writeForest 0 g))) with
      | some t => Except.ok (t, st)
      | none => Except.error XmlStatus.badComment) = _
    rw [this]
  rw [ht]
  dsimp only
  rw [parseFrom_ws _ hwsp hbg]
  have h1 := parseFrom_write g 0 [] { open_ := [], kids := XmlForest.nil.app (docNoTabs f) } hg
    boundary_nil
  rw [List.append_nil, parseFrom_nil, if_pos rfl] at h1
  rw [h1, docNoTabs_id f hft, docNoTabs_id g hgt]
  cases f with
  | nil => exact absurd rfl hne
  | text v t => exact absurd hf id
  | elem n a k t => rfl

example : ¬ "-->".toList <:+: " old - map - ".toList ++ "--".toList := fun h =>
  absurd (h.subset (show '>' ∈ "-->".toList by decide)) (by decide)

/-- The text of an element, as the parameters in the configuration files are given, is read as it
stands. -/
theorem C101_text (n v : List Char) (hn : XmlName n)
    (hv : ∀ c ∈ v, c ≠ '<' ∧ c ≠ '&' ∧ c ≠ '\r' ∧ c ≠ Char.ofNat 0)
    (hs : ∃ c ∈ v, c ≠ ' ' ∧ c ≠ '\t' ∧ c ≠ '\n') :
    loadXml ('<' :: (n ++ ('>' :: (v ++ ('<' :: '/' :: (n ++ ['>'])))))) =
      .ok (.elem n [] (.text v .nil) .nil) := by
  have hp : ∀ (w : List Char) (k : Nat) (t : List Char),
      (∀ c ∈ w, c ≠ '<' ∧ c ≠ '&' ∧ c ≠ '\r' ∧ c ≠ Char.ofNat 0) → w.length < k →
      pcdata k (w ++ '<' :: t) = (w, '<' :: t) := by
    intro w
    induction w with
    | nil =>
      intro k t _ hk
      obtain ⟨k, rfl⟩ : ∃ j, k = j + 1 := ⟨k - 1, by simp at hk; omega⟩
      simp [pcdata]
    | cons c w ih =>
      intro k t hw hk
      obtain ⟨k, rfl⟩ : ∃ j, k = j + 1 := ⟨k - 1, by simp at hk; omega⟩
      obtain ⟨h1, h2, h3, _⟩ := hw c (List.mem_cons_self ..)
      have := ih k t (fun c hc => hw c (List.mem_cons_of_mem _ hc)) (by simp at hk; omega)
      rw [List.cons_append]
      unfold pcdata
      simp [h1, h2, h3, this]
  have hn0 : Char.ofNat 0 ∉ n := fun h => absurd (xmlName_symbols hn _ h) (by decide)
  have hv0 : Char.ofNat 0 ∉ v := fun h => (hv _ h).2.2.2 rfl
  have hz : Char.ofNat 0 ∉ '<' :: (n ++ ('>' :: (v ++ ('<' :: '/' :: (n ++ ['>']))))) := by
    simp only [List.mem_cons, List.mem_append, not_or]
    exact ⟨by decide, hn0, by decide, hv0, by decide, by decide, hn0, by decide, by simp⟩
  rw [loadXml_eq hz (skipBom_lt _), parseFrom_tag]
  have h1 := xmlTag_push (a := []) hn (by simp) (v ++ ('<' :: '/' :: (n ++ ['>'])))
    { open_ := [], kids := .nil }
  simp only [writeAttrs, List.nil_append, List.map_nil] at h1
  rw [h1]
  dsimp only
  -- the text
  have h2 : parseFrom (v ++ ('<' :: '/' :: (n ++ ['>'])))
      (XmlState.push { open_ := [], kids := .nil } n []) =
      parseFrom ('<' :: '/' :: (n ++ ['>']))
        { open_ := [⟨n, [], .nil⟩], kids := .text v .nil } := by
    cases v with
    | nil => obtain ⟨c, hc, _⟩ := hs; simp at hc
    | cons c v =>
      obtain ⟨hc1, hc2, hc3, hc4⟩ := hv c (List.mem_cons_self ..)
      generalize hr : '<' :: '/' :: (n ++ ['>']) = rest
      have hpc := hp (c :: v) (((v ++ rest).length) + 2) ('/' :: (n ++ ['>'])) hv (by simp; omega)
      rw [hr] at hpc
      rw [List.cons_append] at hpc ⊢
      show parseTree ((v ++ rest).length + 1 + 1) (c :: (v ++ rest)) _ = _
      conv_lhs => unfold parseTree
      dsimp only
      rw [if_neg hc1]
      have hdw : ∃ c' r', (c :: (v ++ rest)).dropWhile isXmlSpace = c' :: r' ∧ c' ≠ '<' := by
        have key : ∀ w : List Char, (∀ c ∈ w, c ≠ '<' ∧ c ≠ '&' ∧ c ≠ '\r' ∧ c ≠ Char.ofNat 0) →
            (∃ c ∈ w, c ≠ ' ' ∧ c ≠ '\t' ∧ c ≠ '\n') →
            ∃ c' r', (w ++ rest).dropWhile isXmlSpace = c' :: r' ∧ c' ≠ '<' := by
          intro w
          induction w with
          | nil => rintro _ ⟨c, hc, _⟩; simp at hc
          | cons d w ih =>
            intro hw hex
            by_cases hd : isXmlSpace d = true
            · have hd' : d = '\t' ∨ d = '\n' ∨ d = ' ' := by
                have h := hd
                unfold isXmlSpace at h
                simp only [Bool.or_eq_true, decide_eq_true_eq] at h
                rcases h with ((h | h) | h) | h
                · exact .inl h
                · exact .inr (.inl h)
                · exact absurd h (hw d (List.mem_cons_self ..)).2.2.1
                · exact .inr (.inr h)
              rw [List.cons_append, List.dropWhile_cons_of_pos hd]
              refine ih (fun c hc => hw c (List.mem_cons_of_mem _ hc)) ?_
              obtain ⟨c, hc, h1, h2, h3⟩ := hex
              rcases List.mem_cons.1 hc with rfl | hc
              · rcases hd' with h | h | h
                · exact absurd h h2
                · exact absurd h h3
                · exact absurd h h1
              · exact ⟨c, hc, h1, h2, h3⟩
            · rw [List.cons_append, List.dropWhile_cons_of_neg hd]
              exact ⟨d, _, rfl, (hw d (List.mem_cons_self ..)).1⟩
        exact key (c :: v) hv hs
      obtain ⟨c', r', hd, hc'⟩ := hdw
      rw [hd]
      dsimp only
      rw [if_neg hc', if_neg (by simp [XmlState.push]), hpc]
      simp only [XmlState.push, XmlForest.app]
      rw [cStr_id (by exact hv0)]
      exact parseTree_eq (by simp; omega)
  rw [h2, parseFrom_tag]
  have h3 := xmlTag_pop hn [] .nil (.text v .nil) [] []
  rw [h3]
  dsimp only
  rw [parseFrom_nil, if_pos rfl]
  rfl

example : loadXml "<param> 0.25 </param>".toList =
    .ok (.elem "param".toList [] (.text " 0.25 ".toList .nil) .nil) :=
  C101_text "param".toList " 0.25 ".toList (xmlName_check (by decide) (by decide)) (by decide)
    ⟨'0', by decide, by decide, by decide, by decide⟩

/-! Document types and CDATA sections -/

theorem skipPast_find (pat : List Char) (last : Char) : ∀ (body t : List Char), ¬ (pat ++ [last]) <:+: body ++ pat →
    skipPast (pat ++ [last]) (body ++ (pat ++ last :: t)) = some t := by
  intro body
  induction body with
  | nil =>
    intro t _
    rw [List.nil_append]
    have e : pat ++ last :: t = pat ++ [last] ++ t := by simp
    rw [e]
    generalize hp : pat ++ [last] = p
    cases p with
    | nil => simp at hp
    | cons c p =>
      unfold skipPast
      rw [List.cons_append]
      dsimp only
      rw [if_pos (by rw [← List.cons_append]; exact List.prefix_append _ _), ← List.cons_append, List.drop_left]
  | cons c r ih =>
    intro t h
    have hnp : ¬ (pat ++ [last]) <+: c :: (r ++ (pat ++ last :: t)) := by
      intro hp
      apply h
      refine List.IsPrefix.isInfix ?_
      have e : c :: (r ++ (pat ++ last :: t)) = (c :: r ++ pat) ++ (last :: t) := by simp
      rw [e] at hp
      exact List.prefix_of_prefix_length_le hp (List.prefix_append _ _) (by simp)
    rw [List.cons_append]
    unfold skipPast
    rw [if_neg hnp]
    refine ih t fun hi => h ?_
    exact hi.trans (List.suffix_cons _ _).isInfix

theorem skipPast_quote (q : Char) (b t : List Char) (h : q ∉ b) : skipPast [q] (b ++ q :: t) = some t := by
  have := skipPast_find [] q b t (by
    intro hi
    rw [List.append_nil, List.nil_append] at hi
    exact h (hi.subset (by simp)))
  simpa using this

theorem doctypeGroup_read {d : List Char} (h : DtdText d) : ∀ (depth : Nat) (rest : List Char) (n : Nat), (d ++ rest).length < n →
    ∃ m, rest.length < m ∧ doctypeGroup n depth (d ++ rest) = doctypeGroup m depth rest := by
  induction h with
  | nil => intro depth rest n hn; exact ⟨n, hn, rfl⟩
  | @char c r h1 h2 h3 h4 _ ih =>
    intro depth rest n hn
    obtain ⟨n, rfl⟩ : ∃ j, n = j + 1 := ⟨n - 1, by omega⟩
    obtain ⟨m, hm, e⟩ := ih depth rest n (by simp at hn ⊢; omega)
    refine ⟨m, hm, ?_⟩
    rw [← e, List.cons_append]
    conv_lhs => unfold doctypeGroup
    rw [if_neg h1, if_neg (by rintro (h | h); exact h3 h; exact h4 h), if_neg h2]
  | @quoted q b r hq hb _ ih =>
    intro depth rest n hn
    obtain ⟨n, rfl⟩ : ∃ j, n = j + 1 := ⟨n - 1, by omega⟩
    obtain ⟨m, hm, e⟩ := ih depth rest n (by simp at hn ⊢; omega)
    refine ⟨m, hm, ?_⟩
    rw [← e, List.cons_append, List.append_assoc, List.cons_append]
    conv_lhs => unfold doctypeGroup
    rw [if_neg (by rcases hq with rfl | rfl <;> decide), if_pos hq, skipPast_quote q b _ hb]
    rfl
  | @comment b r hb _ ih =>
    intro depth rest n hn
    obtain ⟨n, rfl⟩ : ∃ j, n = j + 1 := ⟨n - 1, by omega⟩
    obtain ⟨m, hm, e⟩ := ih depth rest n (by simp at hn ⊢; omega)
    refine ⟨m, hm, ?_⟩
    rw [← e]
    have hs := skipPast_find ['-', '-'] '>' b (r ++ rest) hb
    simp only [List.cons_append, List.nil_append, List.append_assoc] at hs ⊢
    simp only [doctypeGroup, if_true, hs, Option.bind_some]
  | @instruction b r hb _ ih =>
    intro depth rest n hn
    obtain ⟨n, rfl⟩ : ∃ j, n = j + 1 := ⟨n - 1, by omega⟩
    obtain ⟨m, hm, e⟩ := ih depth rest n (by simp at hn ⊢; omega)
    refine ⟨m, hm, ?_⟩
    rw [← e]
    have hs := skipPast_find ['?'] '>' b (r ++ rest) hb
    simp only [List.cons_append, List.nil_append, List.append_assoc] at hs ⊢
    simp only [doctypeGroup, if_true, hs, Option.bind_some]
  | @declaration b r _ h1 h2 _ ih1 ih2 =>
    intro depth rest n hn
    obtain ⟨n, rfl⟩ : ∃ j, n = j + 1 := ⟨n - 1, by omega⟩
    obtain ⟨m, hm, e⟩ := ih1 (depth + 1) ('>' :: (r ++ rest)) n (by simp at hn ⊢; omega)
    obtain ⟨m, rfl⟩ : ∃ j, m = j + 1 := ⟨m - 1, by omega⟩
    obtain ⟨m', hm', e'⟩ := ih2 depth rest m (by simp at hm ⊢; omega)
    refine ⟨m', hm', ?_⟩
    rw [← e']
    have e2 : doctypeGroup (m + 1) (depth + 1) ('>' :: (r ++ rest)) = doctypeGroup m depth (r ++ rest) := by
      conv_lhs => unfold doctypeGroup
      rw [if_neg (by decide), if_neg (by decide), if_pos rfl, if_neg (by omega), Nat.add_sub_cancel]
    rw [← e2, ← e]
    have e3 : '<' :: '!' :: (b ++ '>' :: r) ++ rest = '<' :: '!' :: (b ++ '>' :: (r ++ rest)) := by simp
    rw [e3]
    conv_lhs => unfold doctypeGroup
    rw [if_pos rfl]
    cases b with
    | nil => rfl
    | cons x b =>
      simp only [List.head?_cons, ne_eq, Option.some.injEq] at h1 h2
      rw [List.cons_append]
      split
      · rename_i heq; simp only [List.cons.injEq, true_and] at heq; exact absurd heq.1 h1
      · rename_i heq; simp only [List.cons.injEq, true_and] at heq; exact absurd heq.1 h1
      · rename_i heq; simp only [List.cons.injEq, true_and] at heq; exact absurd heq.1 h2
      · rename_i heq; simp only [List.cons.injEq, true_and] at heq; rw [heq]
      · rename_i heq; simp only [List.cons.injEq] at heq; exact absurd heq.1 (by decide)
      · rename_i h3 _; exact absurd rfl (h3 _)

theorem xmlBang_doctype {d : List Char} (hd : DtdText d) (s : List Char) (st : XmlState) :
    xmlBang ('D' :: 'O' :: 'C' :: 'T' :: 'Y' :: 'P' :: 'E' :: (d ++ '>' :: s)) st =
      if st.open_ = [] then .ok (s, st) else .error .badDoctype := by
  obtain ⟨m, hm, e⟩ := doctypeGroup_read hd 0 ('>' :: s) ((d ++ '>' :: s).length + 1) (by omega)
  obtain ⟨m, rfl⟩ : ∃ j, m = j + 1 := ⟨m - 1, by omega⟩
  have e2 : doctypeGroup (m + 1) 0 ('>' :: s) = some s := by
    unfold doctypeGroup
    rw [if_neg (by decide), if_neg (by decide), if_pos rfl, if_pos rfl]
  rw [e2] at e
  simp only [xmlBang, e]

/-- C101: a document type in front of a document makes no difference. -/
theorem C101_doctype (d s : List Char) (hd : DtdText d) (h0 : Char.ofNat 0 ∉ d)
    (hb : ∀ r, s ≠ Char.ofNat 0xEF :: Char.ofNat 0xBB :: Char.ofNat 0xBF :: r) :
    loadXml ("<!DOCTYPE".toList ++ d ++ '>' :: s) = loadXml s := by
  have hbc : skipBom (cStr s) = cStr s := by
    unfold skipBom
    split
    · rename_i a b c r he
      rw [if_neg]
      rintro ⟨ha, hb', hc⟩
      have hpre : cStr s <+: s := List.takeWhile_prefix _
      rw [he] at hpre
      obtain ⟨t, ht⟩ := hpre
      refine hb (r ++ t) ?_
      rw [← ht, ← Char.ofNat_toNat a, ← Char.ofNat_toNat b, ← Char.ofNat_toNat c, ha, hb', hc]
      rfl
    · rfl
  have ec : cStr ("<!DOCTYPE".toList ++ d ++ '>' :: s) = '<' :: ('!' :: 'D' :: 'O' :: 'C' :: 'T' :: 'Y' :: 'P' :: 'E' :: (d ++ '>' :: cStr s)) := by
    have e1 : "<!DOCTYPE".toList ++ d ++ '>' :: s = ("<!DOCTYPE".toList ++ d ++ ['>']) ++ s := by simp
    have hn : Char.ofNat 0 ∉ "<!DOCTYPE".toList ++ d ++ ['>'] := by
      simp only [List.mem_append, not_or]
      exact ⟨⟨by decide, h0⟩, by decide⟩
    rw [e1]
    unfold cStr
    rw [List.takeWhile_append_of_pos (by
      intro c hc
      simp only [decide_eq_true_eq]
      rintro rfl
      exact hn hc)]
    have e2 : "<!DOCTYPE".toList = ['<', '!', 'D', 'O', 'C', 'T', 'Y', 'P', 'E'] := by decide
    rw [e2]
    simp
  have key : parseFrom ('<' :: ('!' :: 'D' :: 'O' :: 'C' :: 'T' :: 'Y' :: 'P' :: 'E' :: (d ++ '>' :: cStr s))) { open_ := [], kids := .nil } =
      parseFrom (cStr s) { open_ := [], kids := .nil } := by
    rw [parseFrom_tag]
    have : xmlTag ('!' :: 'D' :: 'O' :: 'C' :: 'T' :: 'Y' :: 'P' :: 'E' :: (d ++ '>' :: cStr s)) { open_ := [], kids := .nil } =
        .ok (cStr s, { open_ := [], kids := .nil }) := by
      unfold xmlTag
      dsimp only
      rw [if_neg (by decide), if_neg (by decide), if_neg (by decide), if_pos rfl, xmlBang_doctype hd, if_pos rfl]
    rw [this]
  unfold loadXml
  dsimp only
  rw [ec, hbc, skipBom_lt]
  have := key
  unfold parseFrom at this
  rw [this]

/-- A document type with an entity and a comment. -/
example : DtdText " map SYSTEM \"map.dtd\" [ <!ENTITY a '1>2'> <!-- > --> ]".toList := by
  have e : " map SYSTEM \"map.dtd\" [ <!ENTITY a '1>2'> <!-- > --> ]".toList =
    ' ' :: 'm' :: 'a' :: 'p' :: ' ' :: 'S' :: 'Y' :: 'S' :: 'T' :: 'E' :: 'M' :: ' ' :: '"' :: (['m', 'a', 'p', '.', 'd', 't', 'd'] ++ '"' ::
    ' ' :: '[' :: ' ' :: '<' :: '!' :: (['E', 'N', 'T', 'I', 'T', 'Y', ' ', 'a', ' ', '\'', '1', '>', '2', '\''] ++ '>' ::
    ' ' :: '<' :: '!' :: '-' :: '-' :: ([' ', '>', ' '] ++ '-' :: '-' :: '>' :: ' ' :: [']']))) := by decide
  rw [e]
  repeat' (first
    | exact DtdText.nil
    | refine DtdText.quoted (.inl rfl) (by decide) ?_
    | refine DtdText.comment (b := [' ', '>', ' ']) (by decide) ?_
    | refine DtdText.declaration ?_ (by decide) (by decide) ?_
    | refine DtdText.quoted (b := ['1', '>', '2']) (r := []) (.inr rfl) (by decide) ?_
    | refine DtdText.char (by decide) (by decide) (by decide) (by decide) ?_)

/-- C101: inside of an element a document type is refused. -/
theorem C101_doctype_inside (n d s : List Char) (hn : XmlName n) (hd : DtdText d) (h0 : Char.ofNat 0 ∉ d) :
    loadXml ('<' :: (n ++ '>' :: ("<!DOCTYPE".toList ++ d ++ '>' :: s))) = .error .badDoctype := by
  have hn0 : Char.ofNat 0 ∉ n := fun h => absurd (xmlName_symbols hn _ h) (by decide)
  have e2 : "<!DOCTYPE".toList = ['<', '!', 'D', 'O', 'C', 'T', 'Y', 'P', 'E'] := by decide
  have ec : cStr ('<' :: (n ++ '>' :: ("<!DOCTYPE".toList ++ d ++ '>' :: s))) =
      '<' :: (n ++ '>' :: '<' :: ('!' :: 'D' :: 'O' :: 'C' :: 'T' :: 'Y' :: 'P' :: 'E' :: (d ++ '>' :: cStr s))) := by
    have e1 : '<' :: (n ++ '>' :: ("<!DOCTYPE".toList ++ d ++ '>' :: s)) = ('<' :: n ++ '>' :: ("<!DOCTYPE".toList ++ d ++ ['>'])) ++ s := by simp
    have hz : Char.ofNat 0 ∉ '<' :: n ++ '>' :: ("<!DOCTYPE".toList ++ d ++ ['>']) := by
      rw [e2]
      simp only [List.mem_append, List.mem_cons, not_or, List.cons_append]
      refine ⟨by decide, hn0, by decide, by decide, by decide, by decide, by decide, by decide, by decide, by decide, by decide, by decide,
        ⟨by simp, h0⟩, by decide, by simp⟩
    rw [e1]
    unfold cStr
    rw [List.takeWhile_append_of_pos (by
      intro c hc
      simp only [decide_eq_true_eq]
      rintro rfl
      exact hz hc), e2]
    simp
  have h1 := xmlTag_push (a := []) hn (by simp) ('<' :: ('!' :: 'D' :: 'O' :: 'C' :: 'T' :: 'Y' :: 'P' :: 'E' :: (d ++ '>' :: cStr s)))
    { open_ := [], kids := .nil }
  simp only [writeAttrs, List.nil_append, List.map_nil] at h1
  have key : parseFrom ('<' :: (n ++ '>' :: '<' :: ('!' :: 'D' :: 'O' :: 'C' :: 'T' :: 'Y' :: 'P' :: 'E' :: (d ++ '>' :: cStr s))))
      { open_ := [], kids := .nil } = .error .badDoctype := by
    rw [parseFrom_tag, h1]
    dsimp only
    rw [parseFrom_tag]
    have : xmlTag ('!' :: 'D' :: 'O' :: 'C' :: 'T' :: 'Y' :: 'P' :: 'E' :: (d ++ '>' :: cStr s)) (XmlState.push { open_ := [], kids := .nil } n []) =
        .error .badDoctype := by
      unfold xmlTag
      dsimp only
      rw [if_neg (by decide), if_neg (by decide), if_neg (by decide), if_pos rfl, xmlBang_doctype hd, if_neg (by simp [XmlState.push])]
    rw [this]
  unfold loadXml
  dsimp only
  rw [ec, skipBom_lt]
  have := key
  unfold parseFrom at this
  rw [this]

example : loadXml "<a><!DOCTYPE b></a>".toList = .error .badDoctype :=
  C101_doctype_inside ['a'] [' ', 'b'] "</a>".toList (xmlName_check (by decide) (by decide))
    (.char (by decide) (by decide) (by decide) (by decide) (.char (by decide) (by decide) (by decide) (by decide) .nil)) (by decide)

theorem eolNorm_lines (e : List Char) (he : e = ['\n'] ∨ e = ['\r', '\n'] ∨ e = ['\r']) : ∀ u : List Char, '\r' ∉ u →
    eolNorm (withLineEnds e u) = u := by
  have hne : ∀ (c : Char) (r : List Char), c ≠ '\r' → eolNorm (c :: r) = c :: eolNorm r := by
    intro c r hc
    rw [eolNorm.eq_def]
    split
    · rename_i h; simp at h
    · rename_i h; simp only [List.cons.injEq] at h; exact absurd h.1 hc
    · rename_i h; simp only [List.cons.injEq] at h; exact absurd h.1 hc
    · rename_i h; simp only [List.cons.injEq] at h; rw [h.1, h.2]
  have hcr : ∀ r : List Char, r.head? ≠ some '\n' → eolNorm ('\r' :: r) = '\n' :: eolNorm r := by
    intro r hr
    cases r with
    | nil => rfl
    | cons c r =>
      rw [eolNorm.eq_def]
      split
      · rename_i h; simp at h
      · rename_i h; simp only [List.cons.injEq] at h; rw [h.2.1] at hr; simp at hr
      · rename_i h; simp only [List.cons.injEq, true_and] at h; rw [← h]
      · rename_i h1 h2 h; simp only [List.cons.injEq] at h; exact absurd h.1.symm h2
  intro u
  induction u with
  | nil => intro _; rfl
  | cons c r ih =>
    intro h
    have hr := ih fun hm => h (List.mem_cons_of_mem _ hm)
    have e1 : withLineEnds e (c :: r) = (if c = '\n' then e else [c]) ++ withLineEnds e r := by
      simp [withLineEnds]
    rw [e1]
    by_cases hc : c = '\n'
    · rw [if_pos hc, hc]
      rcases he with rfl | rfl | rfl
      · rw [List.singleton_append, hne _ _ (by decide), hr]
      · show '\n' :: eolNorm (withLineEnds ['\r', '\n'] r) = _
        rw [hr]
      · rw [List.singleton_append, hcr, hr]
        cases r with
        | nil => simp [withLineEnds]
        | cons d r =>
          by_cases hd : d = '\n'
          · simp [withLineEnds, hd]
          · simp [withLineEnds, hd]
    · rw [if_neg hc, List.singleton_append, hne _ _ (fun h' => h (by simp [h'])), hr]

/-- C101: the text of a CDATA section is what was put in, markup characters included, whatever line ends the
editor writes. -/
theorem C101_cdata (n u e : List Char) (hn : XmlName n) (he : e = ['\n'] ∨ e = ['\r', '\n'] ∨ e = ['\r'])
    (hu : '\r' ∉ u) (h0 : Char.ofNat 0 ∉ u) (hc : ¬ [']', ']', '>'] <:+: withLineEnds e u ++ [']', ']']) :
    loadXml ('<' :: (n ++ '>' :: ("<![CDATA[".toList ++ withLineEnds e u ++ "]]>".toList ++ '<' :: '/' :: (n ++ ['>'])))) =
      .ok (.elem n [] (.text u .nil) .nil) := by
  have hn0 : Char.ofNat 0 ∉ n := fun h => absurd (xmlName_symbols hn _ h) (by decide)
  have hw0 : Char.ofNat 0 ∉ withLineEnds e u := by
    intro h
    unfold withLineEnds at h
    rw [List.mem_flatMap] at h
    obtain ⟨c, hc1, hc2⟩ := h
    split at hc2
    · rcases he with rfl | rfl | rfl <;> revert hc2 <;> decide
    · rw [List.mem_singleton] at hc2
      rw [hc2] at h0
      exact h0 hc1
  have e2 : "<![CDATA[".toList = ['<', '!', '[', 'C', 'D', 'A', 'T', 'A', '['] := by decide
  have e3 : "]]>".toList = [']', ']', '>'] := by decide
  have e4 : '<' :: (n ++ '>' :: ("<![CDATA[".toList ++ withLineEnds e u ++ "]]>".toList ++ '<' :: '/' :: (n ++ ['>']))) =
      '<' :: (n ++ '>' :: '<' :: '!' :: '[' :: 'C' :: 'D' :: 'A' :: 'T' :: 'A' :: '[' ::
        (withLineEnds e u ++ ([']', ']'] ++ '>' :: '<' :: '/' :: (n ++ ['>'])))) := by
    rw [e2, e3]; simp
  rw [e4]
  have hlen := eolNorm_lines e he u hu
  generalize withLineEnds e u = w at *
  have hz : Char.ofNat 0 ∉ '<' :: (n ++ '>' :: '<' :: '!' :: '[' :: 'C' :: 'D' :: 'A' :: 'T' :: 'A' :: '[' ::
        (w ++ ([']', ']'] ++ '>' :: '<' :: '/' :: (n ++ ['>'])))) := by
    simp only [List.mem_append, List.mem_cons, not_or]
    refine ⟨by decide, hn0, by decide, by decide, by decide, by decide, by decide, by decide, by decide, by decide, by decide, by decide,
      hw0, ⟨by decide, by decide, by simp⟩, by decide, by decide, by decide, hn0, by decide, by simp⟩
  rw [loadXml_eq hz (skipBom_lt _), parseFrom_tag]
  have h1 := xmlTag_push (a := []) hn (by simp) ('<' :: '!' :: '[' :: 'C' :: 'D' :: 'A' :: 'T' :: 'A' :: '[' ::
        (w ++ ([']', ']'] ++ '>' :: '<' :: '/' :: (n ++ ['>'])))) { open_ := [], kids := .nil }
  simp only [writeAttrs, List.nil_append, List.map_nil] at h1
  rw [h1]
  dsimp only
  rw [parseFrom_tag]
  have h2 : xmlTag ('!' :: '[' :: 'C' :: 'D' :: 'A' :: 'T' :: 'A' :: '[' ::
        (w ++ ([']', ']'] ++ '>' :: '<' :: '/' :: (n ++ ['>'])))) (XmlState.push { open_ := [], kids := .nil } n []) =
      .ok ('<' :: '/' :: (n ++ ['>']), { open_ := [⟨n, [], .nil⟩], kids := .text u .nil }) := by
    have hs := skipPast_find [']', ']'] '>' w ('<' :: '/' :: (n ++ ['>'])) hc
    have ht : (w ++ ([']', ']'] ++ '>' :: '<' :: '/' :: (n ++ ['>']))).take
        ((w ++ ([']', ']'] ++ '>' :: '<' :: '/' :: (n ++ ['>']))).length - ('<' :: '/' :: (n ++ ['>'])).length - 3) = w := by
      have : (w ++ ([']', ']'] ++ '>' :: '<' :: '/' :: (n ++ ['>']))).length - ('<' :: '/' :: (n ++ ['>'])).length - 3 = w.length := by
        simp; omega
      rw [this, List.take_left]
    unfold xmlTag
    dsimp only
    rw [if_neg (by decide), if_neg (by decide), if_neg (by decide), if_pos rfl]
    generalize hR : w ++ ([']', ']'] ++ '>' :: '<' :: '/' :: (n ++ ['>'])) = R at *
    rw [List.cons_append, List.cons_append, List.nil_append] at hs
    simp only [xmlBang, hs, ht, hlen, XmlState.push, XmlForest.app]
  rw [h2]
  dsimp only
  rw [parseFrom_tag]
  have h3 := xmlTag_pop hn [] .nil (.text u .nil) [] []
  rw [h3]
  dsimp only
  rw [parseFrom_nil, if_pos rfl]
  rfl

example : loadXml "<a><![CDATA[1 < 2 && ]]\r\n]]></a>".toList = .ok (.elem ['a'] [] (.text "1 < 2 && ]]\n".toList .nil) .nil) := by
  have := C101_cdata ['a'] "1 < 2 && ]]\n".toList ['\r', '\n'] (xmlName_check (by decide) (by decide)) (by simp) (by decide) (by decide)
    (fun h => absurd (h.subset (a := '>') (by simp)) (by decide +kernel))
  refine cast (congrArg (fun t => loadXml t = _) ?_) this
  decide +kernel

end Verif
