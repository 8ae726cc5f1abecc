import Verif.Proofs.XmlHand
import Verif.Props.Xml
/-! Property theorems C104, first part: XML files written by hand. -/
namespace Verif
open Spec

theorem skipBom_ascii {c : Char} {r : List Char} (h : c.toNat ≠ 0xEF) : skipBom (c :: r) = c :: r := by
  unfold skipBom
  split
  · rename_i a b d r' e
    simp only [List.cons.injEq] at e
    rw [if_neg]
    rw [← e.1]
    exact fun h' => h h'.1
  · rfl

theorem markup_head {s : List Char} {f : XmlForest} (h : Markup false s f) :
    s = [] ∨ ∃ c r, s = c :: r ∧ c.toNat ≠ 0xEF := by
  have hb : ∀ (b t : List Char), Blank b → (t = [] ∨ ∃ r, t = '<' :: r) →
      b ++ t = [] ∨ ∃ c r, b ++ t = c :: r ∧ c.toNat ≠ 0xEF := by
    intro b t hb ht
    cases b with
    | nil =>
      rcases ht with rfl | ⟨r, rfl⟩
      · exact .inl rfl
      · exact .inr ⟨_, _, rfl, by decide⟩
    | cons c b =>
      refine .inr ⟨c, _, rfl, ?_⟩
      rcases hb c (by simp) with rfl | rfl | rfl | rfl <;> decide
  cases h with
  | stop h =>
    have := hb s [] h (.inl rfl)
    simpa using this
  | comment h => exact hb _ _ h (.inr ⟨_, rfl⟩)
  | leaf h => exact hb _ _ h (.inr ⟨_, rfl⟩)
  | node h => exact hb _ _ h (.inr ⟨_, rfl⟩)

theorem skipPast_question (s : List Char) : ∀ d : List Char, '?' ∉ d →
    skipPast ['?', '>'] (d ++ '?' :: '>' :: s) = some s
  | [], _ => by
    rw [List.nil_append, skipPast, if_pos ⟨s, rfl⟩]
    rfl
  | x :: d, h => by
    rw [List.mem_cons, not_or] at h
    rw [List.cons_append, skipPast, if_neg, skipPast_question s d h.2]
    rintro ⟨t, ht⟩
    simp only [List.cons_append, List.cons.injEq] at ht
    exact h.1 ht.1

/-- C104: a file laid out by hand, with comments, texts, references and either kind of quotes, is read
as the document it stands for; without any element it is refused. -/
theorem C104_document (s : List Char) (f : XmlForest) (h : Document s f) :
    loadXml s = if f.hasElement then .ok f else .error .noDocumentElement := by
  have h0 := document_no_zero h
  have hm : ∀ (s : List Char) (f : XmlForest), Markup false s f →
      parseFrom s { open_ := [], kids := .nil } = .ok f := by
    intro s f h
    have := parseFrom_markup h [] { open_ := [], kids := .nil } (.inl rfl) (by intro h; cases h)
    rw [List.append_nil] at this
    rw [this, parseFrom_nil, if_pos rfl]
    rfl
  cases h with
  | plain h =>
    have hb : skipBom s = s := by
      rcases markup_head h with rfl | ⟨c, r, rfl, hc⟩
      · rfl
      · exact skipBom_ascii hc
    rw [loadXml_eq h0 hb, hm s f h]
  | @decl d s f h1 h2 h =>
    rw [loadXml_eq h0 (skipBom_lt _), parseFrom_tag]
    have e : xmlTag ('?' :: 'x' :: 'm' :: 'l' :: ' ' :: (d ++ '?' :: '>' :: s)) { open_ := [], kids := .nil } =
        .ok (s, { open_ := [], kids := .nil }) := by
      unfold xmlTag
      dsimp only
      rw [if_neg (by decide), if_neg (by decide), if_pos rfl]
      have hq : xmlQuestion ('x' :: 'm' :: 'l' :: ' ' :: (d ++ '?' :: '>' :: s)) = .ok s := by
        unfold xmlQuestion
        dsimp only
        rw [if_pos (by decide), List.dropWhile_cons_of_pos (by decide), List.dropWhile_cons_of_pos (by decide),
          List.dropWhile_cons_of_pos (by decide), List.dropWhile_cons_of_neg (by decide)]
        have := skipPast_question s (' ' :: d) (by simp [h1])
        rw [List.cons_append] at this
        simp only [this]
      rw [hq]
    rw [e]
    dsimp only
    rw [hm s f h]

theorem one_dash {c : List Char} (h : c.count '-' ≤ 1) : ¬ ['-', '-'] <:+: c := by
  rintro ⟨a, b, rfl⟩
  simp only [List.count_append, List.count_cons_self, List.count_nil] at h
  omega

/-- A file with a declaration, a comment with a dash, two kinds of quotes, references, blanks around
`=` and a text. -/
def handFile : List Char :=
  "<?xml version=\"1.0\"?>\n<!-- a-b -->\n<p q = \"x&lt;&#65;\"\n  r='\"'>\n <i/> 7 &amp; 8 </p>\n".toList

def handDocument : XmlForest :=
  .elem ['p'] [(['q'], ['x', '<', 'A']), (['r'], ['"'])]
    (.elem ['i'] [] .nil (.text [' ', '7', ' ', '&', ' ', '8', ' '] .nil)) .nil

theorem handFile_document : Document handFile handDocument := by
  have sp : Blank [' '] := by intro c hc; simp at hc; exact .inl hc
  have no : Blank ([] : List Char) := by intro c hc; cases hc
  have nl : Blank ['\n'] := by intro c hc; simp at hc; exact .inr (.inr (.inl hc))
  have ns : Blank ['\n', ' '] := by intro c hc; simp at hc; rcases hc with rfl | rfl <;> decide
  have nss : Blank ['\n', ' ', ' '] := by intro c hc; simp at hc; rcases hc with rfl | rfl <;> decide
  have hA : utf8Text (Char.ofNat 65) = ['A'] := by decide +kernel
  have hc : CommentText [' ', 'a', '-', 'b', ' '] := ⟨one_dash (by decide), by decide, by decide⟩
  have r65 : Reference ['&', '#', '6', '5', ';'] ['A'] := by
    have := Reference.dec (ds := ['6', '5']) (n := 65) (by decide) (by decide) (by decide) (by decide)
    rw [hA] at this
    exact this
  have v1 : AttrText '"' ['x', '&', 'l', 't', ';', '&', '#', '6', '5', ';'] ['x', '<', 'A'] :=
    .plain (by decide) (by decide) (by decide) (by decide) (by decide) (by decide) (.ref .lt (.ref r65 .nil))
  have v2 : AttrText '\'' ['"'] ['"'] :=
    .plain (by decide) (by decide) (by decide) (by decide) (by decide) (by decide) .nil
  have at2 := AttrsText.cons nss (by decide) (xmlName_check (n := ['r']) (by decide) (by decide)) no no (.inr rfl) v2 .nil
  have at1 := AttrsText.cons sp (by decide) (xmlName_check (n := ['q']) (by decide) (by decide)) sp sp (.inl rfl) v1 at2
  have tx : BodyText [' ', '7', ' ', '&', 'a', 'm', 'p', ';', ' ', '8', ' '] [' ', '7', ' ', '&', ' ', '8', ' '] := by
    have p : ∀ (c : Char) (s v : List Char), c ≠ '<' ∧ c ≠ '&' ∧ c ≠ '\r' ∧ c ≠ Char.ofNat 0 → BodyText s v →
        BodyText (c :: s) (c :: v) := fun c s v h => .plain h.1 h.2.1 h.2.2.1 h.2.2.2
    refine p _ _ _ (by decide) (p _ _ _ (by decide) (p _ _ _ (by decide) ?_))
    exact .ref .amp (p _ _ _ (by decide) (p _ _ _ (by decide) (p _ _ _ (by decide) .nil)))
  have inner := Markup.leaf (i := true) ns (xmlName_check (n := ['i']) (by decide) (by decide)) .nil no
    (.text tx (fun h => absurd (h '7' (by decide)) (by decide)) (.stop no) (.inl rfl))
  have all := Document.decl (d := "version=\"1.0\"".toList) (by decide +kernel) (by decide +kernel)
    (Markup.comment nl hc (Markup.node nl (xmlName_check (n := ['p']) (by decide) (by decide)) at1 no inner no (.stop nl)))
  refine cast (congrArg (fun t => Document t handDocument) ?_) all
  decide +kernel

example : loadXml handFile = .ok handDocument := by
  rw [C104_document _ _ handFile_document]
  rfl

end Verif
