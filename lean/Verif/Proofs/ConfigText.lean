import Verif.Spec.ConfigText
import Verif.Props.Config
import Verif.Props.FilterConfig
import Verif.Props.XmlNum
import Verif.Props.XmlHand
/-! Lemmas for C104: a settings file and the tables of options. -/
namespace Verif
open Spec

/-- An element as `Config` takes it. -/
def asXml (n : String) (e : XmlAttrs × XmlForest) : Xml :=
  .node n (e.1.map fun p => (String.ofList p.1, String.ofList p.2)) (String.ofList (e.2.firstText.getD [])) (toXml e.2)

theorem ofList_eq_iff (n : List Char) (m : String) : String.ofList n = m ↔ n = m.toList := by
  constructor
  · rintro rfl; simp
  · rintro rfl; simp

theorem toXml_find (f : XmlForest) (m : String) :
    (toXml f).find? (fun k => k.name == m) = (firstElement f m).map (asXml m) := by
  induction f with
  | nil => rfl
  | elem n a k t _ iht =>
    simp only [toXml, firstElement, List.find?_cons]
    by_cases h : n = m.toList
    · subst h
      simp [Xml.name, asXml]
    · have h' : String.ofList n ≠ m := fun e => h ((ofList_eq_iff n m).1 e)
      have hb : (String.ofList n == m) = false := by simpa using h'
      rw [if_neg h, ← iht]
      have hn : (Xml.node (String.ofList n) (a.map fun p => (String.ofList p.1, String.ofList p.2))
          (String.ofList (k.firstText.getD [])) (toXml k)).name = String.ofList n := rfl
      rw [hn, hb]
  | text v t ih => exact ih

theorem child_asXml (n m : String) (e : XmlAttrs × XmlForest) :
    xmlChild (some (asXml n e)) m = (firstElement e.2 m).map (asXml m) := by
  unfold xmlChild
  exact toXml_find e.2 m

theorem lookup_firstValue (a : XmlAttrs) (m : String) :
    (a.map fun p => (String.ofList p.1, String.ofList p.2)).lookup m = (firstValue a m).map String.ofList := by
  induction a with
  | nil => rfl
  | cons p a ih =>
    obtain ⟨n, v⟩ := p
    simp only [List.map_cons, List.lookup_cons, firstValue]
    by_cases h : n = m.toList
    · subst h; simp
    · have h' : m ≠ String.ofList n := fun e => h ((ofList_eq_iff n m).1 e.symm)
      have : (m == String.ofList n) = false := by simpa using h'
      rw [this, if_neg h]
      exact ih

theorem attr_asXml (n m : String) (e : XmlAttrs × XmlForest) :
    xmlAttr (some (asXml n e)) m = (firstValue e.1 m).map String.ofList := lookup_firstValue e.1 m

theorem foldl_none (p : List String) : p.foldl xmlChild none = none := by
  induction p with
  | nil => rfl
  | cons n p ih => exact ih

/-- Going down a path of names. -/
theorem foldl_path (p : List String) : ∀ (n : String) (e : XmlAttrs × XmlForest),
    ∃ m, p.foldl xmlChild (some (asXml n e)) = (elementAt e p).map (asXml m) := by
  induction p with
  | nil => intro n e; exact ⟨n, rfl⟩
  | cons x p ih =>
    intro n e
    simp only [List.foldl_cons, child_asXml, elementAt]
    cases h : firstElement e.2 x with
    | none => exact ⟨n, by simp [foldl_none]⟩
    | some e' => exact ih x e'

theorem optionText_asXml (n : String) (e : XmlAttrs × XmlForest) (p : List String) (a : String) :
    optionText (asXml n e) p a = ((elementAt e p).bind fun e => firstValue e.1 a).map String.ofList := by
  unfold optionText
  obtain ⟨m, hm⟩ := foldl_path p n e
  rw [hm]
  cases elementAt e p with
  | none => rfl
  | some e' => exact attr_asXml m a e'

/-- The node the builder reads. -/
theorem configNode_doc {name : String} {bytes : List Char} {f : XmlForest} (hn : name ≠ "")
    (hf : loadXml bytes = .ok f) :
    configNode name (configFile (some bytes)) = (settingsElement f).map (asXml "static_mapping") := by
  unfold configNode configFile
  rw [if_neg hn]
  dsimp only
  rw [hf]
  dsimp only
  have h1 : xmlChild (some (Xml.node "" [] "" (toXml f))) "edward_liu" =
      (firstElement f "edward_liu").map (asXml "edward_liu") := toXml_find f _
  rw [h1]
  unfold settingsElement elementAt
  dsimp only
  cases firstElement f "edward_liu" with
  | none => rfl
  | some e =>
    simp only [Option.map_some, Option.bind_some, child_asXml, elementAt]
    cases firstElement e.2 "static_mapping" <;> rfl

theorem configNode_top (name : String) (file : ConfigFile) : configNode name file = topElement name file := by
  unfold configNode topElement
  cases file with
  | missing => simp
  | malformed => simp
  | doc r => rfl

/-- The conversions give the value a text stands for. -/
theorem reads_conv {k : OptKind} {s : List Char} {v : OptVal} (h : ReadsAs k s v) :
    textConv.read k (String.ofList s) = v := by
  cases h with
  | on h =>
    simp only [Conv.read, textConv, String.toList_ofList, OptVal.bool.injEq]
    exact (C102_bool true _).2.2 ⟨_, _, rfl, h⟩
  | @off c r h =>
    simp only [Conv.read, textConv, String.toList_ofList, OptVal.bool.injEq]
    rw [← Bool.not_eq_true, (C102_bool true _).2]
    rintro ⟨d, t, e, hd⟩
    simp only [List.cons.injEq] at e
    obtain ⟨rfl, _⟩ := e
    rcases h with rfl | rfl | rfl | rfl | rfl <;> exact absurd hd (by decide)
  | int hb hs hv hne he h1 h2 =>
    simp only [Conv.read, textConv, String.toList_ofList, OptVal.int.injEq]
    rw [(C102_int _ _ _ _ _ hb hs hv hne he.1 he.2).1]
    unfold clampInt
    rw [if_neg (by omega), if_neg (by omega)]
  | double hb hv hne he =>
    simp only [Conv.read, textConv, String.toList_ofList, OptVal.num.injEq]
    exact (C102_double_reads _ _ _ _ hb hv hne he).1
  | float hb hv hne he =>
    simp only [Conv.read, textConv, String.toList_ofList, OptVal.num.injEq]
    exact (C102_double_reads _ _ _ _ hb hv hne he).2
  | string => simp only [Conv.read, String.toList_ofList]

theorem startBuilder_ok {mkdir : List Char → Bool} {fmax slope : Rat} {name : String} {content : Option (List Char)}
    {sm : Xml} (h : configNode name (configFile content) = some sm) (r : BuilderCfg) (fs : List FilterConfig) :
    startBuilder mkdir fmax slope name content = .ok (r, fs) ↔
      initialise textConv mkdir (some name) (configFile content) = .ok r ∧
      factoryInit (supportedFilters fmax slope) (filterSection sm) = .ok fs := by
  have hi : initialise textConv mkdir (some name) (configFile content) = readConfig textConv mkdir sm := by
    unfold initialise
    dsimp only
    unfold configNode at h
    split at h
    · cases h
    · rename_i hn
      rw [if_neg hn]
      cases hc : configFile content with
      | missing => rw [hc] at h; cases h
      | malformed => rw [hc] at h; cases h
      | doc root =>
        rw [hc] at h
        dsimp only at h ⊢
        rw [h]
  have hd : ∀ r, readConfig textConv mkdir sm = .ok r → ∃ o, makeDirs mkdir sm = .ok o := by
    intro r hr
    unfold readConfig at hr
    obtain ⟨o, ho, hr⟩ := (Outcome.bind_eq_ok _ _ _).1 hr
    obtain ⟨o', ho', hr⟩ := (Outcome.bind_eq_ok _ _ _).1 hr
    refine ⟨o', ?_⟩
    unfold makeDirs
    rw [ho]
    exact ho'
  rw [hi]
  unfold startBuilder
  rw [h]
  dsimp only
  constructor
  · intro hs
    obtain ⟨o, _, hs⟩ := (Outcome.bind_eq_ok _ _ _).1 hs
    obtain ⟨fs', hf, hs⟩ := (Outcome.bind_eq_ok _ _ _).1 hs
    obtain ⟨r', hr, hs⟩ := (Outcome.bind_eq_ok _ _ _).1 hs
    simp only [Outcome.pure_eq, Outcome.ok.injEq, Prod.mk.injEq] at hs
    obtain ⟨rfl, rfl⟩ := hs
    exact ⟨hr, hf⟩
  · rintro ⟨hr, hf⟩
    obtain ⟨o, ho⟩ := hd r hr
    rw [ho, hf, hr]
    rfl

/-! The filter section -/

theorem toXml_filter (f : XmlForest) (m : String) :
    (toXml f).filter (fun k => k.name == m) = (allElements f m).map (asXml m) := by
  induction f with
  | nil => rfl
  | elem n a k t _ iht =>
    have hn : (Xml.node (String.ofList n) (a.map fun p => (String.ofList p.1, String.ofList p.2))
        (String.ofList (k.firstText.getD [])) (toXml k)).name = String.ofList n := rfl
    simp only [toXml, allElements]
    rw [List.filter_cons, hn]
    by_cases h : n = m.toList
    · have hb : (String.ofList n == m) = true := by simpa using (ofList_eq_iff n m).2 h
      rw [hb, if_pos rfl, if_pos h, iht, List.map_cons]
      congr 1
      unfold asXml
      rw [(ofList_eq_iff n m).2 h]
    · have h' : String.ofList n ≠ m := fun e => h ((ofList_eq_iff n m).1 e)
      have hb : (String.ofList n == m) = false := by simpa using h'
      rw [hb, if_neg h, iht]
      rfl
  | text v t ih => exact ih

theorem bodyOf_firstText (f : XmlForest) : f.firstText.getD [] = bodyOf f := by
  induction f with
  | nil => rfl
  | elem n a k t _ iht => exact iht
  | text v t _ => rfl

theorem lookup_name (e : XmlAttrs × XmlForest) (m : String) :
    ((asXml m e).attrs.lookup "name").getD "" = String.ofList (nameOf e) := by
  have h : (asXml m e).attrs.lookup "name" = (firstValue e.1 "name").map String.ofList := lookup_firstValue e.1 "name"
  rw [h]
  unfold nameOf
  cases firstValue e.1 "name" <;> rfl

/-- A filter element as the factory takes it. -/
theorem filterOf_asXml (e : XmlAttrs × XmlForest) :
    filterOf (asXml "filter" e) =
      { tag := "filter", name := String.ofList (nameOf e),
        params := (allElements e.2 "param").map fun p => filterParamOf (asXml "param" p) } := by
  unfold filterOf
  have hk : (asXml "filter" e).kids = toXml e.2 := rfl
  rw [lookup_name, hk, toXml_filter, List.map_map]
  rfl

theorem filterSection_asXml (e : XmlAttrs × XmlForest) :
    filterSection (asXml "static_mapping" e) =
      (match elementAt e ["filters"] with
        | none => []
        | some x => allElements x.2 "filter").map fun x => filterOf (asXml "filter" x) := by
  unfold filterSection
  rw [child_asXml]
  simp only [elementAt]
  cases firstElement e.2 "filters" with
  | none => rfl
  | some x =>
    simp only [Option.map_some, Option.getD_some, Option.bind_some]
    have hk : (asXml "filters" x).kids = toXml x.2 := rfl
    rw [hk, toXml_filter, List.map_map]
    rfl

theorem given_param {p : XmlAttrs × XmlForest} {v : Rat} (h : given (filterParamOf (asXml "param" p)) = some v) {t : ParamType}
    {w : Rat} (hw : Holds t v w) : ParamGives t p w := by
  have ht : (asXml "param" p).attrs.lookup "type" = (firstValue p.1 "type").map String.ofList :=
    lookup_firstValue p.1 "type"
  have hx : (asXml "param" p).text = String.ofList (bodyOf p.2) := by
    rw [← bodyOf_firstText]; rfl
  unfold given filterParamOf at h
  rw [ht, hx] at h
  dsimp only at h
  cases htt : firstValue p.1 "type" with
  | none =>
    rw [htt] at h
    simp at h
  | some tt =>
    rw [htt] at h
    simp only [Option.map_some, Option.some.injEq] at h
    refine ⟨tt, htt, fun h0 k hk => ?_, fun h1 k hk => ?_⟩
    · have e0 := reads_conv h0
      have ek := reads_conv hk
      simp only [Conv.read, OptVal.int.injEq] at e0 ek
      rw [e0, if_pos rfl, ek] at h
      cases h
      cases t with
      | float => exact ⟨(fun h => by cases h), fun _ => hw⟩
      | int32 =>
        refine ⟨fun _ => ?_, fun h => by cases h⟩
        obtain ⟨j, rfl, h1, h2, h3⟩ := hw
        have h1' : |j| ≤ |k| := by exact_mod_cast h1
        have h2' : |k| < |j| + 1 := by exact_mod_cast h2
        have h3' : 0 ≤ k * j := by exact_mod_cast h3
        have ha : |j| = |k| := by omega
        rcases abs_eq_abs.1 ha with rfl | rfl
        · rfl
        · have : k = 0 := by nlinarith
          subst this
          simp
    · have e1 := reads_conv h1
      have ek := reads_conv hk
      simp only [Conv.read, OptVal.int.injEq] at e1
      simp only [Conv.read, OptVal.num.injEq] at ek
      rw [e1, if_neg (by decide), if_pos rfl, ek] at h
      cases h
      exact hw

theorem lastFor_param (e : XmlAttrs × XmlForest) (n : String) :
    lastFor n ((allElements e.2 "param").map fun p => filterParamOf (asXml "param" p)) =
      (lastParam e n).map fun p => filterParamOf (asXml "param" p) := by
  unfold lastFor lastParam
  rw [List.filter_map, List.getLast?_map]
  congr 3
  funext p
  simp only [Function.comp_apply, decide_eq_decide]
  have : (filterParamOf (asXml "param" p)).name = String.ofList (nameOf p) := lookup_name p "param"
  rw [this, ofList_eq_iff]

/-- The chain the factory makes, filter by filter. -/
theorem factory_chain (sup : List FilterConfig) (hne : ∀ g ∈ sup, g.name ≠ "") : ∀ (xs : List (XmlAttrs × XmlForest))
    (fs : List FilterConfig), factoryInit sup (xs.map fun x => filterOf (asXml "filter" x)) = .ok fs →
    List.Forall₂ (fun e g => ∃ g0 ∈ sup, g0.name.toList = nameOf e ∧ g.name = g0.name ∧
      ∀ n, match lastParam e n with
        | none => paramValue g.params n = paramValue g0.params n
        | some p => ∃ q w, g0.params.find? (fun p => decide (p.name = n)) = some q ∧
            paramValue g.params n = some w ∧ ParamGives q.type p w)
      (xs.filter fun e => sup.any fun g => decide (g.name.toList = nameOf e)) fs
  | [], fs, h => by
    simp only [List.map_nil, factoryInit, Outcome.ok.injEq] at h
    subst h
    exact .nil
  | e :: xs, fs, h => by
    simp only [List.map_cons, factoryInit] at h
    have hx := filterOf_asXml e
    have hname : (filterOf (asXml "filter" e)).name = String.ofList (nameOf e) := by rw [hx]
    cases hf : sup.find? (fun f => decide (f.name = (filterOf (asXml "filter" e)).name)) with
    | none =>
      rw [hf] at h
      have hno : (sup.any fun g => decide (g.name.toList = nameOf e)) = false := by
        rw [List.any_eq_false]
        intro g hg hc
        have := List.find?_eq_none.1 hf g hg
        apply this
        rw [hname]
        simp only [decide_eq_true_eq] at hc ⊢
        exact ((ofList_eq_iff _ _).2 hc.symm).symm
      rw [List.filter_cons, hno]
      exact factory_chain sup hne xs fs h
    | some g0 =>
      rw [hf] at h
      simp only [Outcome.bind_eq_ok, Outcome.pure_eq, Outcome.ok.injEq] at h
      obtain ⟨r, hr, rest, hrest, rfl⟩ := h
      have hmem := List.mem_of_find?_eq_some hf
      have hn0 : g0.name = (filterOf (asXml "filter" e)).name := by simpa using List.find?_some hf
      have hn1 : g0.name.toList = nameOf e := by rw [hn0, hname]; simp
      have hyes : (sup.any fun g => decide (g.name.toList = nameOf e)) = true :=
        List.any_eq_true.2 ⟨g0, hmem, by simpa using hn1⟩
      rw [List.filter_cons, hyes, if_pos rfl]
      refine .cons ?_ (factory_chain sup hne xs rest hrest)
      obtain ⟨b, g⟩ := r
      obtain ⟨h1, _, h3⟩ := C50_own_name g0 _ hn0.symm (hne g0 hmem) b g hr
      refine ⟨g0, hmem, hn1, h1, fun n => ?_⟩
      have h3 := h3 n
      rw [hx] at h3
      dsimp only at h3
      rw [lastFor_param] at h3
      cases hl : lastParam e n with
      | none => rw [hl] at h3; exact h3
      | some p =>
        rw [hl] at h3
        simp only [Option.map_some] at h3
        obtain ⟨q, v, w, hq, hg, hv, hw⟩ := h3
        exact ⟨q, w, hq, hv, given_param hg hw⟩

/-! The matchers -/

theorem find_filter {α : Type} (p q : α → Bool) (l : List α) :
    l.find? (fun x => p x && q x) = (l.filter p).find? q := by
  induction l with
  | nil => rfl
  | cons a l ih =>
    rw [List.filter_cons, List.find?_cons]
    cases hp : p a with
    | false => simpa using ih
    | true =>
      rw [if_pos rfl, List.find?_cons]
      cases hq : q a with
      | true => rfl
      | false => simp only [Bool.true_and, hq]; exact ih

/-- The `param` elements a matcher is set up from. -/
theorem registrator_params (n s1 s2 : String) (e : XmlAttrs × XmlForest) (k : Int) :
    (((registratorNode textConv (xmlChild (some (asXml n e)) s1) s2 k).map Xml.kids).getD []).filter
        (fun x => x.name == "param") =
      (match elementAt e [s1, s2] with
        | none => []
        | some m =>
          match (allElements m.2 "registrator_options").find?
              fun x : XmlAttrs × XmlForest => decide (((firstValue x.1 "type").map getInt).getD 0 = k) with
          | none => []
          | some x => allElements x.2 "param").map (asXml "param") := by
  unfold registratorNode
  rw [child_asXml]
  simp only [elementAt]
  cases firstElement e.2 s1 with
  | none => rfl
  | some e1 =>
    simp only [Option.map_some, Option.bind_some, child_asXml]
    cases firstElement e1.2 s2 with
    | none => rfl
    | some e2 =>
      simp only [Option.map_some, Option.bind_some]
      have hk : (asXml s2 e2).kids = toXml e2.2 := rfl
      rw [hk, find_filter, toXml_filter, List.find?_map]
      have hp : ((fun x => typeAttr textConv x == k) ∘ asXml "registrator_options") =
          fun x : XmlAttrs × XmlForest => decide (((firstValue x.1 "type").map getInt).getD 0 = k) := by
        funext x
        have ht : (asXml "registrator_options" x).attrs.lookup "type" = (firstValue x.1 "type").map String.ofList :=
          lookup_firstValue x.1 "type"
        simp only [Function.comp_apply, typeAttr]
        rw [ht]
        cases firstValue x.1 "type" with
        | none => rfl
        | some t =>
          simp only [Option.map_some, Option.getD_some, textConv, String.toList_ofList]
          rfl
      rw [hp]
      cases (allElements e2.2 "registrator_options").find?
          fun x : XmlAttrs × XmlForest => decide (((firstValue x.1 "type").map getInt).getD 0 = k) with
      | none => rfl
      | some x =>
        simp only [Option.map_some, Option.getD_some]
        have hk2 : (asXml "registrator_options" x).kids = toXml x.2 := rfl
        rw [hk2, toXml_filter]

theorem createMatcher_set {k : Int} {node : Option Xml} {ps : List (XmlAttrs × XmlForest)} {m : List MatcherItem}
    (hn : (((node.map Xml.kids).getD []).filter fun x => x.name == "param") = ps.map (asXml "param"))
    (h : createMatcher textConv k node = .ok (some m)) : MatcherSet ps k m := by
  unfold createMatcher at h
  split at h
  · cases h
  · cases hi : matcherItems k with
    | none => rw [hi] at h; cases h
    | some items =>
      rw [hi] at h
      dsimp only at h
      obtain ⟨m', hm, h⟩ := (Outcome.bind_eq_ok _ _ _).1 h
      simp only [Outcome.pure_eq, Outcome.ok.injEq, Option.some.injEq] at h
      subst h
      rw [hn] at hm
      refine ⟨items, hi, ?_⟩
      rw [C60_matcher_params _ _ _ _ hm, List.forall₂_map_right_iff, List.forall₂_same]
      intro i _
      have hf : (List.filter (fun p => (p.attrs.lookup "name").getD "" == i.name) (ps.map (asXml "param"))).getLast? =
          ((ps.filter fun p => decide (nameOf p = i.name.toList)).getLast?).map (asXml "param") := by
        rw [List.filter_map, List.getLast?_map]
        congr 3
        funext p
        simp only [Function.comp_apply, lookup_name]
        rw [Bool.eq_iff_iff]
        simp only [beq_iff_eq, decide_eq_true_eq]
        exact ofList_eq_iff _ _
      rw [hf]
      cases (ps.filter fun p => decide (nameOf p = i.name.toList)).getLast? with
      | none => exact ⟨rfl, rfl, rfl⟩
      | some p =>
        refine ⟨rfl, rfl, fun v hv => ?_⟩
        have hx : (asXml "param" p).text = String.ofList (bodyOf p.2) := by
          rw [← bodyOf_firstText]; rfl
        simp only [Option.map_some]
        rw [hx]
        exact reads_conv hv

end Verif
