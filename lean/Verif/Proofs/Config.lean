import Verif.Spec.Config
import Mathlib.Tactic.NormNum
import Mathlib.Algebra.Order.Field.Rat
import Mathlib.Data.List.Nodup
namespace Verif
open Spec

theorem getSingle_other (c : Conv) (parent : Option Xml) (o : Settings) (r : OptRow) (t : String)
    (h : t ≠ r.target) : getSingle c parent o r t = o t := by
  unfold getSingle
  cases xmlAttr (xmlChild parent r.child) r.attr with
  | some s => simp [Settings.set, h]
  | none => rfl

theorem getSingle_hit (c : Conv) (parent : Option Xml) (o : Settings) (r : OptRow) :
    getSingle c parent o r r.target =
      ((xmlAttr (xmlChild parent r.child) r.attr).map (c.read r.kind)).getD (o r.target) := by
  unfold getSingle
  cases xmlAttr (xmlChild parent r.child) r.attr with
  | some s => simp [Settings.set]
  | none => rfl

theorem getSingle_none (c : Conv) (o : Settings) (r : OptRow) : getSingle c none o r = o := by
  simp [getSingle, xmlChild, xmlAttr]

theorem getRows_none (c : Conv) (rows : List OptRow) (o : Settings) : getRows c none rows o = o := by
  induction rows generalizing o with
  | nil => rfl
  | cons r rs ih =>
    have : getRows c none (r :: rs) o = getRows c none rs (getSingle c none o r) := rfl
    rw [this, getSingle_none, ih]

theorem getRows_if (c : Conv) (p : Option Xml) (rows : List OptRow) (o : Settings) :
    (if p.isSome then getRows c p rows o else o) = getRows c p rows o := by
  cases p with
  | none => simp [getRows_none]
  | some x => simp

/-- one assignment with the path of its section -/
def getAt (c : Conv) (sm : Xml) (o : Settings) (x : List String × OptRow) : Settings :=
  getSingle c (x.1.foldl xmlChild (some sm)) o x.2

theorem getAt_rows (c : Conv) (sm : Xml) (pre : List String) (rows : List OptRow) (o : Settings) :
    (rows.map (pre, ·)).foldl (getAt c sm) o = getRows c (pre.foldl xmlChild (some sm)) rows o := by
  induction rows generalizing o with
  | nil => rfl
  | cons r rs ih => simp only [List.map_cons, List.foldl_cons, ih]; rfl

theorem getAll_other (c : Conv) (sm : Xml) (xs : List (List String × OptRow)) (o : Settings)
    (t : String) (h : t ∉ xs.map (fun x => x.2.target)) : xs.foldl (getAt c sm) o t = o t := by
  induction xs generalizing o with
  | nil => rfl
  | cons x xs ih =>
    simp only [List.map_cons, List.mem_cons, not_or] at h
    rw [List.foldl_cons, ih _ h.2]
    exact getSingle_other c _ o x.2 t h.1

theorem getAll_hit (c : Conv) (sm : Xml) (xs : List (List String × OptRow)) (o : Settings)
    (hn : (xs.map (fun x => x.2.target)).Nodup) (x : List String × OptRow) (hx : x ∈ xs) :
    xs.foldl (getAt c sm) o x.2.target =
      ((optionText sm (x.1 ++ [x.2.child]) x.2.attr).map (c.read x.2.kind)).getD (o x.2.target) := by
  induction xs generalizing o with
  | nil => simp at hx
  | cons y ys ih =>
    simp only [List.map_cons, List.nodup_cons] at hn
    rw [List.foldl_cons]
    rcases List.mem_cons.1 hx with rfl | hx
    · rw [getAll_other c sm ys _ _ hn.1]
      unfold getAt
      rw [getSingle_hit]
      simp [optionText]
    · rw [ih _ hn.2 hx]
      have hne : x.2.target ≠ y.2.target := by
        intro e
        exact hn.1 (by rw [← e]; exact List.mem_map_of_mem hx)
      congr 1
      exact getSingle_other c _ o y.2 _ hne

def frontPre : List (List String × OptRow) :=
  wholeRows.map (([] : List String), ·) ++ mrvmRows.map ([], ·) ++ scanRows.map (["front_end_options"], ·)

def midPre : List (List String × OptRow) :=
  accumulateRows.map (([] : List String), ·) ++ frontRows.map (["front_end_options"], ·) ++
  submapRows.map (["back_end_options"], ·)

def endPre : List (List String × OptRow) :=
  backRows.map (["back_end_options"], ·) ++ pkgRows.map ([], ·)

def allPre : List (List String × OptRow) := frontPre ++ midPre ++ endPre

theorem allPre_nodup : (allPre.map (fun x => x.2.target)).Nodup := by decide +kernel

theorem allPre_no_dirs : exportRow.target ∉ allPre.map (fun x => x.2.target) ∧
    packageRow.target ∉ allPre.map (fun x => x.2.target) := by decide +kernel

theorem documented_all : documented.all (fun d => allPre.any (fun x =>
    decide (x.1 ++ [x.2.child] = d.1) && decide (x.2.attr = d.2.1) && decide (x.2.kind = d.2.2.1) &&
    decide (x.2.target = d.2.2.2))) = true := by decide +kernel

theorem documented_find (d : List String × String × OptKind × String) (hd : d ∈ documented) :
    ∃ x ∈ allPre, x.1 ++ [x.2.child] = d.1 ∧ x.2.attr = d.2.1 ∧ x.2.kind = d.2.2.1 ∧
      x.2.target = d.2.2.2 := by
  have h := List.all_eq_true.1 documented_all d hd
  obtain ⟨x, hx, he⟩ := List.any_eq_true.1 h
  simp only [Bool.and_eq_true, decide_eq_true_eq] at he
  exact ⟨x, hx, he.1.1.1, he.1.1.2, he.1.2, he.2⟩

/-- a documented option ends with the value asked for -/
theorem allPre_value (c : Conv) (sm : Xml) (o : Settings) (path : List String) (attr : String)
    (k : OptKind) (t : String) (hd : (path, attr, k, t) ∈ documented) :
    allPre.foldl (getAt c sm) o t = effective c sm path attr k (o t) := by
  obtain ⟨x, hx, h1, h2, h3, h4⟩ := documented_find _ hd
  have := getAll_hit c sm allPre o allPre_nodup x hx
  dsimp only at h1 h2 h3 h4
  rw [h1, h2, h3, h4] at this
  exact this

theorem frontPre_value (c : Conv) (sm : Xml) (o : Settings) (x : List String × OptRow)
    (hx : x ∈ frontPre) :
    frontPre.foldl (getAt c sm) o x.2.target = allPre.foldl (getAt c sm) o x.2.target := by
  have hn := allPre_nodup
  unfold allPre at hn
  rw [List.append_assoc, List.map_append, List.nodup_append] at hn
  unfold allPre
  rw [List.append_assoc, List.foldl_append]
  rw [getAll_other c sm (midPre ++ endPre)]
  intro hm
  exact hn.2.2 _ (List.mem_map_of_mem (f := fun x : List String × OptRow => x.2.target) hx) _ hm rfl

theorem midPre_value (c : Conv) (sm : Xml) (o : Settings) (x : List String × OptRow)
    (hx : x ∈ midPre) :
    (frontPre ++ midPre).foldl (getAt c sm) o x.2.target = allPre.foldl (getAt c sm) o x.2.target := by
  have hn := allPre_nodup
  unfold allPre at hn
  rw [List.map_append, List.nodup_append] at hn
  unfold allPre
  rw [List.foldl_append (l := frontPre ++ midPre)]
  rw [getAll_other c sm endPre]
  intro hm
  exact hn.2.2 _ (List.mem_map_of_mem (f := fun x : List String × OptRow => x.2.target)
    (List.mem_append_right _ hx)) _ hm rfl

theorem frontPre_eq (c : Conv) (sm : Xml) (o : Settings) :
    frontPre.foldl (getAt c sm) o =
      getRows c (xmlChild (some sm) "front_end_options") scanRows
        (getRows c (some sm) mrvmRows (getRows c (some sm) wholeRows o)) := by
  simp only [frontPre, List.foldl_append, getAt_rows, List.foldl_nil, List.foldl_cons]

theorem midPre_eq (c : Conv) (sm : Xml) (o : Settings) :
    midPre.foldl (getAt c sm) o =
      getRows c (xmlChild (some sm) "back_end_options") submapRows
        (getRows c (xmlChild (some sm) "front_end_options") frontRows
          (getRows c (some sm) accumulateRows o)) := by
  simp only [midPre, List.foldl_append, getAt_rows, List.foldl_nil, List.foldl_cons]

theorem endPre_eq (c : Conv) (sm : Xml) (o : Settings) :
    endPre.foldl (getAt c sm) o =
      getRows c (some sm) pkgRows (getRows c (xmlChild (some sm) "back_end_options") backRows o) := by
  simp only [endPre, List.foldl_append, getAt_rows, List.foldl_nil, List.foldl_cons]

theorem accumulate_if (c : Conv) (sm : Xml) (o : Settings) :
    (if (xmlChild (some sm) "front_end_options").isSome then
      getRows c (xmlChild (some sm) "front_end_options") frontRows (getRows c (some sm) accumulateRows o)
     else o) =
    getRows c (xmlChild (some sm) "front_end_options") frontRows (getRows c (some sm) accumulateRows o) := by
  cases h : xmlChild (some sm) "front_end_options" with
  | some x => simp
  | none =>
    simp only [Option.isSome_none, Bool.false_eq_true, if_false, getRows_none]
    show o = getSingle c (some sm) o _
    simp [getSingle, h, xmlAttr]

/-- settings after the two directories -/
def dirsDone (c : Conv) (mkdir : List Char → Bool) (sm : Xml) : Outcome Settings := do
  let o ← dirStep mkdir exportRow.target (getSingle c (some sm) defaultSettings exportRow)
  dirStep mkdir packageRow.target (getSingle c (some sm) o packageRow)

theorem readConfig_eq (c : Conv) (mkdir : List Char → Bool) (sm : Xml) :
    readConfig c mkdir sm = (dirsDone c mkdir sm) >>= fun o =>
      (checkOptions (allPre.foldl (getAt c sm) o)) >>= fun _ =>
      initialiseInside c (allPre.foldl (getAt c sm) o)
        (registratorNode c (xmlChild (some sm) "front_end_options") "scan_matcher_options"
          (allPre.foldl (getAt c sm) o "front_end_options.scan_matcher_options.type").toInt)
        (registratorNode c (xmlChild (some sm) "back_end_options") "submap_matcher_options"
          (allPre.foldl (getAt c sm) o "back_end_options.submap_matcher_options.type").toInt) := by
  unfold readConfig dirsDone
  dsimp only
  cases h1 : dirStep mkdir exportRow.target (getSingle c (some sm) defaultSettings exportRow) with
  | abort => simp only [Outcome.bind_abort]
  | ub => simp only [Outcome.bind_ub]
  | ok o1 =>
    simp only [Outcome.bind_ok]
    cases h2 : dirStep mkdir packageRow.target (getSingle c (some sm) o1 packageRow) with
    | abort => simp only [Outcome.bind_abort]
    | ub => simp only [Outcome.bind_ub]
    | ok o2 =>
      simp only [Outcome.bind_ok]
      rw [accumulate_if]
      simp only [getRows_if]
      have e1 := frontPre_value c sm o2 (["front_end_options"],
        ⟨"scan_matcher_options", "type", "front_end_options.scan_matcher_options.type", .int⟩)
        (by decide +kernel)
      have e2 := midPre_value c sm o2 (["back_end_options"],
        ⟨"submap_matcher_options", "type", "back_end_options.submap_matcher_options.type", .int⟩)
        (by decide +kernel)
      dsimp only at e1 e2
      rw [List.foldl_append] at e2
      rw [← e1, ← e2]
      unfold allPre
      simp only [List.foldl_append, frontPre_eq, midPre_eq, endPre_eq]

theorem dirStep_ok (mkdir : List Char → Bool) (t : String) (o o' : Settings) :
    dirStep mkdir t o = .ok o' ↔
      (o t).toStr ≠ [] ∧ mkdir (o t).toStr = true ∧
      (o' = o ∧ (o t).toStr.getLast? = some '/' ∨
       o' = o.set t (.str ((o t).toStr ++ ['/'])) ∧ (o t).toStr.getLast? ≠ some '/') := by
  unfold dirStep
  dsimp only
  by_cases h1 : mkdir (o t).toStr = false
  · simp [h1]
  · simp only [Bool.not_eq_false] at h1
    by_cases h2 : (o t).toStr = []
    · rw [if_neg (by simp [h1]), if_pos h2]
      simp [h2]
    · by_cases h3 : (o t).toStr.getLast? = some '/'
      · simp [h1, h2, h3, eq_comm]
      · simp [h1, h2, h3, eq_comm]

theorem dirStep_abort_or (mkdir : List Char → Bool) (t : String) (o : Settings) :
    (∃ o', dirStep mkdir t o = .ok o') ↔ (o t).toStr ≠ [] ∧ mkdir (o t).toStr = true := by
  constructor
  · rintro ⟨o', h⟩
    have := (dirStep_ok mkdir t o o').1 h
    exact ⟨this.1, this.2.1⟩
  · rintro ⟨h1, h2⟩
    by_cases h3 : (o t).toStr.getLast? = some '/'
    · exact ⟨o, (dirStep_ok mkdir t o o).2 ⟨h1, h2, Or.inl ⟨rfl, h3⟩⟩⟩
    · exact ⟨_, (dirStep_ok mkdir t o _).2 ⟨h1, h2, Or.inr ⟨rfl, h3⟩⟩⟩

theorem dirStep_value (mkdir : List Char → Bool) (t : String) (o o' : Settings) (s : List Char)
    (hs : o t = .str s) (h : dirStep mkdir t o = .ok o') :
    o' t = .str (withSlash s) ∧ ∀ u, u ≠ t → o' u = o u := by
  obtain ⟨_, _, h | h⟩ := (dirStep_ok mkdir t o o').1 h
  · rw [hs] at h
    rw [h.1]
    have h2 : s.getLast? = some '/' := h.2
    exact ⟨by rw [hs]; simp [withSlash, h2], fun _ _ => rfl⟩
  · rw [hs] at h
    have h2 : s.getLast? ≠ some '/' := h.2
    rw [h.1]
    refine ⟨by simp [Settings.set, withSlash, h2, OptVal.toStr], fun u hu => by simp [Settings.set, hu]⟩

theorem effective_str (c : Conv) (sm : Xml) (path : List String) (attr : String) (s : List Char) :
    effective c sm path attr .string (.str s) =
      .str (effective c sm path attr .string (.str s)).toStr := by
  unfold effective
  cases optionText sm path attr <;> rfl

theorem getSingle_effective (c : Conv) (sm : Xml) (o : Settings) (r : OptRow) :
    getSingle c (some sm) o r r.target = effective c sm [r.child] r.attr r.kind (o r.target) := by
  rw [getSingle_hit]; rfl

theorem default_export : defaultSettings exportRow.target = .str ['.', '/'] := by decide +kernel
theorem default_package : defaultSettings packageRow.target = .str ['.', '/'] := by decide +kernel
theorem rows_ne : packageRow.target ≠ exportRow.target := by decide +kernel

theorem dirsDone_iff (c : Conv) (mkdir : List Char → Bool) (sm : Xml) :
    (∃ o, dirsDone c mkdir sm = .ok o) ↔
      (exportPath c sm ≠ [] ∧ mkdir (exportPath c sm) = true) ∧
      (packagePath c sm ≠ [] ∧ mkdir (packagePath c sm) = true) := by
  have e1 : getSingle c (some sm) defaultSettings exportRow exportRow.target = .str (exportPath c sm) := by
    rw [getSingle_effective, default_export]
    exact effective_str c sm _ _ _
  have e2 : ∀ o1, dirStep mkdir exportRow.target (getSingle c (some sm) defaultSettings exportRow) = .ok o1 →
      getSingle c (some sm) o1 packageRow packageRow.target = .str (packagePath c sm) := by
    intro o1 h1
    rw [getSingle_effective, (dirStep_value mkdir _ _ _ _ e1 h1).2 _ rows_ne,
      getSingle_other _ _ _ _ _ rows_ne, default_package]
    exact effective_str c sm _ _ _
  unfold dirsDone
  constructor
  · rintro ⟨o, h⟩
    obtain ⟨o1, h1, h2⟩ := (Outcome.bind_eq_ok _ _ _).1 h
    have a := (dirStep_abort_or mkdir _ _).1 ⟨o1, h1⟩
    have b := (dirStep_abort_or mkdir _ _).1 ⟨o, h2⟩
    rw [e1] at a
    rw [e2 o1 h1] at b
    exact ⟨a, b⟩
  · rintro ⟨a, b⟩
    obtain ⟨o1, h1⟩ := (dirStep_abort_or mkdir exportRow.target
      (getSingle c (some sm) defaultSettings exportRow)).2 (by rw [e1]; exact a)
    obtain ⟨o2, h2⟩ := (dirStep_abort_or mkdir packageRow.target
      (getSingle c (some sm) o1 packageRow)).2 (by rw [e2 o1 h1]; exact b)
    exact ⟨o2, by rw [h1, Outcome.bind_ok, h2]⟩

theorem dirsDone_value (c : Conv) (mkdir : List Char → Bool) (sm : Xml) (o : Settings)
    (h : dirsDone c mkdir sm = .ok o) :
    o exportRow.target = .str (withSlash (exportPath c sm)) ∧
    o packageRow.target = .str (withSlash (packagePath c sm)) ∧
    ∀ u, u ≠ exportRow.target → u ≠ packageRow.target → o u = defaultSettings u := by
  have e1 : getSingle c (some sm) defaultSettings exportRow exportRow.target = .str (exportPath c sm) := by
    rw [getSingle_effective, default_export]
    exact effective_str c sm _ _ _
  unfold dirsDone at h
  obtain ⟨o1, h1, h2⟩ := (Outcome.bind_eq_ok _ _ _).1 h
  have v1 := dirStep_value mkdir _ _ _ _ e1 h1
  have e2 : getSingle c (some sm) o1 packageRow packageRow.target = .str (packagePath c sm) := by
    rw [getSingle_effective, v1.2 _ rows_ne, getSingle_other _ _ _ _ _ rows_ne, default_package]
    exact effective_str c sm _ _ _
  have v2 := dirStep_value mkdir _ _ _ _ e2 h2
  refine ⟨?_, v2.1, ?_⟩
  · rw [v2.2 _ rows_ne.symm, getSingle_other _ _ _ _ _ rows_ne.symm, v1.1]
  · intro u hu hp
    rw [v2.2 _ hp, getSingle_other _ _ _ _ _ hp, v1.2 _ hu, getSingle_other _ _ _ _ _ hu]

/-! matchers -/

theorem matcherParams_names (c : Conv) (items items' : List MatcherItem) (ps : List Xml)
    (h : matcherParams c items ps = .ok items') :
    items'.map MatcherItem.name = items.map MatcherItem.name := by
  induction ps generalizing items with
  | nil => cases h; rfl
  | cons p ps ih =>
    obtain ⟨i1, h1, h2⟩ := (Outcome.bind_eq_ok _ _ _).1 h
    rw [ih i1 h2]
    unfold matcherParam at h1
    dsimp only at h1
    split at h1
    · cases h1
      rw [List.map_map]
      apply List.map_congr_left
      intro a _
      dsimp only [Function.comp]
      split <;> rfl
    · cases h1

theorem matcherParams_iff (c : Conv) (items : List MatcherItem) (ps : List Xml) :
    (∃ items', matcherParams c items ps = .ok items') ↔
      ∀ p ∈ ps, (p.attrs.lookup "name").getD "" ∈ items.map MatcherItem.name := by
  induction ps generalizing items with
  | nil => simp [matcherParams]
  | cons p ps ih =>
    have hp : (∃ i1, matcherParam c items p = .ok i1) ↔
        (p.attrs.lookup "name").getD "" ∈ items.map MatcherItem.name := by
      unfold matcherParam
      dsimp only
      split
      · rename_i h
        refine ⟨fun _ => ?_, fun _ => ⟨_, rfl⟩⟩
        obtain ⟨i, hi, he⟩ := List.any_eq_true.1 h
        exact List.mem_map.2 ⟨i, hi, by simpa using he⟩
      · rename_i h
        refine ⟨fun hh => (by obtain ⟨_, hh⟩ := hh; cases hh), fun hm => absurd ?_ h⟩
        obtain ⟨i, hi, he⟩ := List.mem_map.1 hm
        exact List.any_eq_true.2 ⟨i, hi, by simpa using he⟩
    have hnames : ∀ i1, matcherParam c items p = .ok i1 →
        i1.map MatcherItem.name = items.map MatcherItem.name := by
      intro i1 h1
      refine matcherParams_names c items i1 [p] ?_
      show (matcherParam c items p >>= fun i => matcherParams c i []) = _
      rw [h1]; rfl
    constructor
    · rintro ⟨items', h⟩
      obtain ⟨i1, h1, h2⟩ := (Outcome.bind_eq_ok _ _ _).1 h
      intro q hq
      rcases List.mem_cons.1 hq with rfl | hq
      · exact hp.1 ⟨i1, h1⟩
      · rw [← hnames i1 h1]
        exact (ih i1).1 ⟨items', h2⟩ q hq
    · intro h
      obtain ⟨i1, h1⟩ := hp.2 (h p (by simp))
      obtain ⟨i2, h2⟩ := (ih i1).2 (fun q hq => by rw [hnames i1 h1]; exact h q (by simp [hq]))
      exact ⟨i2, (Outcome.bind_eq_ok _ _ _).2 ⟨i1, h1, h2⟩⟩

theorem items_known (type : Int) :
    (matcherItems type).map (List.map MatcherItem.name) = knownParams type := by
  unfold matcherItems knownParams
  by_cases h1 : type = 1
  · subst h1; decide +kernel
  by_cases h3 : type = 3
  · subst h3; decide +kernel
  by_cases h5 : type = 5
  · subst h5; decide +kernel
  by_cases h6 : type = 6
  · subst h6; decide +kernel
  simp [h1, h3, h5, h6]

/-- names written for a matcher -/
def nodeNames (node : Option Xml) : List String :=
  (((node.map Xml.kids).getD []).filter (fun k => k.name == "param")).map
    (fun p => (p.attrs.lookup "name").getD "")

theorem createMatcher_iff (c : Conv) (type : Int) (node : Option Xml) :
    (∃ m, createMatcher c type node = .ok (some m)) ↔
      ∃ names, knownParams type = some names ∧ ∀ n ∈ nodeNames node, n ∈ names := by
  unfold createMatcher
  by_cases hdep : type = 2 ∨ type = 4
  · rw [if_pos hdep]
    refine ⟨fun hh => (by obtain ⟨_, hh⟩ := hh; cases hh), ?_⟩
    rintro ⟨names, h, _⟩
    rcases hdep with rfl | rfl <;> simp [knownParams] at h
  · rw [if_neg hdep, ← items_known]
    cases hi : matcherItems type with
    | none =>
      refine ⟨?_, ?_⟩
      · rintro ⟨m, h⟩; cases h
      · rintro ⟨n, h, _⟩; cases h
    | some items =>
      dsimp only
      simp only [Option.map_some]
      constructor
      · rintro ⟨m, h⟩
        obtain ⟨i, h1, h2⟩ := (Outcome.bind_eq_ok _ _ _).1 h
        refine ⟨_, rfl, ?_⟩
        intro n hn
        unfold nodeNames at hn
        obtain ⟨p, hp, rfl⟩ := List.mem_map.1 hn
        exact (matcherParams_iff c items _).1 ⟨i, h1⟩ p hp
      · rintro ⟨names, h, hall⟩
        cases h
        obtain ⟨i, h1⟩ := (matcherParams_iff c items
          (((node.map Xml.kids).getD []).filter (fun k => k.name == "param"))).2
          (fun p hp => hall _ (List.mem_map.2 ⟨p, hp, rfl⟩))
        exact ⟨i, by rw [h1]; rfl⟩

theorem nodeNames_written (c : Conv) (sm : Xml) (f s : String) (type : Int) :
    nodeNames (registratorNode c (xmlChild (some sm) f) s type) = writtenParams c sm [f, s] type := by
  unfold nodeNames registratorNode writtenParams typeAttr
  simp only [List.foldl_cons, List.foldl_nil]
  cases xmlChild (xmlChild (some sm) f) s with
  | none => rfl
  | some m =>
    simp only [Option.bind_some, Option.map_some, Option.getD_some]
    generalize List.find? _ m.kids = r
    cases r <;> rfl

theorem defaults_documented (path : List String) (attr : String) (k : OptKind) (t : String)
    (hd : (path, attr, k, t) ∈ documented) : t ≠ exportRow.target ∧ t ≠ packageRow.target := by
  obtain ⟨x, hx, _, _, _, h4⟩ := documented_find _ hd
  dsimp only at h4
  have hm : t ∈ allPre.map (fun x => x.2.target) := by
    rw [← h4]; exact List.mem_map_of_mem hx
  exact ⟨fun e => allPre_no_dirs.1 (by rw [← e]; exact hm), fun e => allPre_no_dirs.2 (by rw [← e]; exact hm)⟩

theorem final_value (c : Conv) (mkdir : List Char → Bool) (sm : Xml) (o : Settings)
    (h : dirsDone c mkdir sm = .ok o) (path : List String) (attr : String) (k : OptKind) (t : String)
    (hd : (path, attr, k, t) ∈ documented) :
    allPre.foldl (getAt c sm) o t = effective c sm path attr k (defaultSettings t) := by
  obtain ⟨h1, h2⟩ := defaults_documented path attr k t hd
  rw [allPre_value c sm o path attr k t hd, (dirsDone_value c mkdir sm o h).2.2 t h1 h2]

theorem checkOptions_ok (o : Settings) (u : Unit) : checkOptions o = .ok u ↔
    (((o "back_end_options.loop_detector_setting.use_gps").toBool = true ∨
      (o "back_end_options.loop_detector_setting.use_descriptor").toBool = true) ∧
     1 ≤ (o "front_end_options.accumulate_cloud_num").toInt ∧
     1 / 2 < (o "output_mrvm_settings.hit_prob").toNum ∧
     (o "output_mrvm_settings.miss_prob").toNum < 1 / 2 ∧
     1 ≤ (o "output_mrvm_settings.max_point_num_in_cell").toInt) := by
  unfold checkOptions
  simp only [Outcome.check_bind_eq_ok]
  unfold Outcome.check
  constructor
  · rintro ⟨a, b, c, d, e⟩
    refine ⟨a, b, c, d, ?_⟩
    by_contra hc
    rw [if_neg hc] at e; cases e
  · rintro ⟨a, b, c, d, e⟩
    exact ⟨a, b, c, d, by rw [if_pos e]⟩

theorem initialiseInside_ok (c : Conv) (o : Settings) (sn bn : Option Xml) (r : BuilderCfg) :
    initialiseInside c o sn bn = .ok r ↔
      ∃ m, createMatcher c (o "front_end_options.scan_matcher_options.type").toInt sn = .ok (some m) ∧
        ((o "front_end_options.imu_options.enabled").toBool = true →
          1 / 1000000 < (o "front_end_options.imu_options.frequency").toNum) ∧
        r = ⟨o, m, bn⟩ := by
  unfold initialiseInside
  constructor
  · intro h
    obtain ⟨m, h1, h2⟩ := (Outcome.bind_eq_ok _ _ _).1 h
    rw [Outcome.check_bind_eq_ok, Outcome.check_bind_eq_ok] at h2
    obtain ⟨hm, hi, h3⟩ := h2
    obtain ⟨m', rfl⟩ := Option.isSome_iff_exists.1 hm
    cases h3
    exact ⟨m', h1, hi, rfl⟩
  · rintro ⟨m, h1, h2, rfl⟩
    rw [h1, Outcome.bind_ok, Outcome.check_pos (by simp), Outcome.bind_ok, Outcome.check_pos h2,
      Outcome.bind_ok]
    rfl

end Verif
