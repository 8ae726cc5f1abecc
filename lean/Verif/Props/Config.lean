import Verif.Proofs.Config
import Verif.Proofs.Outcome
/-! Property theorems C60 (configuration file). -/
namespace Verif
open Spec

/-- C60: when the builder starts from a usable file, every documented option has the value written
in the file, or its default if it is not written; the two directories end with a slash. -/
theorem C60_options (c : Conv) (mkdir : List Char → Bool) (name : String) (file : ConfigFile) (sm : Xml)
    (r : BuilderCfg) (hsm : topElement name file = some sm)
    (h : initialise c mkdir (some name) file = .ok r) :
    (∀ path attr kind setting, (path, attr, kind, setting) ∈ documented →
      r.settings setting = effective c sm path attr kind (defaultSettings setting)) ∧
    r.settings "whole_options.export_file_path" = .str (withSlash (exportPath c sm)) ∧
    r.settings "whole_options.map_package_path" = .str (withSlash (packagePath c sm)) := by
  have h' : readConfig c mkdir sm = .ok r := by
    unfold topElement at hsm
    cases file with
    | missing => cases hsm
    | malformed => cases hsm
    | doc root =>
      dsimp only at hsm
      split at hsm
      · cases hsm
      · rename_i hn
        unfold initialise at h
        dsimp only at h
        rw [if_neg hn, hsm] at h
        exact h
  rw [readConfig_eq] at h'
  obtain ⟨o, ho, h1⟩ := (Outcome.bind_eq_ok _ _ _).1 h'
  obtain ⟨_, _, h2⟩ := (Outcome.bind_eq_ok _ _ _).1 h1
  obtain ⟨m, _, _, rfl⟩ := (initialiseInside_ok c _ _ _ _).1 h2
  refine ⟨fun path attr kind setting hd => final_value c mkdir sm o ho path attr kind setting hd, ?_, ?_⟩
  · show allPre.foldl (getAt c sm) o exportRow.target = _
    rw [getAll_other c sm allPre o _ allPre_no_dirs.1]
    exact (dirsDone_value c mkdir sm o ho).1
  · show allPre.foldl (getAt c sm) o packageRow.target = _
    rw [getAll_other c sm allPre o _ allPre_no_dirs.2]
    exact (dirsDone_value c mkdir sm o ho).2.1

/-- **C60.** An option that is not written has the value of its initialiser. -/
theorem C60_default_values (c : Conv) (mkdir : List Char → Bool) (name : String) (file : ConfigFile) (sm : Xml)
    (r : BuilderCfg) (hsm : topElement name file = some sm)
    (h : initialise c mkdir (some name) file = .ok r) (path : List String) (attr : String) (kind : OptKind) (setting : String)
    (hd : (path, attr, kind, setting) ∈ documented) (hn : optionText sm path attr = none) :
    headerDefault path attr = some (r.settings setting) := by
  rw [(C60_options c mkdir name file sm r hsm h).1 path attr kind setting hd]
  unfold effective
  rw [hn]
  have key : ∀ x ∈ documented, headerDefault x.1 x.2.1 = some (defaultSettings x.2.2.2) := by decide +kernel
  exact key _ hd

/-- C60: the builder starts from a file exactly when the configuration is one it can work with. -/
theorem C60_accepts (c : Conv) (mkdir : List Char → Bool) (name : String) (file : ConfigFile) (sm : Xml)
    (hsm : topElement name file = some sm) :
    (∃ r, initialise c mkdir (some name) file = .ok r) ↔ Usable c mkdir sm := by
  have h' : initialise c mkdir (some name) file = readConfig c mkdir sm := by
    unfold topElement at hsm
    cases file with
    | missing => cases hsm
    | malformed => cases hsm
    | doc root =>
      dsimp only at hsm
      split at hsm
      · cases hsm
      · rename_i hn
        unfold initialise
        dsimp only
        rw [if_neg hn, hsm]
  rw [h', readConfig_eq]
  have hscan : ∀ o, dirsDone c mkdir sm = .ok o → ((∃ m, createMatcher c
      (allPre.foldl (getAt c sm) o "front_end_options.scan_matcher_options.type").toInt
      (registratorNode c (xmlChild (some sm) "front_end_options") "scan_matcher_options"
        (allPre.foldl (getAt c sm) o "front_end_options.scan_matcher_options.type").toInt) = .ok (some m)) ↔
      MatcherUsable c sm ["front_end_options", "scan_matcher_options"]) := by
    intro o ho
    rw [createMatcher_iff, nodeNames_written,
      final_value c mkdir sm o ho ["front_end_options", "scan_matcher_options"] "type" .int _
        (by decide +kernel)]
    rfl
  constructor
  · rintro ⟨r, h⟩
    obtain ⟨o, ho, h1⟩ := (Outcome.bind_eq_ok _ _ _).1 h
    obtain ⟨u, hc, h2⟩ := (Outcome.bind_eq_ok _ _ _).1 h1
    obtain ⟨m, hm, hi, _⟩ := (initialiseInside_ok c _ _ _ _).1 h2
    have hd := (dirsDone_iff c mkdir sm).1 ⟨o, ho⟩
    have hk := (checkOptions_ok _ u).1 hc
    rw [final_value c mkdir sm o ho ["back_end_options", "loop_detector_setting"] "use_gps" .bool _
        (by decide +kernel),
      final_value c mkdir sm o ho ["back_end_options", "loop_detector_setting"] "use_descriptor" .bool _
        (by decide +kernel),
      final_value c mkdir sm o ho ["front_end_options"] "accumulate_cloud_num" .int _ (by decide +kernel),
      final_value c mkdir sm o ho ["output_mrvm_settings"] "hit_prob" .float _ (by decide +kernel),
      final_value c mkdir sm o ho ["output_mrvm_settings"] "miss_prob" .float _ (by decide +kernel),
      final_value c mkdir sm o ho ["output_mrvm_settings"] "max_point_num_in_cell" .int _
        (by decide +kernel)] at hk
    rw [final_value c mkdir sm o ho ["front_end_options", "imu_options"] "use_imu" .bool _
        (by decide +kernel),
      final_value c mkdir sm o ho ["front_end_options", "imu_options"] "imu_frequency" .float _
        (by decide +kernel)] at hi
    exact ⟨hd.1, hd.2, hk.1, hk.2.1, hk.2.2.1, hk.2.2.2.1, hk.2.2.2.2, (hscan o ho).1 ⟨m, hm⟩, hi⟩
  · intro hu
    obtain ⟨o, ho⟩ := (dirsDone_iff c mkdir sm).2 ⟨hu.exportDir, hu.packageDir⟩
    obtain ⟨m, hm⟩ := (hscan o ho).2 hu.scan
    rw [ho, Outcome.bind_ok]
    have hc : checkOptions (allPre.foldl (getAt c sm) o) = .ok () := by
      rw [checkOptions_ok]
      rw [final_value c mkdir sm o ho ["back_end_options", "loop_detector_setting"] "use_gps" .bool _
          (by decide +kernel),
        final_value c mkdir sm o ho ["back_end_options", "loop_detector_setting"] "use_descriptor" .bool _
          (by decide +kernel),
        final_value c mkdir sm o ho ["front_end_options"] "accumulate_cloud_num" .int _ (by decide +kernel),
        final_value c mkdir sm o ho ["output_mrvm_settings"] "hit_prob" .float _ (by decide +kernel),
        final_value c mkdir sm o ho ["output_mrvm_settings"] "miss_prob" .float _ (by decide +kernel),
        final_value c mkdir sm o ho ["output_mrvm_settings"] "max_point_num_in_cell" .int _
          (by decide +kernel)]
      exact ⟨hu.loops, hu.accumulate, hu.hit, hu.miss, hu.cell⟩
    rw [hc, Outcome.bind_ok]
    refine ⟨_, (initialiseInside_ok c _ _ _ _).2 ⟨m, hm, ?_, rfl⟩⟩
    rw [final_value c mkdir sm o ho ["front_end_options", "imu_options"] "use_imu" .bool _
        (by decide +kernel),
      final_value c mkdir sm o ho ["front_end_options", "imu_options"] "imu_frequency" .float _
        (by decide +kernel)]
    exact hu.imu

/-- C60: each parameter of the scan matcher has the value of the last `param` element of its name,
or its default. -/
theorem C60_matcher_params (c : Conv) (items items' : List MatcherItem) (ps : List Xml)
    (h : matcherParams c items ps = .ok items') :
    items' = items.map (fun i =>
      match (ps.filter (fun p => (p.attrs.lookup "name").getD "" == i.name)).getLast? with
      | some p => { i with value := c.read i.kind p.text }
      | none => i) := by
  induction ps generalizing items with
  | nil => cases h; simp
  | cons p ps ih =>
    obtain ⟨i1, h1, h2⟩ := (Outcome.bind_eq_ok _ _ _).1 h
    rw [ih i1 h2]
    unfold matcherParam at h1
    dsimp only at h1
    split at h1
    · cases h1
      rw [List.map_map]
      apply List.map_congr_left
      intro a _
      dsimp only [Function.comp]
      by_cases hn : a.name = (p.attrs.lookup "name").getD ""
      · rw [if_pos hn]
        dsimp only
        have hb : (((p.attrs.lookup "name").getD "" == a.name) = true) := by rw [hn]; simp
        rw [List.filter_cons, if_pos hb, List.getLast?_cons]
        cases (ps.filter (fun p => (p.attrs.lookup "name").getD "" == a.name)).getLast? <;> rfl
      · rw [if_neg hn, List.filter_cons, if_neg (by simpa using fun e => hn e.symm)]
    · cases h1

/-- C60 is false for a file that is missing, malformed or has not the expected elements (and for an
empty file name): the code says it uses the default configuration, but that configuration asks for an
IMU of frequency zero and the builder stops. -/
theorem C60_defaults_fails (c : Conv) (mkdir : List Char → Bool) (name : String) (file : ConfigFile)
    (h : topElement name file = none) : initialise c mkdir (some name) file = .abort := by
  have hi : initialise c mkdir (some name) file = initialiseInside c defaultSettings none none := by
    unfold topElement at h
    unfold initialise
    dsimp only
    by_cases hn : name = ""
    · rw [if_pos hn]
    · rw [if_neg hn]
      cases file with
      | missing => rfl
      | malformed => rfl
      | doc root =>
        dsimp only at h
        rw [if_neg hn] at h
        dsimp only
        rw [h]
  rw [hi]
  have hm : createMatcher c (defaultSettings "front_end_options.scan_matcher_options.type").toInt none
      = .ok (some []) := by
    have e : (defaultSettings "front_end_options.scan_matcher_options.type").toInt = 1 := by decide +kernel
    rw [e]
    rfl
  have e1 : (defaultSettings "front_end_options.imu_options.enabled").toBool = true := by decide +kernel
  have e2 : (defaultSettings "front_end_options.imu_options.frequency").toNum = 0 := by decide +kernel
  unfold initialiseInside
  rw [hm, Outcome.bind_ok, Outcome.check_pos (by simp), Outcome.bind_ok,
    Outcome.check_neg (by rw [e1, e2]; norm_num), Outcome.bind_abort]

/-- C60 is false for a null file name, which the code tries to catch: it is undefined behaviour. -/
theorem C60_null_fails (c : Conv) (mkdir : List Char → Bool) (file : ConfigFile) :
    initialise c mkdir none file = .ub := rfl

example : topElement "a.xml" .missing = none ∧
    topElement "a.xml" (.doc (.node "" [] "" [.node "edward_liu" [] "" []])) = none := by
  decide +kernel

/-- A small configuration: loops by descriptor, no IMU, and one more attribute or section. -/
def smallConfig (whole : List (String × String)) (back : List Xml) : Xml :=
  .node "static_mapping" [] "" [
    .node "whole_options" whole "" [],
    .node "front_end_options" [("accumulate_cloud_num", "3")] "" [
      .node "scan_matcher_options" [("type", "6")] "" [
        .node "registrator_options" [("type", "3")] "" [.node "param" [("name", "use_ndt")] "false" []],
        .node "registrator_options" [("type", "6")] "" [.node "param" [("name", "max_iteration")] "50" []]],
      .node "imu_options" [("use_imu", "false")] "" []],
    .node "back_end_options" [] "" (.node "loop_detector_setting" [("use_descriptor", "true")] "" [] :: back)]

def fileOf (sm : Xml) : ConfigFile := .doc (.node "" [] "" [.node "edward_liu" [] "" [sm]])

/-- conversions that read these texts as expected -/
structure ReadsPlain (c : Conv) : Prop where
  two : c.asInt "2" = 2
  three : c.asInt "3" = 3
  six : c.asInt "6" = 6
  yes : c.asBool "true" = true
  no : c.asBool "false" = false

def plainConv : Conv where
  asBool s := s == "true"
  asInt s := if s = "2" then 2 else if s = "3" then 3 else if s = "6" then 6 else if s = "50" then 50 else 0
  asFloat _ := 0
  asDouble _ := 0

example : ReadsPlain plainConv := by constructor <;> decide +kernel

theorem smallConfig_usable (c : Conv) (hc : ReadsPlain c) (back : List Xml) :
    Usable c (fun _ => true) (smallConfig [] back) := by
  have hloop : optionText (smallConfig [] back) ["back_end_options", "loop_detector_setting"]
      "use_descriptor" = some "true" := rfl
  have hacc : optionText (smallConfig [] back) ["front_end_options"] "accumulate_cloud_num" = some "3" := rfl
  have himu : optionText (smallConfig [] back) ["front_end_options", "imu_options"] "use_imu"
      = some "false" := rfl
  have htype : optionText (smallConfig [] back) ["front_end_options", "scan_matcher_options"] "type"
      = some "6" := rfl
  have hhit : optionText (smallConfig [] back) ["output_mrvm_settings"] "hit_prob" = none := rfl
  have hmiss : optionText (smallConfig [] back) ["output_mrvm_settings"] "miss_prob" = none := rfl
  have hcell : optionText (smallConfig [] back) ["output_mrvm_settings"] "max_point_num_in_cell" = none := rfl
  refine ⟨⟨?_, rfl⟩, ⟨?_, rfl⟩, Or.inr ?_, ?_, ?_, ?_, ?_, ?_, ?_⟩
  · show ['.', '/'] ≠ []
    simp
  · show ['.', '/'] ≠ []
    simp
  · simp [effective, hloop, Conv.read, OptVal.toBool, hc.yes]
  · simp [effective, hacc, Conv.read, OptVal.toInt, hc.three]
  · simp only [effective, hhit, Option.map_none, Option.getD_none, OptVal.toNum]; norm_num
  · simp only [effective, hmiss, Option.map_none, Option.getD_none, OptVal.toNum]; norm_num
  · simp [effective, hcell, OptVal.toInt]
  · refine ⟨["knn_normal_estimate", "max_iteration", "dist_outlier_ratio"], ?_, ?_⟩
    · simp [effective, htype, Conv.read, OptVal.toInt, hc.six, knownParams]
    · have e : (effective c (smallConfig [] back) ["front_end_options", "scan_matcher_options"] "type" .int
          (.int 1)).toInt = 6 := by
        simp [effective, htype, Conv.read, OptVal.toInt, hc.six]
      rw [e]
      intro n hn
      unfold writtenParams at hn
      simp [smallConfig, xmlChild, Xml.kids, Xml.name, Xml.attrs, List.find?, List.lookup, hc.three, hc.six] at hn
      rw [hn]
      simp
  · intro h
    simp [effective, himu, Conv.read, OptVal.toBool, hc.no] at h

-- a configuration that is accepted
example : ∃ r, initialise plainConv (fun _ => true) (some "a.xml") (fileOf (smallConfig [] [])) = .ok r :=
  (C60_accepts plainConv _ "a.xml" _ (smallConfig [] []) (by rfl)).2
    (smallConfig_usable plainConv (by constructor <;> decide +kernel) [])

/-- The matcher of the back end, when two submaps are matched: there is one exactly if the configured
type is known and every parameter written for it is one of its parameters; otherwise the program
stops (it never goes on without a matcher). -/
theorem C60_submap_matcher (c : Conv) (b : BuilderCfg) :
    ((∃ m, submapMatcher c b = .ok m) ↔
      ∃ names, knownParams (b.settings "back_end_options.submap_matcher_options.type").toInt = some names ∧
        ∀ n ∈ nodeNames b.submapNode, n ∈ names) ∧
    submapMatcher c b ≠ .ub := by
  constructor
  · rw [← createMatcher_iff c]
    unfold submapMatcher
    constructor
    · rintro ⟨m, h⟩
      obtain ⟨o, h1, h2⟩ := (Outcome.bind_eq_ok _ _ _).1 h
      obtain ⟨h3, h4⟩ := (Outcome.check_bind_eq_ok _ _ _).1 h2
      obtain ⟨m', rfl⟩ := Option.isSome_iff_exists.1 h3
      exact ⟨m', h1⟩
    · rintro ⟨m, h⟩
      refine ⟨m, ?_⟩
      rw [h, Outcome.bind_ok, Outcome.check_pos (by simp)]
      rfl
  · have hp : ∀ (ps : List Xml) (items : List MatcherItem), matcherParams c items ps ≠ .ub := by
      intro ps
      induction ps with
      | nil => intro items h; cases h
      | cons p ps ih =>
        intro items h
        simp only [matcherParams, matcherParam] at h
        by_cases hc : (items.any fun i => i.name == (p.attrs.lookup "name").getD "") = true
        · rw [if_pos hc, Outcome.bind_ok] at h; exact ih _ h
        · rw [if_neg hc, Outcome.bind_abort] at h; cases h
    unfold submapMatcher createMatcher
    by_cases hd : (b.settings "back_end_options.submap_matcher_options.type").toInt = 2 ∨
        (b.settings "back_end_options.submap_matcher_options.type").toInt = 4
    · rw [if_pos hd, Outcome.bind_abort]; simp
    · rw [if_neg hd]
      cases matcherItems (b.settings "back_end_options.submap_matcher_options.type").toInt with
      | none =>
        dsimp only
        rw [Outcome.bind_ok, Outcome.check_neg (by simp)]
        simp [Outcome.bind_abort]
      | some items =>
        dsimp only
        cases hm : matcherParams c items
            (((b.submapNode.map Xml.kids).getD []).filter fun k => k.name == "param") with
        | ub => exact absurd hm (hp _ _)
        | abort => simp [Outcome.bind_abort]
        | ok i => simp [Outcome.bind_ok, Outcome.pure_eq, Outcome.check_pos]

theorem createMatcher_ne_ub (c : Conv) (type : Int) (node : Option Xml) : createMatcher c type node ≠ .ub := by
  intro h
  have := (C60_submap_matcher c ⟨fun _ => .int type, [], node⟩).2
  unfold submapMatcher at this
  dsimp only [OptVal.toInt] at this
  rw [h, Outcome.bind_ub] at this
  exact this rfl

/-- **C60.** A file with a `static_mapping` element is read, or the program ends with a message; the only
undefined case is an empty directory name that could be created. -/
theorem C60_undefined (c : Conv) (mkdir : List Char → Bool) (name : String) (file : ConfigFile) (sm : Xml)
    (hsm : topElement name file = some sm) :
    initialise c mkdir (some name) file = .ub ↔ mkdir [] = true ∧ (exportPath c sm = [] ∨
      (mkdir (exportPath c sm) = true ∧ packagePath c sm = [])) := by
  have h' : initialise c mkdir (some name) file = readConfig c mkdir sm := by
    unfold topElement at hsm
    cases file with
    | missing => cases hsm
    | malformed => cases hsm
    | doc root =>
      dsimp only at hsm
      split at hsm
      · cases hsm
      · rename_i hn
        unfold initialise
        dsimp only
        rw [if_neg hn, hsm]
  have hrest : ∀ o : Settings, ∀ n1 n2, (checkOptions o >>= fun _ => initialiseInside c o n1 n2) ≠ .ub := by
    intro o n1 n2
    apply Outcome.bind_ne_ub
    · unfold checkOptions
      iterate 4 refine Outcome.bind_ne_ub (Outcome.check_ne_ub _) fun _ => ?_
      exact Outcome.check_ne_ub _
    · intro _
      unfold initialiseInside
      refine Outcome.bind_ne_ub (createMatcher_ne_ub _ _ _) fun _ => ?_
      iterate 2 refine Outcome.bind_ne_ub (Outcome.check_ne_ub _) fun _ => ?_
      simp
  have hstep : ∀ t (o : Settings), dirStep mkdir t o = .ub ↔ mkdir (o t).toStr = true ∧ (o t).toStr = [] := by
    intro t o
    unfold dirStep
    dsimp only
    cases mkdir (o t).toStr
    · simp
    · rw [if_neg (by simp)]
      by_cases h0 : (o t).toStr = []
      · simp [h0]
      · rw [if_neg h0]
        split <;> simp [h0]
  have e1 : getSingle c (some sm) defaultSettings exportRow exportRow.target = .str (exportPath c sm) := by
    rw [getSingle_effective, default_export]
    exact effective_str c sm _ _ _
  have e2 : ∀ o1, dirStep mkdir exportRow.target (getSingle c (some sm) defaultSettings exportRow) = .ok o1 →
      getSingle c (some sm) o1 packageRow packageRow.target = .str (packagePath c sm) := by
    intro o1 h1
    rw [getSingle_effective, (dirStep_value mkdir _ _ _ _ e1 h1).2 _ rows_ne,
      getSingle_other _ _ _ _ _ rows_ne, default_package]
    exact effective_str c sm _ _ _
  rw [h', readConfig_eq, Outcome.bind_eq_ub]
  rw [or_iff_left (by rintro ⟨a, _, h⟩; exact hrest _ _ _ h)]
  unfold dirsDone
  rw [Outcome.bind_eq_ub, hstep, e1]
  constructor
  · rintro (⟨h1, h2⟩ | ⟨o1, h1, h2⟩)
    · rw [show (OptVal.str (exportPath c sm)).toStr = exportPath c sm from rfl] at h1 h2
      exact ⟨h2 ▸ h1, Or.inl h2⟩
    · have a := (dirStep_abort_or mkdir _ _).1 ⟨o1, h1⟩
      rw [e1] at a
      rw [hstep, e2 o1 h1] at h2
      have h3 : packagePath c sm = [] := h2.2
      exact ⟨h3 ▸ h2.1, Or.inr ⟨a.2, h3⟩⟩
  · rintro ⟨h1, h2⟩
    by_cases h0 : exportPath c sm = []
    · exact Or.inl ⟨by show mkdir (exportPath c sm) = true; rw [h0]; exact h1, h0⟩
    · obtain ⟨h3, h4⟩ := h2.resolve_left h0
      obtain ⟨o1, ho⟩ := (dirStep_abort_or mkdir exportRow.target
        (getSingle c (some sm) defaultSettings exportRow)).2 (by rw [e1]; exact ⟨h0, h3⟩)
      refine Or.inr ⟨o1, ho, ?_⟩
      rw [hstep, e2 o1 ho]
      exact ⟨by show mkdir (packagePath c sm) = true; rw [h4]; exact h1, h4⟩

-- both cases occur: a matcher of type 1 without parameters, and type 7
example : (∃ m, submapMatcher plainConv ⟨fun _ => .int 1, [], none⟩ = .ok m) ∧
    submapMatcher plainConv ⟨fun _ => .int 7, [], none⟩ = .abort := by
  refine ⟨(C60_submap_matcher _ _).1.2 ⟨[], rfl, by simp [nodeNames]⟩, rfl⟩

/-- C60 is false for the matcher of the back end: a configuration that names a deprecated matcher for
submaps is accepted at the start, and the builder stops when the first two submaps are matched. -/
theorem C60_submap_matcher_fails (c : Conv) (hc : ReadsPlain c) :
    ∃ sm r, initialise c (fun _ => true) (some "a.xml") (fileOf sm) = .ok r ∧
      submapMatcher c r = .abort := by
  let back := [Xml.node "submap_matcher_options" [("type", "2")] "" []]
  have htop : topElement "a.xml" (fileOf (smallConfig [] back)) = some (smallConfig [] back) := rfl
  obtain ⟨r, hr⟩ := (C60_accepts c (fun _ => true) "a.xml" _ _ htop).2 (smallConfig_usable c hc back)
  refine ⟨smallConfig [] back, r, hr, ?_⟩
  have hv := (C60_options c (fun _ => true) "a.xml" _ _ r htop hr).1
    ["back_end_options", "submap_matcher_options"] "type" .int
    "back_end_options.submap_matcher_options.type" (by decide +kernel)
  have ht : optionText (smallConfig [] back) ["back_end_options", "submap_matcher_options"] "type"
      = some "2" := rfl
  have e : (r.settings "back_end_options.submap_matcher_options.type").toInt = 2 := by
    rw [hv]
    simp [effective, ht, Conv.read, OptVal.toInt, hc.two]
  unfold submapMatcher createMatcher
  rw [e, if_pos (Or.inl rfl), Outcome.bind_abort]

/-- C60 is false for an export path that is written but empty (`CreateDir` accepts it): reading it is
undefined behaviour. -/
theorem C60_empty_path_fails (c : Conv) (mkdir : List Char → Bool) (hm : mkdir [] = true) :
    ∃ sm, initialise c mkdir (some "a.xml") (fileOf sm) = .ub := by
  refine ⟨smallConfig [("export_file_path", "")] [], ?_⟩
  have h : initialise c mkdir (some "a.xml") (fileOf (smallConfig [("export_file_path", "")] [])) =
      readConfig c mkdir (smallConfig [("export_file_path", "")] []) := rfl
  rw [h, readConfig_eq]
  have e : getSingle c (some (smallConfig [("export_file_path", "")] [])) defaultSettings exportRow
      exportRow.target = .str [] := by
    rw [getSingle_effective]
    rfl
  have hd : dirsDone c mkdir (smallConfig [("export_file_path", "")] []) = .ub := by
    unfold dirsDone dirStep
    dsimp only
    rw [e]
    simp [OptVal.toStr, hm]
  rw [hd, Outcome.bind_ub]

end Verif
