import Verif.Proofs.ConfigText
/-! Property theorems C104, second part: starting a map builder from the text of a settings file. -/
namespace Verif
open Spec

theorem start_node {mkdir : List Char → Bool} {fmax slope : Rat} {name : String} {bytes : List Char} {f : XmlForest}
    (hd : Document bytes f) {r : BuilderCfg} {fs : List FilterConfig}
    (h : startBuilder mkdir fmax slope name (some bytes) = .ok (r, fs)) :
    ∃ e, settingsElement f = some e ∧ topElement name (configFile (some bytes)) = some (asXml "static_mapping" e) ∧
      initialise textConv mkdir (some name) (configFile (some bytes)) = .ok r ∧
      factoryInit (supportedFilters fmax slope) (filterSection (asXml "static_mapping" e)) = .ok fs := by
  cases hn : configNode name (configFile (some bytes)) with
  | none =>
    exfalso
    unfold startBuilder at h
    rw [hn] at h
    dsimp only at h
    rw [C60_defaults_fails textConv mkdir name _ ((configNode_top _ _).symm.trans hn)] at h
    cases h
  | some sm =>
    have hne : name ≠ "" := by
      rintro rfl
      unfold configNode at hn
      rw [if_pos rfl] at hn
      cases hn
    have hl := C104_document bytes f hd
    have hok : loadXml bytes = .ok f := by
      rw [hl]
      split
      · rfl
      · rename_i hc
        exfalso
        rw [if_neg hc] at hl
        unfold configNode configFile at hn
        rw [if_neg hne] at hn
        dsimp only at hn
        rw [hl] at hn
        cases hn
    have hs := configNode_doc hne hok
    rw [hn] at hs
    cases he : settingsElement f with
    | none => rw [he] at hs; cases hs
    | some e =>
      rw [he] at hs
      simp only [Option.map_some, Option.some.injEq] at hs
      obtain ⟨h1, h2⟩ := (startBuilder_ok hn r fs).1 h
      rw [hs] at h2 hn
      exact ⟨e, rfl, (configNode_top _ _).symm.trans hn, h1, h2⟩

/-- C104: when the builder starts, every documented option has the value its text in the file stands
for, or the value of its initialiser if it is not in the file; the two directories end with a slash. -/
theorem C104_options (mkdir : List Char → Bool) (fmax slope : Rat) (name : String) (bytes : List Char) (f : XmlForest)
    (hd : Document bytes f) (r : BuilderCfg) (fs : List FilterConfig)
    (h : startBuilder mkdir fmax slope name (some bytes) = .ok (r, fs)) :
    (∀ path attr kind setting, (path, attr, kind, setting) ∈ documented →
      match writtenOption f path attr with
      | none => headerDefault path attr = some (r.settings setting)
      | some t => ∀ v, ReadsAs kind t v → r.settings setting = v) ∧
    r.settings "whole_options.export_file_path" =
      .str (withSlash ((writtenOption f ["whole_options"] "export_file_path").getD ['.', '/'])) ∧
    r.settings "whole_options.map_package_path" =
      .str (withSlash ((writtenOption f ["whole_options"] "map_package_path").getD ['.', '/'])) := by
  obtain ⟨e, he, ht, hi, _⟩ := start_node hd h
  have hw : ∀ path attr, optionText (asXml "static_mapping" e) path attr =
      (writtenOption f path attr).map String.ofList := by
    intro path attr
    unfold writtenOption
    rw [he]
    exact optionText_asXml _ e path attr
  obtain ⟨h1, h2, h3⟩ := C60_options textConv mkdir name _ _ r ht hi
  refine ⟨fun path attr kind setting hm => ?_, ?_, ?_⟩
  · have hv := h1 path attr kind setting hm
    unfold effective at hv
    cases ho : writtenOption f path attr with
    | none => exact C60_default_values textConv mkdir name _ _ r ht hi path attr kind setting hm (by rw [hw, ho]; rfl)
    | some t =>
      intro v hr
      rw [hw, ho] at hv
      rw [hv]
      exact reads_conv hr
  · rw [h2]
    unfold Spec.exportPath effective
    rw [hw]
    cases writtenOption f ["whole_options"] "export_file_path" with
    | none => rfl
    | some t => simp [Conv.read, OptVal.toStr]
  · rw [h3]
    unfold Spec.packagePath effective
    rw [hw]
    cases writtenOption f ["whole_options"] "map_package_path" with
    | none => rfl
    | some t => simp [Conv.read, OptVal.toStr]

/-- C104: the filters are those of the file that the program knows, in the order of the file; each
parameter has the value the last `param` of its name gives it, or else its default. -/
theorem C104_filters (mkdir : List Char → Bool) (fmax slope : Rat) (name : String) (bytes : List Char) (f : XmlForest)
    (hd : Document bytes f) (r : BuilderCfg) (fs : List FilterConfig)
    (h : startBuilder mkdir fmax slope name (some bytes) = .ok (r, fs)) :
    List.Forall₂ (fun e g => ∃ g0 ∈ supportedFilters fmax slope, g0.name.toList = nameOf e ∧ g.name = g0.name ∧
      ∀ n, match lastParam e n with
        | none => paramValue g.params n = paramValue g0.params n
        | some p => ∃ q w, g0.params.find? (fun p => decide (p.name = n)) = some q ∧
            paramValue g.params n = some w ∧ ParamGives q.type p w)
      ((filterElements f).filter fun e => knownFilters.any fun m => decide (m.toList = nameOf e)) fs := by
  obtain ⟨e, he, _, _, hf⟩ := start_node hd h
  rw [filterSection_asXml] at hf
  have hfe : filterElements f = match elementAt e ["filters"] with
      | none => []
      | some x => allElements x.2 "filter" := by
    unfold filterElements
    rw [he]
    rfl
  have hf' : factoryInit (supportedFilters fmax slope)
      ((filterElements f).map fun x => filterOf (asXml "filter" x)) = .ok fs := by rw [hfe]; exact hf
  have := factory_chain (supportedFilters fmax slope) (by
    intro g hg
    simp only [supportedFilters, List.mem_cons, List.not_mem_nil, or_false] at hg
    rcases hg with rfl | rfl | rfl | rfl | rfl | rfl | rfl | rfl | rfl <;>
      simp [randomSamplerConfig, rangeImageConfig, groundRemovalConfig, groundRemoval2Config, rangeConfig,
        statisticRemovalConfig, voxelGridConfig, axisRangeConfig, boxRemovalConfig]) _ _ hf'
  exact this

/-- C104: the parameters of the other filters, with their types and defaults (those of the rest are in
`C50_tables`).  `slope` is the tangent of 15 degrees. -/
theorem C104_filter_tables (slope : Rat) :
    groundRemovalConfig.params.map (fun p => (p.name, p.type, p.value)) =
      [("leaf_size", .float, 4 / 5), ("height_threshold", .float, 3 / 20), ("min_point_num_in_voxel", .int32, 10)] ∧
    (groundRemoval2Config slope).params.map (fun p => (p.name, p.type, p.value)) =
      [("r_max", .float, 100), ("r_min", .float, 1), ("start_ground_height", .float, -1 / 4), ("long_line_threshold", .float, 1),
       ("max_long_line_height", .float, 1 / 10), ("max_start_height", .float, 1 / 5), ("max_error", .float, 1 / 20),
       ("max_slope", .float, slope), ("max_b", .float, 1 / 10), ("max_dist_to_line", .float, 1 / 20),
       ("search_angle", .float, 10), ("bin_num", .int32, 200), ("segment_num", .int32, 180), ("thread_num", .int32, 4)] ∧
    rangeImageConfig.params.map (fun p => (p.name, p.type, p.value)) =
      [("top_angle", .float, 30), ("btm_angle", .float, -15), ("offset_x", .float, 0), ("offset_y", .float, 0),
       ("offset_z", .float, 0), ("vertical_line_num", .int32, 40), ("horizontal_line_num", .int32, 1800)] ∧
    statisticRemovalConfig.params.map (fun p => (p.name, p.type, p.value)) =
      [("std_mul", .float, 1), ("point_num_meank", .int32, 30)] := by
  refine ⟨by decide +kernel, ?_, by decide +kernel, by decide +kernel⟩
  simp only [groundRemoval2Config, List.map_cons, List.map_nil]
  norm_num

/-- C104: without a name, without a file, with a file that is no document or one without the settings
element, the builder stops. -/
theorem C104_unusable_fails (mkdir : List Char → Bool) (fmax slope : Rat) (name : String) (content : Option (List Char))
    (h : name = "" ∨ content = none ∨ (∃ bytes e, content = some bytes ∧ loadXml bytes = .error e) ∨
      (∃ bytes f, content = some bytes ∧ Document bytes f ∧ settingsElement f = none)) :
    startBuilder mkdir fmax slope name content = .abort := by
  have hn : configNode name (configFile content) = none := by
    rcases h with rfl | rfl | ⟨bytes, e, rfl, he⟩ | ⟨bytes, f, rfl, hd, hs⟩
    · unfold configNode; rw [if_pos rfl]
    · unfold configNode configFile; simp
    · unfold configNode configFile; simp [he]
    · by_cases hne : name = ""
      · unfold configNode; rw [if_pos hne]
      · have hl := C104_document bytes f hd
        by_cases hc : f.hasElement = true
        · rw [if_pos hc] at hl
          rw [configNode_doc hne hl, hs]
          rfl
        · rw [if_neg hc] at hl
          unfold configNode configFile
          simp [hl]
  unfold startBuilder
  rw [hn]
  dsimp only
  rw [C60_defaults_fails textConv mkdir name _ ((configNode_top _ _).symm.trans hn)]
  rfl

/-- C104: the matchers of scans and of submaps are set up from the first `registrator_options` of the
chosen type in their sections. -/
theorem C104_matchers (mkdir : List Char → Bool) (fmax slope : Rat) (name : String) (bytes : List Char) (f : XmlForest)
    (hd : Document bytes f) (r : BuilderCfg) (fs : List FilterConfig)
    (h : startBuilder mkdir fmax slope name (some bytes) = .ok (r, fs)) :
    (∀ k, r.settings "front_end_options.scan_matcher_options.type" = .int k →
      MatcherSet (matcherParamsOf f ["front_end_options", "scan_matcher_options"] k) k r.scanMatcher) ∧
    (∀ k m, r.settings "back_end_options.submap_matcher_options.type" = .int k → submapMatcher textConv r = .ok m →
      MatcherSet (matcherParamsOf f ["back_end_options", "submap_matcher_options"] k) k m) := by
  obtain ⟨e, he, ht, hi, _⟩ := start_node hd h
  have h' : readConfig textConv mkdir (asXml "static_mapping" e) = .ok r := by
    have h0 := ht
    unfold topElement at h0
    cases hc : configFile (some bytes) with
    | missing => rw [hc] at h0; cases h0
    | malformed => rw [hc] at h0; cases h0
    | doc root =>
      rw [hc] at h0 hi
      dsimp only at h0
      split at h0
      · cases h0
      · rename_i hn
        unfold initialise at hi
        dsimp only at hi
        rw [if_neg hn, h0] at hi
        exact hi
  have hps : ∀ (s1 s2 : String) (k : Int),
      (((registratorNode textConv (xmlChild (some (asXml "static_mapping" e)) s1) s2 k).map Xml.kids).getD []).filter
          (fun x => x.name == "param") = (matcherParamsOf f [s1, s2] k).map (asXml "param") := by
    intro s1 s2 k
    rw [registrator_params]
    unfold matcherParamsOf
    rw [he]
    rfl
  rw [readConfig_eq] at h'
  obtain ⟨o, ho, h1⟩ := (Outcome.bind_eq_ok _ _ _).1 h'
  obtain ⟨_, _, h2⟩ := (Outcome.bind_eq_ok _ _ _).1 h1
  obtain ⟨m, hm, _, rfl⟩ := (initialiseInside_ok textConv _ _ _ _).1 h2
  constructor
  · intro k hk
    dsimp only at hk
    rw [hk] at hm
    exact createMatcher_set (hps _ _ k) hm
  · intro k m' hk hs
    dsimp only at hk
    unfold submapMatcher at hs
    dsimp only at hs
    rw [hk] at hs
    obtain ⟨x, hx, hs⟩ := (Outcome.bind_eq_ok _ _ _).1 hs
    rw [Outcome.check_bind_eq_ok] at hs
    obtain ⟨hx1, hs⟩ := hs
    obtain ⟨y, rfl⟩ := Option.isSome_iff_exists.1 hx1
    simp only [Outcome.pure_eq, Option.getD_some, Outcome.ok.injEq] at hs
    subst hs
    exact createMatcher_set (hps _ _ k) hx

/-- A file that switches a matcher option on the way the shipped files write parameters. -/
def blankSwitch : List Char :=
  ("<edward_liu><static_mapping><front_end_options><scan_matcher_options type='3'>".toList ++
   "<registrator_options type='3'><param name='use_ndt'> true </param></registrator_options>".toList ++
   "</scan_matcher_options><imu_options use_imu='false'/></front_end_options><back_end_options>".toList ++
   "<loop_detector_setting use_descriptor='true'/></back_end_options></static_mapping></edward_liu>".toList)

theorem attrText_plain (q : Char) (v : List Char)
    (h : ∀ c ∈ v, c ≠ q ∧ c ≠ '&' ∧ c ≠ '\t' ∧ c ≠ '\n' ∧ c ≠ '\r' ∧ c ≠ Char.ofNat 0) : AttrText q v v := by
  induction v with
  | nil => exact .nil
  | cons c v ih =>
    obtain ⟨a1, a2, a3, a4, a5, a6⟩ := h c (List.mem_cons_self ..)
    exact .plain a1 a2 a3 a4 a5 a6 (ih fun d hd => h d (List.mem_cons_of_mem _ hd))

theorem bodyText_plain (v : List Char) (h : ∀ c ∈ v, c ≠ '<' ∧ c ≠ '&' ∧ c ≠ '\r' ∧ c ≠ Char.ofNat 0) : BodyText v v := by
  induction v with
  | nil => exact .nil
  | cons c v ih =>
    obtain ⟨a1, a2, a3, a4⟩ := h c (List.mem_cons_self ..)
    exact .plain a1 a2 a3 a4 (ih fun d hd => h d (List.mem_cons_of_mem _ hd))

/-- The document in that file. -/
def blankSwitchDocument : XmlForest :=
  .elem "edward_liu".toList [] (.elem "static_mapping".toList []
    (.elem "front_end_options".toList []
      (.elem "scan_matcher_options".toList [("type".toList, ['3'])]
        (.elem "registrator_options".toList [("type".toList, ['3'])]
          (.elem "param".toList [("name".toList, "use_ndt".toList)] (.text " true ".toList .nil) .nil) .nil)
      (.elem "imu_options".toList [("use_imu".toList, "false".toList)] .nil .nil))
    (.elem "back_end_options".toList []
      (.elem "loop_detector_setting".toList [("use_descriptor".toList, "true".toList)] .nil .nil) .nil)) .nil) .nil

theorem blankSwitch_document : Document blankSwitch blankSwitchDocument := by
  have no : Blank ([] : List Char) := by intro c hc; cases hc
  have sp : Blank [' '] := by intro c hc; simp at hc; exact .inl hc
  have at1 : ∀ n v : List Char, XmlName n →
      (∀ c ∈ v, c ≠ '\'' ∧ c ≠ '&' ∧ c ≠ '\t' ∧ c ≠ '\n' ∧ c ≠ '\r' ∧ c ≠ Char.ofNat 0) →
      AttrsText ([' '] ++ (n ++ ([] ++ '=' :: ([] ++ '\'' :: (v ++ '\'' :: []))))) [(n, v)] :=
    fun n v hn hv => .cons sp (by decide) hn no no (.inr rfl) (attrText_plain _ v hv) .nil
  have tn : XmlName "type".toList := xmlName_check (by decide +kernel) (by decide +kernel)
  have body : Markup true (" true ".toList ++ []) (.text " true ".toList .nil) :=
    .text (bodyText_plain _ (by decide +kernel))
      (fun h => absurd (h 't' (by decide +kernel)) (by decide)) (.stop no) (.inl rfl)
  have prm := Markup.node (i := true) no (xmlName_check (n := "param".toList) (by decide +kernel) (by decide +kernel))
    (at1 "name".toList "use_ndt".toList (xmlName_check (by decide +kernel) (by decide +kernel)) (by decide +kernel))
    no body no (.stop no)
  have reg := Markup.node (i := true) no
    (xmlName_check (n := "registrator_options".toList) (by decide +kernel) (by decide +kernel))
    (at1 _ ['3'] tn (by decide)) no prm no (.stop no)
  have imu := Markup.leaf (i := true) no (xmlName_check (n := "imu_options".toList) (by decide +kernel) (by decide +kernel))
    (at1 "use_imu".toList "false".toList (xmlName_check (by decide +kernel) (by decide +kernel)) (by decide +kernel))
    no (.stop no)
  have scan := Markup.node (i := true) no
    (xmlName_check (n := "scan_matcher_options".toList) (by decide +kernel) (by decide +kernel))
    (at1 _ ['3'] tn (by decide)) no reg no imu
  have loop := Markup.leaf (i := true) no
    (xmlName_check (n := "loop_detector_setting".toList) (by decide +kernel) (by decide +kernel))
    (at1 "use_descriptor".toList "true".toList (xmlName_check (by decide +kernel) (by decide +kernel)) (by decide +kernel))
    no (.stop no)
  have back := Markup.node (i := true) no
    (xmlName_check (n := "back_end_options".toList) (by decide +kernel) (by decide +kernel)) .nil no loop no (.stop no)
  have front := Markup.node (i := true) no
    (xmlName_check (n := "front_end_options".toList) (by decide +kernel) (by decide +kernel)) .nil no scan no back
  have sm := Markup.node (i := true) no
    (xmlName_check (n := "static_mapping".toList) (by decide +kernel) (by decide +kernel)) .nil no front no (.stop no)
  have all := Document.plain (Markup.node (i := false) no
    (xmlName_check (n := "edward_liu".toList) (by decide +kernel) (by decide +kernel)) .nil no sm no (.stop no))
  refine cast (congrArg (fun t => Document t blankSwitchDocument) ?_) all
  decide +kernel

/-- C104 fails for a switch written between blanks, as the shipped files write parameters: the option
that is ` true ` in the file is off (its default is on). -/
theorem C104_switch_fails : Document blankSwitch blankSwitchDocument ∧
    ∃ r fs, startBuilder (fun _ => true) 1000 (1 / 4) "a.xml" (some blankSwitch) = .ok (r, fs) ∧
    ∃ i ∈ r.scanMatcher, i.name = "use_ndt" ∧ i.value = .bool false := by
  refine ⟨blankSwitch_document, ?_⟩
  have h : (match startBuilder (fun _ => true) 1000 (1 / 4) "a.xml" (some blankSwitch) with
      | .ok (r, _) => r.scanMatcher.any fun i => decide (i.name = "use_ndt" ∧ i.value = .bool false)
      | _ => false) = true := by decide +kernel
  generalize startBuilder (fun _ => true) 1000 (1 / 4) "a.xml" (some blankSwitch) = w at h
  cases w with
  | abort => cases h
  | ub => cases h
  | ok w =>
    obtain ⟨r, fs⟩ := w
    obtain ⟨i, hi, hv⟩ := List.any_eq_true.1 h
    exact ⟨r, fs, rfl, i, hi, by simpa using hv⟩

/-- config/static_mapping_default.xml, line by line. -/
def shippedLines : List (List Char) :=
  ["<?xml version=\"1.0\"?>".toList,
   "<edward_liu>".toList,
   "  <static_mapping>".toList,
   "    <whole_options ".toList,
   "      export_file_path=\"pcd/\"".toList,
   "      map_package_path=\"pkgs/test/\" />".toList,
   "    <map_package_options".toList,
   "      enable=\"false\"".toList,
   "      border_offset=\"100\"".toList,
   "      piece_width=\"500.\"".toList,
   "      cloud_file_prefix=\"part_\"".toList,
   "      descript_filename=\"map_package.xml\" />".toList,
   "    <filters>".toList,
   "      <!-- type: ".toList,
   "        0 : int".toList,
   "        1 : float  -->".toList,
   "      <filter name=\"Range\" >".toList,
   "        <param type=\"1\" name=\"max_range\"> 75. </param>".toList,
   "        <param type=\"1\" name=\"min_range\"> 4.5 </param>".toList,
   "      </filter>".toList,
   "      <filter name=\"RandomSampler\" >".toList,
   "        <param type=\"1\" name=\"sampling_rate\"> 0.35 </param>".toList,
   "      </filter>".toList,
   "    </filters>".toList,
   "    <front_end_options accumulate_cloud_num=\"181\">".toList,
   "      <!-- matcher type  ".toList,
   "        0: none ".toList,
   "        1: icp using pointmatcher ".toList,
   "        2: icp using libicp ".toList,
   "        3: ndt&gicp ".toList,
   "        4: kfpcs(not available now)".toList,
   "        5: lego loam(in test)".toList,
   "        6: ndt omp(in test) -->".toList,
   "      <scan_matcher_options type=\"6\" >".toList,
   "        <registrator_options type = \"6\">".toList,
   "          <param name=\"dist_outlier_ratio\"> 0.7 </param>".toList,
   "          <param name=\"knn_normal_estimate\"> 7 </param>".toList,
   "          <param name=\"max_iteration\"> 100 </param>".toList,
   "        </registrator_options>".toList,
   "        <inner_filters>".toList,
   "          <filter name=\"GroundRemoval2\" >".toList,
   "            <param type=\"1\" name=\"r_min\"> 0.1 </param>".toList,
   "            <param type=\"1\" name=\"start_ground_height\"> -0.35 </param>".toList,
   "            <param type=\"1\" name=\"long_line_threshold\"> 10 </param>".toList,
   "            <param type=\"1\" name=\"max_slope\"> 0.12 </param>".toList,
   "            <param type=\"1\" name=\"max_error\"> 0.1 </param>".toList,
   "            <param type=\"1\" name=\"max_dist_to_line\"> 0.10 </param>".toList,
   "            <param type=\"1\" name=\"max_start_height\"> 0.6 </param>".toList,
   "            <param type=\"0\" name=\"thread_num\"> 4 </param>".toList,
   "          </filter>".toList,
   "          <filter name=\"RangeImage\" >".toList,
   "            <param type=\"1\" name=\"top_angle\"> 30. </param>".toList,
   "            <param type=\"1\" name=\"btm_angle\"> -20. </param>".toList,
   "            <param type=\"0\" name=\"vertical_line_num\"> 60 </param>".toList,
   "          </filter>".toList,
   "        </inner_filters>".toList,
   "      </scan_matcher_options>".toList,
   "      <!-- translation unit: m".toList,
   "           angle unit: degree -->".toList,
   "      <motion_filter ".toList,
   "        translation_range=\"1\"".toList,
   "        angle_range=\"1.5\" />".toList,
   "      <!-- imu type ".toList,
   "          0: normal type".toList,
   "          1: imu in ins(combined imu) -->".toList,
   "      <imu_options ".toList,
   "        use_imu=\"true\"".toList,
   "        imu_frequency=\"100.\"".toList,
   "        type=\"0\"".toList,
   "        gravity_constant=\"9.8\" />".toList,
   "    </front_end_options>".toList,
   "    <back_end_options>".toList,
   "      <!-- type just the same as front end -->".toList,
   "      <submap_matcher_options ".toList,
   "        type=\"6\"".toList,
   "        accepted_min_score=\"0.75\">".toList,
   "        <registrator_options type = \"6\">".toList,
   "          <param name=\"dist_outlier_ratio\"> 0.7 </param>".toList,
   "          <param name=\"knn_normal_estimate\"> 7 </param>".toList,
   "          <param name=\"max_iteration\"> 100 </param>".toList,
   "        </registrator_options>".toList,
   "      </submap_matcher_options>".toList,
   "      <submap_options ".toList,
   "        frame_count=\"2\"".toList,
   "        enable_voxel_filter=\"true\"".toList,
   "        enable_random_sampleing=\"false\"".toList,
   "        enable_check=\"false\"".toList,
   "        random_sampling_rate=\"0.5\"".toList,
   "        enable_disk_saving=\"false\"".toList,
   "        disk_saving_delay=\"30\"".toList,
   "        saving_name_prefix=\"s_\" />".toList,
   "      <isam_optimizer_options ".toList,
   "        use_odom=\"false\"".toList,
   "        use_gps=\"false\" />".toList,
   "      <loop_detector_setting ".toList,
   "        use_gps=\"false\"".toList,
   "        use_descriptor=\"true\"".toList,
   "        loop_ignore_threshold=\"15\"".toList,
   "        trying_detect_loop_count=\"1\"".toList,
   "        max_close_loop_distance=\"25.\"".toList,
   "        m2dp_match_score=\"0.96\"".toList,
   "        nearest_history_pos_num=\"5\" />".toList,
   "    </back_end_options>".toList,
   "    <output_mrvm_settings".toList,
   "      output_average=\"true\"".toList,
   "      prob_threshold=\"0.57\" ".toList,
   "      low_resolution=\"1.\" ".toList,
   "      high_resolution=\"0.1\"".toList,
   "      hit_prob=\"0.55\"".toList,
   "      miss_prob=\"0.48\"".toList,
   "      z_offset=\"1.2\"".toList,
   "      max_point_num_in_cell=\"10\">".toList,
   "    </output_mrvm_settings>".toList,
   "  </static_mapping>".toList,
   "</edward_liu>".toList,
   "".toList]

/-- Its text. -/
def shippedText : List Char := shippedLines.flatMap fun l => l ++ ['\n']
/-- What starting from it must give. -/
def shippedOk : Bool :=
  match startBuilder (fun _ => true) (2 ^ 128 - 2 ^ 104) (1 / 4) "a.xml" (some shippedText) with
  | .ok (r, fs) =>
    decide (fs.map (fun g => (g.name, g.params.map fun p => (p.name, p.value))) =
        [("Range", [("min_range", 9 / 2), ("max_range", 75)]), ("RandomSampler", [("sampling_rate", 11744051 / 2 ^ 25)])] ∧
      r.settings "front_end_options.scan_matcher_options.type" = .int 6 ∧
      r.settings "whole_options.export_file_path" = .str ['p', 'c', 'd', '/'] ∧
      r.settings "back_end_options.loop_detector_setting.use_descriptor" = .bool true ∧
      r.scanMatcher.map (fun i => (i.name, i.value)) = [("knn_normal_estimate", .int 7), ("max_iteration", .int 100),
        ("dist_outlier_ratio", .num (11744051 / 2 ^ 24))])
  | _ => false

example : shippedOk = true := by decide +kernel

end Verif
