import Verif.Model.StartNode
import Verif.Spec.StartNode
import Verif.Proofs.Outcome
import Verif.Props.Extrinsics
import Verif.Proofs.ShippedStart
/-! C111: from the command line to the running builder. -/
namespace Verif
open Verif.Spec

theorem holdsText_iff (pat : List Char) : ∀ text, holdsText pat text = true ↔ Contains text pat
  | [] => by
    simp only [holdsText, List.isEmpty_iff, Contains]
    constructor
    · rintro rfl; exact ⟨[], [], rfl⟩
    · rintro ⟨a, b, h⟩
      simp only [List.nil_eq, List.append_eq_nil_iff] at h
      exact h.1.2
  | c :: cs => by
    simp only [holdsText, Bool.or_eq_true, holdsText_iff pat cs, List.isPrefixOf_iff_prefix]
    constructor
    · rintro (⟨b, hb⟩ | ⟨a, b, rfl⟩)
      · exact ⟨[], b, hb.symm⟩
      · exact ⟨c :: a, b, rfl⟩
    · rintro ⟨a, b, h⟩
      cases a with
      | nil => exact .inl ⟨b, h.symm⟩
      | cons x a =>
        rw [List.cons_append, List.cons_append, List.cons.injEq] at h
        exact .inr ⟨a, b, h.2⟩

theorem rosInit_cleaned {argv ws : List (List Char)} (h : Cleaned argv ws) : rosInit argv = ws := by
  induction h with
  | nil => rfl
  | @keep w argv ws hw _ ih =>
    have : holdsText [':', '='] w = false := by
      cases hh : holdsText [':', '='] w with
      | false => rfl
      | true => exact absurd ((holdsText_iff _ _).1 hh) hw
    simp only [rosInit, List.filter_cons, this, Bool.not_false, if_true] at ih ⊢
    rw [ih]
  | @drop w argv ws hw _ ih =>
    simp only [rosInit, List.filter_cons, (holdsText_iff _ _).2 hw, Bool.not_true, Bool.false_eq_true, if_false] at ih ⊢
    exact ih

theorem word_inj : ∀ {f g : NodeFlag}, f.word = g.word → f = g := by
  intro f g h
  cases f <;> cases g <;> first | rfl | exact absurd h (by decide)

theorem argAfter_pairs (f : NodeFlag) : ∀ pairs : List (NodeFlag × List Char), (∀ p ∈ pairs, ∀ g : NodeFlag, p.2 ≠ g.word) →
    argAfter f.word (optionWords pairs) = pairs.lookup f
  | [], _ => rfl
  | (g, v) :: l, hp => by
    simp only [optionWords, argAfter, List.lookup]
    by_cases hfg : f = g
    · subst hfg
      simp
    · rw [if_neg (fun h => hfg (word_inj h.symm)), if_neg (hp (g, v) (List.mem_cons_self ..) f)]
      have : (f == g) = false := by simpa using hfg
      rw [this, argAfter_pairs f l fun p h => hp p (List.mem_cons_of_mem _ h)]

theorem default_eq (f : NodeFlag) : f.default = (defaultOf f).toList := by
  cases f <;> rfl

theorem lookup_mem_iff {pairs : List (NodeFlag × List Char)} (hn : (pairs.map Prod.fst).Nodup) (f : NodeFlag) (v : List Char) :
    pairs.lookup f = some v ↔ (f, v) ∈ pairs := by
  induction pairs with
  | nil => simp
  | cons p l ih =>
    obtain ⟨g, u⟩ := p
    simp only [List.map_cons, List.nodup_cons] at hn
    simp only [List.lookup, List.mem_cons, Prod.mk.injEq]
    by_cases hfg : f = g
    · subst hfg
      have hno : (f, v) ∉ l := fun h => hn.1 (List.mem_map.2 ⟨_, h, rfl⟩)
      simp [hno, eq_comm]
    · have : (f == g) = false := by simpa using hfg
      simp [this, hfg, ih hn.2]

theorem lookup_none {pairs : List (NodeFlag × List Char)} (f : NodeFlag) (h : pairs.lookup f = none) (u : List Char) :
    (f, u) ∉ pairs := by
  induction pairs with
  | nil => simp
  | cons p l ih =>
    obtain ⟨g, v⟩ := p
    simp only [List.lookup] at h
    by_cases hfg : f = g
    · subst hfg; simp at h
    · have hb : (f == g) = false := by simpa using hfg
      rw [hb] at h
      simp [hfg, ih h]

/-- Every option has the value given on the command line, or the documented one. -/
theorem C111_line {pairs : List (NodeFlag × List Char)} {argv : List (List Char)} (h : LineOf pairs argv) (f : NodeFlag)
    (v : List Char) : nodeArg argv f = v ↔ Value pairs f v := by
  obtain ⟨⟨prog, hw⟩, hn, hp⟩ := h
  simp only [nodeArg, rosInit_cleaned hw, List.drop_succ_cons, List.drop_zero, argAfter_pairs f pairs hp, Value]
  cases hl : pairs.lookup f with
  | none =>
    have := lookup_none f hl
    simp [this, default_eq, eq_comm]
  | some u =>
    have hu := (lookup_mem_iff hn f u).1 hl
    simp only [Option.getD_some]
    constructor
    · rintro rfl; exact .inl hu
    · rintro (hv | ⟨hv, _⟩)
      · have := (lookup_mem_iff hn f v).2 hv
        rw [hl] at this
        exact Option.some.inj this
      · exact absurd hu (hv u)

section
variable {G : Type} [Group G]

/-- Neither the order of the options nor remappings between them matter. -/
theorem C111_order (w : NodeWorld G) {p q : List (NodeFlag × List Char)} {a b : List (List Char)} (ha : LineOf p a)
    (hb : LineOf q b) (hpq : p.Perm q) : startNode w a = startNode w b := by
  have : nodeArg a = nodeArg b := by
    funext f
    rw [C111_line ha]
    have := (C111_line hb f (nodeArg b f)).1 rfl
    rcases this with h | ⟨h, he⟩
    · exact .inl (hpq.mem_iff.2 h)
    · exact .inr ⟨fun u hu => h u (hpq.mem_iff.1 hu), he⟩
  simp only [startNode, this]


theorem arg_eq {pairs : List (NodeFlag × List Char)} {argv : List (List Char)} (h : LineOf pairs argv)
    {v : NodeFlag → List Char} (hv : ∀ f, Value pairs f (v f)) : nodeArg argv = v :=
  funext fun f => (C111_line h f (v f)).2 (hv f)

theorem lookIf_ok {use : Bool} {r : Outcome G} {o : Option G} (h : lookIf use r = .ok o) :
    (o.isSome = true ↔ use = true) ∧ ∀ g, o = some g → r = .ok g := by
  unfold lookIf at h
  cases use with
  | false =>
    simp only [Bool.false_eq_true, if_false, Outcome.pure_eq, Outcome.ok.injEq] at h
    subst h
    simp
  | true =>
    simp only [if_true, Outcome.bind_eq_ok, Outcome.pure_eq, Outcome.ok.injEq] at h
    obtain ⟨g, hg, rfl⟩ := h
    refine ⟨by simp, ?_⟩
    rintro g' h'
    rw [← Option.some.inj h']
    exact hg

/-- What is known of a run. -/
theorem startWith_run {w : NodeWorld G} {v : NodeFlag → List Char} {r : NodeRun G} (h : startWith w v = .ok (.run r)) :
    v .pc ≠ [] ∧ w.nameOk (v .pc) = true ∧ (useImuOf v = true → w.nameOk (v .imu) = true) ∧
    (useOdomOf v = true → w.nameOk (v .odom) = true) ∧ (useGpsOf v = true → w.nameOk (v .gps) = true) ∧
    v .track ≠ [] ∧ ¬ (existing w (v .kitti) ≠ [] ∧ existing w (v .bag) ≠ []) ∧
    ∃ lookup, nodeLookup w (v .urdf) = .ok lookup ∧ lookup (v .track) (v .pcFrame) = .ok r.toLidar ∧
    ((r.toImu.isSome = true ↔ useImuOf v = true) ∧ ∀ g, r.toImu = some g → lookup (v .track) (v .imuFrame) = .ok g ∧ w.imuOk g = true) ∧
    ((r.odomToLidar.isSome = true ↔ useOdomOf v = true) ∧ ∀ g, r.odomToLidar = some g → lookup (v .odomFrame) (v .pcFrame) = .ok g) ∧
    ((r.toOdom.isSome = true ↔ useOdomOf v = true) ∧ ∀ g, r.toOdom = some g → lookup (v .track) (v .odomFrame) = .ok g) ∧
    ((r.toGps.isSome = true ↔ useGpsOf v = true) ∧ ∀ g, r.toGps = some g → lookup (v .track) (v .gpsFrame) = .ok g) ∧
    nodeConfig w (v .cfg) = .ok r.cfg ∧ (v .cfg ≠ [] → imuWanted r.cfg.1 = true → useImuOf v = true) ∧
    r.useOdom = useOdomOf v ∧ r.useGps = useGpsOf v ∧
    r.showMap = holdsText ['[', 'm', 'a', 'p', ']'] (v .pubs) ∧
    r.showSubmap = holdsText ['[', 's', 'u', 'b', 'm', 'a', 'p', ']'] (v .pubs) ∧
    r.showPath = holdsText ['[', 'p', 'a', 't', 'h', ']'] (v .pubs) ∧
    r.showEdge = holdsText ['[', 'e', 'd', 'g', 'e', ']'] (v .pubs) ∧
    r.source = dataSource (existing w (v .bag)) (existing w (v .kitti)) := by
  unfold startWith at h
  split at h
  · cases h
  rename_i hpc
  simp only [subscribeIf, Outcome.check_bind_eq_ok, true_imp_iff] at h
  obtain ⟨h1, h2, h3, h4, h5, h⟩ := h
  split at h
  · cases h
  rename_i hboth
  simp only [makeBuilder, nodeLookups, Outcome.bind_eq_ok] at h
  obtain ⟨lookup, hl, m, ⟨lidar, hlid, imu, himu, ol, hol, od, hod, gp, hgp, hm⟩, cfg, hc, h⟩ := h
  cases hm
  split at h
  · cases h
  rename_i hi
  cases h
  refine ⟨hpc, h1, h2, h3, h4, h5, hboth, lookup, hl, hlid, ⟨(lookIf_ok himu).1, ?_⟩, lookIf_ok hol, lookIf_ok hod, lookIf_ok hgp, hc, ?_,
    rfl, rfl, rfl, rfl, rfl, rfl, rfl⟩
  · intro g hg
    have := (lookIf_ok himu).2 g hg
    obtain ⟨g', hg', h'⟩ := (Outcome.bind_eq_ok _ _ _).1 this
    rw [Outcome.check_bind_eq_ok] at h'
    obtain ⟨hok, h'⟩ := h'
    cases h'
    exact ⟨hg', hok⟩
  · intro ha hb
    cases hu : useImuOf v with
    | true => rfl
    | false => exact absurd ⟨ha, hb, hu⟩ hi

theorem existing_iff (w : NodeWorld G) (p f : List Char) (hf : f ≠ []) : existing w p = f ↔ p = f ∧ w.fileExists f = true := by
  unfold existing
  split
  · rename_i h
    constructor
    · intro h2; exact absurd h2.symm hf
    · rintro ⟨rfl, h2⟩; rw [h.2] at h2; cases h2
  · rename_i h
    constructor
    · rintro rfl
      refine ⟨rfl, ?_⟩
      cases hx : w.fileExists p with
      | true => rfl
      | false => exact absurd ⟨hf, hx⟩ h
    · exact fun h => h.1

theorem existing_nil (w : NodeWorld G) (p : List Char) : existing w p = [] ↔ ¬ (p ≠ [] ∧ w.fileExists p = true) := by
  constructor
  · rintro h ⟨h1, h2⟩
    rw [(existing_iff w p p h1).2 ⟨rfl, h2⟩] at h
    exact h1 h
  · intro h
    by_contra hc
    have := (existing_iff w p _ hc).1 rfl
    exact h ⟨by rw [this.1]; exact hc, by rw [this.1]; exact this.2⟩

/-- A node that runs has a topic of clouds, uses exactly the sensors named on the command line, shows exactly what is
asked for, and reads the recording that is named and there. -/
theorem C111_runs (w : NodeWorld G) {pairs : List (NodeFlag × List Char)} {argv : List (List Char)} (hl : LineOf pairs argv)
    {v : NodeFlag → List Char} (hv : ∀ f, Value pairs f (v f)) {r : NodeRun G} (h : startNode w argv = .ok (.run r)) :
    v .pc ≠ [] ∧ v .track ≠ [] ∧
    (r.toImu.isSome = true ↔ v .imu ≠ []) ∧
    (r.useOdom = true ↔ v .odom ≠ [] ∧ v .odomFrame ≠ []) ∧ (r.odomToLidar.isSome = r.useOdom ∧ r.toOdom.isSome = r.useOdom) ∧
    (r.useGps = true ↔ v .gps ≠ [] ∧ v .gpsFrame ≠ []) ∧ r.toGps.isSome = r.useGps ∧
    (r.showMap = true ↔ Contains (v .pubs) ['[', 'm', 'a', 'p', ']']) ∧
    (r.showSubmap = true ↔ Contains (v .pubs) ['[', 's', 'u', 'b', 'm', 'a', 'p', ']']) ∧
    (r.showPath = true ↔ Contains (v .pubs) ['[', 'p', 'a', 't', 'h', ']']) ∧
    (r.showEdge = true ↔ Contains (v .pubs) ['[', 'e', 'd', 'g', 'e', ']']) ∧
    (∀ f, r.source = .bag f ↔ v .bag = f ∧ f ≠ [] ∧ w.fileExists f = true) ∧
    (∀ f, r.source = .kitti f ↔ v .kitti = f ∧ f ≠ [] ∧ w.fileExists f = true) ∧
    (r.source = .live ↔ ¬ (v .bag ≠ [] ∧ w.fileExists (v .bag) = true) ∧ ¬ (v .kitti ≠ [] ∧ w.fileExists (v .kitti) = true)) := by
  rw [startNode, arg_eq hl hv] at h
  obtain ⟨h1, -, -, -, -, h5, hboth, lookup, -, -, ⟨himu, -⟩, ⟨hol, -⟩, ⟨hod, -⟩, ⟨hgp, -⟩, -, -, e1, e2, e3, e4, e5, e6, e7⟩ := startWith_run h
  refine ⟨h1, h5, ?_, ?_, ?_, ?_, ?_, ?_, ?_, ?_, ?_, ?_⟩
  · rw [himu]; simp [useImuOf]
  · rw [e1]; simp [useOdomOf]
  · exact ⟨by rw [e1, Bool.eq_iff_iff]; exact hol, by rw [e1, Bool.eq_iff_iff]; exact hod⟩
  · rw [e2]; simp [useGpsOf]
  · rw [e2, Bool.eq_iff_iff]; exact hgp
  · rw [e3, holdsText_iff]
  · rw [e4, holdsText_iff]
  · rw [e5, holdsText_iff]
  · rw [e6, holdsText_iff]
  · rw [e7]
    unfold dataSource
    by_cases hb : existing w (v .bag) = []
    · rw [if_neg (fun h => h hb)]
      have hb' := (existing_nil w _).1 hb
      by_cases hk : existing w (v .kitti) = []
      · rw [if_neg (fun h => h hk)]
        have hk' := (existing_nil w _).1 hk
        refine ⟨fun f => ⟨fun h => (by cases h), ?_⟩, fun f => ⟨fun h => (by cases h), ?_⟩, fun _ => ⟨hb', hk'⟩, fun _ => rfl⟩
        · rintro ⟨rfl, h⟩; exact absurd h hb'
        · rintro ⟨rfl, h⟩; exact absurd h hk'
      · rw [if_pos hk]
        refine ⟨fun f => ⟨fun h => (by cases h), ?_⟩, fun f => ?_, fun h => (by cases h), ?_⟩
        · rintro ⟨rfl, h⟩; exact absurd h hb'
        · rw [DataSource.kitti.injEq]
          constructor
          · rintro rfl
            have := (existing_iff w _ _ hk).1 rfl
            exact ⟨this.1, hk, this.2⟩
          · rintro ⟨h2, h3, h4⟩
            exact (existing_iff w _ _ h3).2 ⟨h2, h4⟩
        · rintro ⟨-, h⟩; exact absurd ((existing_nil w _).2 h) hk
    · rw [if_pos hb]
      have hk : existing w (v .kitti) = [] := by
        by_contra hk; exact hboth ⟨hk, hb⟩
      have hk' := (existing_nil w _).1 hk
      refine ⟨fun f => ?_, fun f => ⟨fun h => (by cases h), ?_⟩, fun h => (by cases h), ?_⟩
      · rw [DataSource.bag.injEq]
        constructor
        · rintro rfl
          have := (existing_iff w _ _ hb).1 rfl
          exact ⟨this.1, hb, this.2⟩
        · rintro ⟨h2, h3, h4⟩
          exact (existing_iff w _ _ h3).2 ⟨h2, h4⟩
      · rintro ⟨rfl, h⟩; exact absurd h hk'
      · rintro ⟨h, -⟩; exact absurd ((existing_nil w _).2 h) hb

theorem bufferLookup_ok {ts : List (List Char × List Char × G)} {a b : List Char} {g : G} (h : bufferLookup ts a b = .ok g) :
    tfLookup ts a b = .ok g := by
  unfold bufferLookup at h
  split at h
  · cases h
  · exact h

theorem tfLookup_pose {links : List (UrdfLink G (List Char))} {pose : List Char → G}
    (hp : ∀ l ∈ links, ∀ p g, l.parent = some (p, true, g) → pose l.name = pose p * g) {a b : List Char} {g : G}
    (h : tfLookup (urdfTransforms links) a b = .ok g) : g = (pose a)⁻¹ * pose b := by
  have hts : ∀ t ∈ urdfTransforms links, pose t.1 = pose t.2.1 * t.2.2 := by
    rintro ⟨c, p, g⟩ ht
    simp only [urdfTransforms, List.mem_filterMap] at ht
    obtain ⟨l, hl, h⟩ := ht
    cases hpar : l.parent with
    | none => rw [hpar] at h; cases h
    | some x =>
      obtain ⟨q, f, g'⟩ := x
      rw [hpar] at h
      cases f with
      | false => cases h
      | true => cases h; exact hp l hl p g hpar
  unfold tfLookup at h
  split at h
  · split at h
    · rename_i r a' r' b' ha hb
      split at h
      · rename_i hr
        cases h
        subst hr
        rw [tfRoot_pose _ pose hts _ _ _ _ ha, tfRoot_pose _ pose hts _ _ _ _ hb]
        group
      · cases h
    · cases h
  · cases h

/-- With a URDF file, the mountings are those of the file: if `pose` says where every frame of the robot is and agrees
with all fixed joints, the builder is told the pose of every sensor in the tracking frame. -/
theorem C111_mounts (w : NodeWorld G) {pairs : List (NodeFlag × List Char)} {argv : List (List Char)} (hl : LineOf pairs argv)
    {v : NodeFlag → List Char} (hv : ∀ f, Value pairs f (v f)) {r : NodeRun G} (h : startNode w argv = .ok (.run r))
    (hu : v .urdf ≠ []) : ∃ links, w.urdf (v .urdf) = some links ∧
    ∀ pose : List Char → G, (∀ l ∈ links, ∀ p g, l.parent = some (p, true, g) → pose l.name = pose p * g) →
      r.toLidar = (pose (v .track))⁻¹ * pose (v .pcFrame) ∧
      (∀ g, r.toImu = some g → g = (pose (v .track))⁻¹ * pose (v .imuFrame) ∧ w.imuOk g = true) ∧
      (∀ g, r.odomToLidar = some g → g = (pose (v .odomFrame))⁻¹ * pose (v .pcFrame)) ∧
      (∀ g, r.toOdom = some g → g = (pose (v .track))⁻¹ * pose (v .odomFrame)) ∧
      (∀ g, r.toGps = some g → g = (pose (v .track))⁻¹ * pose (v .gpsFrame)) := by
  rw [startNode, arg_eq hl hv] at h
  obtain ⟨-, -, -, -, -, -, -, lookup, hlook, h0, ⟨-, himu⟩, ⟨-, hol⟩, ⟨-, hod⟩, ⟨-, hgp⟩, -⟩ := startWith_run h
  unfold nodeLookup at hlook
  rw [if_neg hu] at hlook
  cases hw : w.urdf (v .urdf) with
  | none => rw [hw] at hlook; cases hlook
  | some links =>
    rw [hw] at hlook
    cases hlook
    refine ⟨links, rfl, fun pose hp => ⟨tfLookup_pose hp (bufferLookup_ok h0), fun g hg => ?_, fun g hg => ?_, fun g hg => ?_, fun g hg => ?_⟩⟩
    · exact ⟨tfLookup_pose hp (bufferLookup_ok (himu g hg).1), (himu g hg).2⟩
    · exact tfLookup_pose hp (bufferLookup_ok (hol g hg))
    · exact tfLookup_pose hp (bufferLookup_ok (hod g hg))
    · exact tfLookup_pose hp (bufferLookup_ok (hgp g hg))

/-- The settings of the run are those of the file, and an IMU that they ask for is there. -/
theorem C111_settings (w : NodeWorld G) {pairs : List (NodeFlag × List Char)} {argv : List (List Char)} (hl : LineOf pairs argv)
    {v : NodeFlag → List Char} (hv : ∀ f, Value pairs f (v f)) {r : NodeRun G} (h : startNode w argv = .ok (.run r)) :
    v .cfg ≠ [] ∧ startBuilder w.mkdir w.fmax w.slope (String.ofList (v .cfg)) (w.content (v .cfg)) = .ok r.cfg ∧
    ((r.cfg.1.settings "front_end_options.imu_options.enabled").toBool = true → v .imu ≠ [] ∧ r.toImu.isSome = true) := by
  rw [startNode, arg_eq hl hv] at h
  obtain ⟨-, -, -, -, -, -, -, lookup, -, -, ⟨himu, -⟩, -, -, -, hc, hw, -⟩ := startWith_run h
  have hne : v .cfg ≠ [] := by
    intro he
    rw [nodeConfig, if_pos he] at hc
    cases hc
  refine ⟨hne, ?_, fun hi => ?_⟩
  · rw [nodeConfig, if_neg hne] at hc
    exact hc
  · have := hw hne hi
    exact ⟨by simpa [useImuOf] using this, himu.2 this⟩


theorem bufferLookup_usable {links : List (UrdfLink G (List Char))} {depth : List Char → Nat} (ht : JointTree links depth)
    {t a b : List Char} (ha : FrameUsable links t a) (hb : FrameUsable links t b) :
    ∃ g, bufferLookup (urdfTransforms links) a b = .ok g := by
  unfold bufferLookup
  have h1 : a.head? ≠ none := fun h => ha.name.1 (List.head?_eq_none_iff.1 h)
  have h2 : b.head? ≠ none := fun h => hb.name.1 (List.head?_eq_none_iff.1 h)
  rw [if_neg (by rintro (h | h | h | h); exacts [h1 h, ha.name.2 h, h2 h, hb.name.2 h])]
  exact (C81_urdf_lookup links a b).2.2.2 depth ht ha.known hb.known
    (.trans _ t _ (.symm _ _ ha.joined) hb.joined)

theorem lookIf_total {use : Bool} {r : Outcome G} (h : use = true → ∃ g, r = .ok g) : ∃ o, lookIf use r = .ok o := by
  cases use with
  | false => exact ⟨none, rfl⟩
  | true =>
    obtain ⟨g, hg⟩ := h rfl
    exact ⟨some g, by rw [lookIf, if_pos rfl, hg]; rfl⟩

/-- Up to the settings, nothing can go wrong for a node that has what it needs. -/
theorem startWith_ready {w : NodeWorld G} {v : NodeFlag → List Char} (h : NodeReady w v) :
    ∃ m : G × Option G × Option G × Option G × Option G,
      startWith w v = nodeConfig w (v .cfg) >>= fun cfg =>
        if v .cfg ≠ [] ∧ imuWanted cfg.1 = true ∧ useImuOf v = false then .ok .noImu
        else .ok (.run (
          { toLidar := m.1, toImu := m.2.1, odomToLidar := m.2.2.1, toOdom := m.2.2.2.1, toGps := m.2.2.2.2,
            cfg := cfg, useOdom := useOdomOf v, useGps := useGpsOf v,
            showMap := holdsText ['[', 'm', 'a', 'p', ']'] (v .pubs),
            showSubmap := holdsText ['[', 's', 'u', 'b', 'm', 'a', 'p', ']'] (v .pubs),
            showPath := holdsText ['[', 'p', 'a', 't', 'h', ']'] (v .pubs),
            showEdge := holdsText ['[', 'e', 'd', 'g', 'e', ']'] (v .pubs),
            source := dataSource (existing w (v .bag)) (existing w (v .kitti)) })) := by
  obtain ⟨links, depth, hw, htree, hf⟩ := h.frames
  have ht := hf .track trivial
  have hc := hf .pcFrame trivial
  obtain ⟨lidar, h0⟩ := bufferLookup_usable htree ht hc
  obtain ⟨imu, h1⟩ := lookIf_total (use := useImuOf v) (r := (do
      let g ← bufferLookup (urdfTransforms links) (v .track) (v .imuFrame)
      Outcome.check (w.imuOk g = true)
      return g)) (fun hu => by
    obtain ⟨g, hg⟩ := bufferLookup_usable htree ht (hf .imuFrame (by simpa [useImuOf, FrameUsed] using hu))
    exact ⟨g, by simp [hg, Outcome.check_pos (h.imu g)]⟩)
  obtain ⟨ol, h2⟩ := lookIf_total (use := useOdomOf v) (r := bufferLookup (urdfTransforms links) (v .odomFrame) (v .pcFrame))
    (fun hu => bufferLookup_usable htree (hf .odomFrame (by simpa [useOdomOf, FrameUsed] using hu)) hc)
  obtain ⟨od, h3⟩ := lookIf_total (use := useOdomOf v) (r := bufferLookup (urdfTransforms links) (v .track) (v .odomFrame))
    (fun hu => bufferLookup_usable htree ht (hf .odomFrame (by simpa [useOdomOf, FrameUsed] using hu)))
  obtain ⟨gp, h4⟩ := lookIf_total (use := useGpsOf v) (r := bufferLookup (urdfTransforms links) (v .track) (v .gpsFrame))
    (fun hu => bufferLookup_usable htree ht (hf .gpsFrame (by simpa [useGpsOf, FrameUsed] using hu)))
  have hlook : nodeLookup w (v .urdf) = .ok (bufferLookup (urdfTransforms links)) := by
    rw [nodeLookup, if_neg h.urdf, hw]; rfl
  have hm : nodeLookups w (bufferLookup (urdfTransforms links)) v (useImuOf v) (useOdomOf v) (useGpsOf v) = .ok (lidar, imu, ol, od, gp) := by
    unfold nodeLookups
    rw [h0, Outcome.bind_ok, h1, Outcome.bind_ok, h2, Outcome.bind_ok, h3, Outcome.bind_ok, h4, Outcome.bind_ok]
    rfl
  refine ⟨(lidar, imu, ol, od, gp), ?_⟩
  have hsingle : ¬ (existing w (v .kitti) ≠ [] ∧ existing w (v .bag) ≠ []) := by
    rintro ⟨hk, hb⟩
    refine h.single ⟨?_, ?_⟩
    · by_contra hx; exact hb ((existing_nil w _).2 hx)
    · by_contra hx; exact hk ((existing_nil w _).2 hx)
  unfold startWith
  rw [if_neg h.cloud]
  simp only [subscribeIf]
  rw [Outcome.check_pos (fun _ => h.names .pc (.inl rfl) h.cloud), Outcome.bind_ok,
    Outcome.check_pos (fun hu => h.names .imu (.inr (.inl rfl)) (by simpa [useImuOf] using hu)), Outcome.bind_ok,
    Outcome.check_pos (fun hu => h.names .odom (.inr (.inr (.inl rfl))) (by
      have : v .odom ≠ [] ∧ v .odomFrame ≠ [] := by simpa [useOdomOf] using hu
      exact this.1)), Outcome.bind_ok,
    Outcome.check_pos (fun hu => h.names .gps (.inr (.inr (.inr rfl))) (by
      have : v .gps ≠ [] ∧ v .gpsFrame ≠ [] := by simpa [useGpsOf] using hu
      exact this.1)), Outcome.bind_ok,
    Outcome.check_pos h.track, Outcome.bind_ok, if_neg hsingle]
  unfold makeBuilder
  rw [hlook, Outcome.bind_ok, hm, Outcome.bind_ok]
  rfl

/-- A node that has what it needs, and settings that can be used, runs unless the settings want an IMU and there is none;
then it ends without having taken any data. -/
theorem C111_starts (w : NodeWorld G) {pairs : List (NodeFlag × List Char)} {argv : List (List Char)} (hl : LineOf pairs argv)
    {v : NodeFlag → List Char} (hv : ∀ f, Value pairs f (v f)) (h : NodeReady w v) (hc : v .cfg ≠ []) {cfg : BuilderCfg × List FilterConfig}
    (hb : startBuilder w.mkdir w.fmax w.slope (String.ofList (v .cfg)) (w.content (v .cfg)) = .ok cfg) :
    ((cfg.1.settings "front_end_options.imu_options.enabled").toBool = true ∧ v .imu = [] → startNode w argv = .ok .noImu) ∧
    (¬ ((cfg.1.settings "front_end_options.imu_options.enabled").toBool = true ∧ v .imu = []) →
      ∃ r, startNode w argv = .ok (.run r) ∧ r.cfg = cfg) := by
  obtain ⟨m, hm⟩ := startWith_ready h
  rw [startNode, arg_eq hl hv, hm, nodeConfig, if_neg hc, hb, Outcome.bind_ok]
  constructor
  · rintro ⟨h1, h2⟩
    rw [if_pos ⟨hc, h1, by simp [useImuOf, h2]⟩]
  · intro hn
    rw [if_neg]
    · exact ⟨_, rfl, rfl⟩
    · rintro ⟨-, h1, h2⟩
      exact hn ⟨h1, by simpa [useImuOf] using h2⟩

/-- Without a topic of clouds, or with two recordings, the node ends with code -1 before it has a builder. -/
theorem C111_refused (w : NodeWorld G) {pairs : List (NodeFlag × List Char)} {argv : List (List Char)} (hl : LineOf pairs argv)
    {v : NodeFlag → List Char} (hv : ∀ f, Value pairs f (v f)) :
    (v .pc = [] → startNode w argv = .ok (.exit (-1))) ∧
    (v .pc ≠ [] → v .track ≠ [] → (∀ f, f = .pc ∨ f = .imu ∨ f = .odom ∨ f = .gps → v f ≠ [] → w.nameOk (v f) = true) →
      v .bag ≠ [] → w.fileExists (v .bag) = true → v .kitti ≠ [] → w.fileExists (v .kitti) = true →
      startNode w argv = .ok (.exit (-1))) := by
  rw [startNode, arg_eq hl hv]
  refine ⟨fun h => by rw [startWith, if_pos h]; rfl, fun h ht hn hb hb' hk hk' => ?_⟩
  unfold startWith
  rw [if_neg h]
  simp only [subscribeIf]
  rw [Outcome.check_pos (fun _ => hn .pc (.inl rfl) h), Outcome.bind_ok,
    Outcome.check_pos (fun hu => hn .imu (.inr (.inl rfl)) (by simpa [useImuOf] using hu)), Outcome.bind_ok,
    Outcome.check_pos (fun hu => hn .odom (.inr (.inr (.inl rfl))) (by
      have : v .odom ≠ [] ∧ v .odomFrame ≠ [] := by simpa [useOdomOf] using hu
      exact this.1)), Outcome.bind_ok,
    Outcome.check_pos (fun hu => hn .gps (.inr (.inr (.inr rfl))) (by
      have : v .gps ≠ [] ∧ v .gpsFrame ≠ [] := by simpa [useGpsOf] using hu
      exact this.1)), Outcome.bind_ok,
    Outcome.check_pos ht, Outcome.bind_ok, if_pos]
  · rfl
  · exact ⟨fun hx => (existing_nil w _).1 hx ⟨hk, hk'⟩, fun hx => (existing_nil w _).1 hx ⟨hb, hb'⟩⟩

/-- Without a settings file the builder is given a null pointer for the name: the behaviour is undefined, although
everything else is in order. -/
theorem C111_no_settings_fails (w : NodeWorld G) {pairs : List (NodeFlag × List Char)} {argv : List (List Char)} (hl : LineOf pairs argv)
    {v : NodeFlag → List Char} (hv : ∀ f, Value pairs f (v f)) (h : NodeReady w v) (hc : v .cfg = []) : startNode w argv = .ub := by
  obtain ⟨m, hm⟩ := startWith_ready h
  rw [startNode, arg_eq hl hv, hm, nodeConfig, if_pos hc]
  rfl

/-- With a URDF file and an IMU whose frame is not named the node never runs: the documented frame begins with a slash,
and no frame of a URDF file may. -/
theorem C111_imu_frame_fails (w : NodeWorld G) {pairs : List (NodeFlag × List Char)} {argv : List (List Char)} (hl : LineOf pairs argv)
    {v : NodeFlag → List Char} (hv : ∀ f, Value pairs f (v f)) (hu : v .urdf ≠ []) (hi : v .imu ≠ [])
    (hd : ∀ u, (NodeFlag.imuFrame, u) ∉ pairs) (r : NodeRun G) : startNode w argv ≠ .ok (.run r) := by
  intro h
  rw [startNode, arg_eq hl hv] at h
  obtain ⟨-, -, -, -, -, -, -, lookup, hlook, -, ⟨hs, himu⟩, -⟩ := startWith_run h
  unfold nodeLookup at hlook
  rw [if_neg hu] at hlook
  cases hw : w.urdf (v .urdf) with
  | none => rw [hw] at hlook; cases hlook
  | some links =>
    rw [hw] at hlook
    cases hlook
    obtain ⟨g, hg⟩ := Option.isSome_iff_exists.1 (hs.2 (by simpa [useImuOf] using hi))
    have h1 := (himu g hg).1
    have hfr : v .imuFrame = "/novatel_imu".toList := by
      rcases hv .imuFrame with hx | ⟨-, hx⟩
      · exact absurd hx (hd _)
      · exact hx
    rw [hfr, bufferLookup, if_pos (.inr (.inr (.inr rfl)))] at h1
    cases h1

/-- An option that is given twice has its first value, whatever comes behind. -/
theorem C111_first {argv a b : List (List Char)} {prog u : List Char} {f : NodeFlag}
    (h : Cleaned argv (prog :: (a ++ f.word :: u :: b))) (hf : f.word ∉ a) : nodeArg argv f = u := by
  simp only [nodeArg, rosInit_cleaned h, List.drop_succ_cons, List.drop_zero]
  have : argAfter f.word (a ++ f.word :: u :: b) = some u := by
    clear h
    induction a with
    | nil => simp [argAfter]
    | cons x a ih =>
      simp only [List.mem_cons, not_or] at hf
      rw [List.cons_append, argAfter, if_neg (fun h => hf.1 h.symm)]
      exact ih hf.2
  rw [this]
  rfl

/-- A topic whose name was forgotten, so that another option follows at once, stops the node (ROS takes no names that
begin with a minus sign). -/
theorem C111_topic_forgotten (w : NodeWorld G) (hm : ∀ t, w.nameOk ('-' :: t) = false) {argv a b : List (List Char)} {prog : List Char}
    {f g : NodeFlag} (hf : f = .pc ∨ f = .imu) (h : Cleaned argv (prog :: (a ++ f.word :: g.word :: b))) (hfa : f.word ∉ a) (r : NodeRun G) :
    startNode w argv ≠ .ok (.run r) := by
  intro hr
  have hv := C111_first h hfa
  obtain ⟨t, ht⟩ : ∃ t, g.word = '-' :: t := by cases g <;> exact ⟨_, rfl⟩
  have h2 := startWith_run hr
  rcases hf with rfl | rfl
  · have := h2.2.1
    rw [hv, ht, hm] at this
    cases this
  · have := h2.2.2.1 (by simp [useImuOf, hv, ht])
    rw [hv, ht, hm] at this
    cases this

end

theorem cleaned_rosInit : ∀ argv, Cleaned argv (rosInit argv)
  | [] => .nil
  | w :: argv => by
    cases h : holdsText [':', '='] w with
    | true =>
      have : rosInit (w :: argv) = rosInit argv := by simp [rosInit, h]
      rw [this]
      exact .drop ((holdsText_iff _ _).1 h) (cleaned_rosInit argv)
    | false =>
      have : rosInit (w :: argv) = w :: rosInit argv := by simp [rosInit, h]
      rw [this]
      exact .keep (fun hc => by rw [(holdsText_iff _ _).2 hc] at h; cases h) (cleaned_rosInit argv)

theorem value_lookup {pairs : List (NodeFlag × List Char)} (hn : (pairs.map Prod.fst).Nodup) (f : NodeFlag) :
    Value pairs f ((pairs.lookup f).getD f.default) := by
  cases h : pairs.lookup f with
  | none => exact .inr ⟨lookup_none f h, by rw [Option.getD_none, default_eq]⟩
  | some u => exact .inl ((lookup_mem_iff hn f u).1 h)

section
variable {G : Type} [Group G] (imu lidar l2 gps : G)

theorem test2_joint (c p : List Char) : FixedJoint (test2Urdf imu lidar l2 gps) c p ↔
    (c = "frame_l2".toList ∧ p = "frame_velodyne_points".toList) ∨
    (p = "base_link".toList ∧ (c = "frame_velodyne_points".toList ∨ c = "gps".toList ∨ c = "imu_link".toList)) := by
  constructor
  · rintro ⟨l, hl, g, rfl, h⟩
    simp only [test2Urdf, List.mem_cons, List.not_mem_nil, or_false] at hl
    rcases hl with rfl | rfl | rfl | rfl | rfl
    · cases h
    · cases h; exact .inl ⟨rfl, rfl⟩
    · cases h; exact .inr ⟨rfl, .inl rfl⟩
    · cases h; exact .inr ⟨rfl, .inr (.inl rfl)⟩
    · cases h; exact .inr ⟨rfl, .inr (.inr rfl)⟩
  · rintro (⟨rfl, rfl⟩ | ⟨rfl, rfl | rfl | rfl⟩)
    · exact ⟨_, List.mem_cons_of_mem _ (List.mem_cons_self ..), l2, rfl, rfl⟩
    · exact ⟨_, List.mem_cons_of_mem _ (List.mem_cons_of_mem _ (List.mem_cons_self ..)), lidar, rfl, rfl⟩
    · exact ⟨_, List.mem_cons_of_mem _ (List.mem_cons_of_mem _ (List.mem_cons_of_mem _ (List.mem_cons_self ..))), gps, rfl, rfl⟩
    · exact ⟨_, List.mem_cons_of_mem _ (List.mem_cons_of_mem _ (List.mem_cons_of_mem _ (List.mem_cons_of_mem _ (List.mem_cons_self ..)))),
        imu, rfl, rfl⟩

/-- How many joints a frame of the file is away from the root. -/
def test2Depth (n : List Char) : Nat :=
  if n = "frame_l2".toList then 2
  else if n = "frame_velodyne_points".toList ∨ n = "gps".toList ∨ n = "imu_link".toList then 1 else 0

theorem test2_tree : JointTree (test2Urdf imu lidar l2 gps) test2Depth where
  oneParent c p q h1 h2 := by
    rw [test2_joint] at h1 h2
    rcases h1 with ⟨rfl, rfl⟩ | ⟨rfl, h1⟩
    · rcases h2 with ⟨-, rfl⟩ | ⟨-, h | h | h⟩
      · rfl
      all_goals exact absurd h (by decide)
    · rcases h2 with ⟨rfl, -⟩ | ⟨rfl, -⟩
      · rcases h1 with h | h | h <;> exact absurd h (by decide)
      · rfl
  down c p h := by
    rw [test2_joint] at h
    rcases h with ⟨rfl, rfl⟩ | ⟨rfl, rfl | rfl | rfl⟩ <;> decide
  bound n := by
    have : ((test2Urdf imu lidar l2 gps).filter fun l => l.parent.any fun x => x.2.1).length = 4 := rfl
    rw [this]
    unfold test2Depth
    split
    · omega
    · split <;> omega

theorem test2_usable {n : List Char} (h : n = "base_link".toList ∨ n = "frame_velodyne_points".toList ∨ n = "gps".toList ∨ n = "imu_link".toList) :
    FrameUsable (test2Urdf imu lidar l2 gps) "base_link".toList n := by
  have hj : ∀ c, c = "frame_velodyne_points".toList ∨ c = "gps".toList ∨ c = "imu_link".toList →
      FixedJoint (test2Urdf imu lidar l2 gps) c "base_link".toList := fun c hc => (test2_joint ..).2 (.inr ⟨rfl, hc⟩)
  rcases h with rfl | h
  · exact ⟨by decide, ⟨_, .inr (hj _ (.inl rfl))⟩, .refl _⟩
  · refine ⟨?_, ⟨_, .inl (hj n h)⟩, .symm _ _ (.rel _ _ (hj n h))⟩
    rcases h with rfl | rfl | rfl <;> decide

/-- Where the frames of the file are. -/
def test2Pose (n : List Char) : G :=
  if n = "frame_l2".toList then lidar * l2 else if n = "frame_velodyne_points".toList then lidar
  else if n = "gps".toList then gps else if n = "imu_link".toList then imu else 1

theorem test2_pose : ∀ l ∈ test2Urdf imu lidar l2 gps, ∀ p g, l.parent = some (p, true, g) →
    test2Pose imu lidar l2 gps l.name = test2Pose imu lidar l2 gps p * g := by
  intro l hl p g h
  simp only [test2Urdf, List.mem_cons, List.not_mem_nil, or_false] at hl
  rcases hl with rfl | rfl | rfl | rfl | rfl
  · cases h
  · cases h; rfl
  · cases h; exact (one_mul _).symm
  · cases h; exact (one_mul _).symm
  · cases h; exact (one_mul _).symm

end

theorem shellWords_none {files : List (List Char)} {ps : List GlobPiece} (h : ∀ f ∈ files, globFits ps f = false) :
    shellWords files ps = [globText ps] := by
  unfold shellWords
  have : (files.filter fun f => globFits ps f) = [] := by
    rw [List.filter_eq_nil_iff]
    intro f hf
    simp [h f hf]
  simp only [this, if_true]


/-- The common part of the four scripts: the options `ps` are written one behind the other, the files of the project are
in their places. -/
theorem script_run {G : Type} [Group G] (w : NodeWorld G) {imu lidar l2 gps : G} (h : Installed w imu lidar l2 gps)
    {argv : List (List Char)} {ps : List (NodeFlag × List Char)} (hl : LineOf ps argv)
    {v : NodeFlag → List Char} (hv : v = fun f => (ps.lookup f).getD f.default) {name : String} {text : List Char}
    (h1 : v .pc ≠ []) (h2 : v .track = "base_link".toList)
    (h3 : ∀ f, f = .pc ∨ f = .imu ∨ f = .odom ∨ f = .gps → v f ≠ [] → ∃ t : String, v f = t.toList ∧
      (t = "velodyne_points" ∨ t = "/points_raw" ∨ t = "/imu_raw" ∨ t = "imu/raw_data" ∨ t = "navsatfix"))
    (h4 : v .bag = [] ∨ v .kitti = []) (h5 : v .urdf = "./urdf/test2.urdf".toList)
    (h6 : v .pcFrame = "frame_velodyne_points".toList) (h7 : v .imu ≠ [] → v .imuFrame = "imu_link".toList)
    (h8 : v .odom = []) (h9 : v .gps ≠ [] → v .gpsFrame = "gps".toList)
    (h10 : v .cfg = name.toList) (h11 : name.toList ≠ []) (h12 : w.content name.toList = some text)
    (h13 : fileStarts name text (decide (v .imu ≠ [])) = true) :
    ∃ r, startNode w argv = .ok (.run r) ∧ r.toLidar = lidar ∧ (r.toImu = if v .imu ≠ [] then some imu else none) ∧
      r.useOdom = false ∧ (r.toGps = if v .gps ≠ [] then some gps else none) ∧
      (r.source = if v .bag ≠ [] ∧ w.fileExists (v .bag) = true then .bag (v .bag)
        else if v .kitti ≠ [] ∧ w.fileExists (v .kitti) = true then .kitti (v .kitti) else .live) ∧
      (r.showMap = true ↔ Contains (v .pubs) "[map]".toList) ∧ (r.showSubmap = true ↔ Contains (v .pubs) "[submap]".toList) ∧
      (r.showPath = true ↔ Contains (v .pubs) "[path]".toList) ∧ (r.showEdge = true ↔ Contains (v .pubs) "[edge]".toList) := by
  have hval : ∀ f, Value ps f (v f) := by rw [hv]; exact value_lookup hl.once
  have hready : NodeReady w v := by
    refine ⟨h1, by rw [h2]; decide, ?_, ?_, by rw [h5]; decide, ⟨_, test2Depth, by rw [h5]; exact h.urdf, test2_tree .., ?_⟩, h.imuOk⟩
    · intro f hf hne
      obtain ⟨t, ht, htt⟩ := h3 f hf hne
      rw [ht]
      exact h.names t htt
    · rintro ⟨⟨hb, -⟩, hk, -⟩
      rcases h4 with h | h
      · exact hb h
      · exact hk h
    · intro f hf
      rw [h2]
      apply test2_usable
      cases f with
      | track => exact .inl h2
      | pcFrame => exact .inr (.inl h6)
      | imuFrame => exact .inr (.inr (.inr (h7 hf)))
      | odomFrame => exact absurd h8 hf.1
      | gpsFrame => exact .inr (.inr (.inl (h9 hf.1)))
      | _ => exact hf.elim
  obtain ⟨c, hc, hi⟩ := fileStarts_ok h13
  obtain ⟨r, hr, hrc⟩ := (C111_starts w hl hval hready (by rw [h10]; exact h11) (cfg := c) (by
    rw [h10, h12, h.dirs, h.numbers.1, h.numbers.2, String.ofList_toList]
    exact hc)).2 (by rw [hi]; simp)
  refine ⟨r, hr, ?_⟩
  obtain ⟨-, -, k1, k2, -, k3, k4, d1, d2, d3, d4, s1, s2, s3⟩ := C111_runs w hl hval hr
  obtain ⟨links, hlinks, hm⟩ := C111_mounts w hl hval hr (by rw [h5]; decide)
  rw [h5, h.urdf] at hlinks
  cases hlinks
  obtain ⟨m1, m2, -, -, m5⟩ := hm (test2Pose imu lidar l2 gps) (test2_pose imu lidar l2 gps)
  refine ⟨?_, ?_, ?_, ?_, ?_, d1, d2, d3, d4⟩
  · rw [m1, h2, h6]
    exact (by group : (1 : G)⁻¹ * lidar = lidar)
  · cases ho : r.toImu with
    | none =>
      rw [ho] at k1
      rw [if_neg]
      intro hc
      exact absurd (k1.2 hc) (by simp)
    | some g =>
      rw [ho] at k1
      have hne := k1.1 rfl
      rw [if_pos hne, (m2 g ho).1, h2, h7 hne]
      exact congrArg some (by exact (by group : (1 : G)⁻¹ * imu = imu))
  · cases hu : r.useOdom with
    | false => rfl
    | true => exact absurd h8 (k2.1 hu).1
  · cases ho : r.toGps with
    | none =>
      rw [if_neg]
      intro hc
      rw [ho] at k4
      have : r.useGps = true := k3.2 ⟨hc, by rw [h9 hc]; decide⟩
      rw [this] at k4
      cases k4
    | some g =>
      rw [ho] at k4
      have hne := (k3.1 k4.symm).1
      rw [if_pos hne, m5 g ho, h2, h9 hne]
      exact congrArg some (by exact (by group : (1 : G)⁻¹ * gps = gps))
  · by_cases hb : v .bag ≠ [] ∧ w.fileExists (v .bag) = true
    · rw [if_pos hb]
      exact (s1 _).2 ⟨rfl, hb.1, hb.2⟩
    · rw [if_neg hb]
      by_cases hk : v .kitti ≠ [] ∧ w.fileExists (v .kitti) = true
      · rw [if_pos hk]
        exact (s2 _).2 ⟨rfl, hk.1, hk.2⟩
      · rw [if_neg hk]
        exact s3.2 ⟨hb, hk⟩

theorem script_line {argv : List (List Char)} {ps : List (NodeFlag × List Char)} {prog : List Char}
    (h : rosInit argv = prog :: optionWords ps) (hn : (ps.map Prod.fst).Nodup) (hp : ∀ p ∈ ps, ∀ f : NodeFlag, p.2 ≠ f.word) :
    LineOf ps argv := ⟨⟨prog, h ▸ cleaned_rosInit argv⟩, hn, hp⟩

theorem plain_words {ps : List (NodeFlag × List Char)} (h : ∀ p ∈ ps, p.2.head? ≠ some '-') : ∀ p ∈ ps, ∀ f : NodeFlag, p.2 ≠ f.word := by
  intro p hp f he
  have := h p hp
  rw [he] at this
  cases f <;> exact this rfl

/-- The script for lidar, IMU and GPS starts the node: all three sensors are used with the mountings of the URDF file, the
recording is read if it is there, and all four displays are on, if no file of the directory fits the last word. -/
theorem C111_script_gps {G : Type} [Group G] (w : NodeWorld G) {imu lidar l2 gps : G} (h : Installed w imu lidar l2 gps)
    (files : List (List Char)) (hf : ∀ f ∈ files, globFits longPubs f = false) :
    ∃ r, startNode w (lidarImuGpsScript (shellWords files longPubs)) = .ok (.run r) ∧ r.toLidar = lidar ∧ r.toImu = some imu ∧
      r.useOdom = false ∧ r.toGps = some gps ∧
      (r.source = if w.fileExists "/mnt/Data/juxin_fisheye_0228/proj-29.bag".toList = true then
        .bag "/mnt/Data/juxin_fisheye_0228/proj-29.bag".toList else .live) ∧
      r.showMap = true ∧ r.showSubmap = true ∧ r.showPath = true ∧ r.showEdge = true := by
  rw [shellWords_none hf]
  have hl : LineOf [(.cfg, "./config/lidar_imu_gps_default.xml".toList), (.pc, "velodyne_points".toList),
      (.pcFrame, "frame_velodyne_points".toList), (.imu, "imu/raw_data".toList), (.imuFrame, "imu_link".toList),
      (.urdf, "./urdf/test2.urdf".toList), (.gps, "navsatfix".toList), (.gpsFrame, "gps".toList),
      (.bag, "/mnt/Data/juxin_fisheye_0228/proj-29.bag".toList), (.pubs, globText longPubs)] (lidarImuGpsScript [globText longPubs]) :=
    script_line (prog := "./build/ros_node/static_mapping_node".toList) (by decide +kernel) (by decide) (plain_words (by decide +kernel))
  obtain ⟨r, hr, r1, r2, r3, r4, r5, r6, r7, r8, r9⟩ := script_run w h hl rfl (name := "./config/lidar_imu_gps_default.xml") (by decide +kernel) rfl
    (by rintro f (rfl | rfl | rfl | rfl) hne
        · exact ⟨"velodyne_points", rfl, .inl rfl⟩
        · exact ⟨"imu/raw_data", rfl, .inr (.inr (.inr (.inl rfl)))⟩
        · exact absurd rfl hne
        · exact ⟨"navsatfix", rfl, .inr (.inr (.inr (.inr rfl)))⟩)
    (.inr rfl) rfl rfl (fun _ => rfl) rfl (fun _ => rfl) rfl (by decide +kernel) h.lidarImuGps lidarImuGps_starts
  refine ⟨r, hr, r1, r2, r3, r4, ?_, r6.2 ?_, r7.2 ?_, r8.2 ?_, r9.2 ?_⟩
  · rw [r5]
    by_cases he : w.fileExists "/mnt/Data/juxin_fisheye_0228/proj-29.bag".toList = true
    · rw [if_pos he]; exact if_pos ⟨by decide +kernel, he⟩
    · rw [if_neg he, if_neg (fun h => he h.2)]; exact if_neg (fun h => h.1 rfl)
  all_goals exact (holdsText_iff _ _).1 (by decide +kernel)

/-- The script for a lidar alone. -/
theorem C111_script_only {G : Type} [Group G] (w : NodeWorld G) {imu lidar l2 gps : G} (h : Installed w imu lidar l2 gps)
    (pubs : List Char) (hp1 : pubs.head? ≠ some '-') (hp2 : ¬ Contains pubs [':', '=']) :
    ∃ r, startNode w (lidarOnlyScript [pubs]) = .ok (.run r) ∧ r.toLidar = lidar ∧ r.toImu = none ∧
      r.useOdom = false ∧ r.toGps = none ∧
      (r.source = if w.fileExists "/mnt/Data/visual/map_test/20200507124024_1_NoPlace.bag".toList = true then
        .bag "/mnt/Data/visual/map_test/20200507124024_1_NoPlace.bag".toList else .live) ∧
      (r.showMap = true ↔ Contains pubs "[map]".toList) ∧ (r.showSubmap = true ↔ Contains pubs "[submap]".toList) ∧
      (r.showPath = true ↔ Contains pubs "[path]".toList) ∧ (r.showEdge = true ↔ Contains pubs "[edge]".toList) := by
  have hl : LineOf [(.cfg, "./config/lidar_only.xml".toList), (.pc, "velodyne_points".toList),
      (.pcFrame, "frame_velodyne_points".toList), (.urdf, "./urdf/test2.urdf".toList),
      (.bag, "/mnt/Data/visual/map_test/20200507124024_1_NoPlace.bag".toList), (.pubs, pubs)] (lidarOnlyScript [pubs]) := by
    refine script_line (prog := "./build/ros_node/static_mapping_node".toList) ?_ (by simp) (plain_words ?_)
    · have h1 : holdsText [':', '='] pubs = false := by
        cases hh : holdsText [':', '='] pubs with
        | false => rfl
        | true => exact absurd ((holdsText_iff _ _).1 hh) hp2
      have h2 : rosInit (lidarOnlyScript [pubs]) = rosInit (lidarOnlyScript []) ++ rosInit [pubs] := by
        simp only [lidarOnlyScript, List.append_nil, rosInit, List.filter_append]
      have h3 : rosInit (lidarOnlyScript []) = lidarOnlyScript [] := by decide +kernel
      rw [h2, h3]
      simp only [rosInit, List.filter_cons, h1, Bool.not_false, if_true, List.filter_nil]
      rfl
    · intro p hp
      simp only [List.mem_cons, List.not_mem_nil, or_false] at hp
      rcases hp with rfl | rfl | rfl | rfl | rfl | rfl
      iterate 5 decide +kernel
      exact hp1
  obtain ⟨r, hr, r1, r2, r3, r4, r5, r6, r7, r8, r9⟩ := script_run w h hl rfl (name := "./config/lidar_only.xml") (show "velodyne_points".toList ≠ [] by decide +kernel) rfl
    (by rintro f (rfl | rfl | rfl | rfl) hne
        · exact ⟨"velodyne_points", rfl, .inl rfl⟩
        · exact absurd rfl hne
        · exact absurd rfl hne
        · exact absurd rfl hne)
    (.inr rfl) rfl rfl (fun h => absurd rfl h) rfl (fun h => absurd rfl h) rfl (by decide +kernel) h.only lidarOnly_starts
  refine ⟨r, hr, r1, r2, r3, r4, ?_, r6, r7, r8, r9⟩
  rw [r5]
  by_cases he : w.fileExists "/mnt/Data/visual/map_test/20200507124024_1_NoPlace.bag".toList = true
  · rw [if_pos he]; exact if_pos ⟨(show "/mnt/Data/visual/map_test/20200507124024_1_NoPlace.bag".toList ≠ [] by decide +kernel), he⟩
  · rw [if_neg he, if_neg (fun h => he h.2)]; exact if_neg (fun h => h.1 rfl)

/-- The script for lidar and IMU. -/
theorem C111_script_imu {G : Type} [Group G] (w : NodeWorld G) {imu lidar l2 gps : G} (h : Installed w imu lidar l2 gps)
    (files : List (List Char)) (hf : ∀ f ∈ files, globFits shortPubs f = false) :
    ∃ r, startNode w (lidarImuScript (shellWords files shortPubs)) = .ok (.run r) ∧ r.toLidar = lidar ∧ r.toImu = some imu ∧
      r.useOdom = false ∧ r.toGps = none ∧
      (r.source = if w.fileExists "/mnt/park.bag".toList = true then .bag "/mnt/park.bag".toList else .live) ∧
      r.showMap = true ∧ r.showSubmap = false ∧ r.showPath = true ∧ r.showEdge = true := by
  rw [shellWords_none hf]
  have hl : LineOf [(.cfg, "./config/lidar_imu_default.xml".toList), (.urdf, "./urdf/test2.urdf".toList), (.pc, "/points_raw".toList),
      (.pcFrame, "frame_velodyne_points".toList), (.imu, "/imu_raw".toList), (.imuFrame, "imu_link".toList),
      (.bag, "/mnt/park.bag".toList), (.pubs, globText shortPubs)] (lidarImuScript [globText shortPubs]) :=
    script_line (prog := "./build/ros_node/static_mapping_node".toList) (by decide +kernel) (by decide) (plain_words (by decide +kernel))
  obtain ⟨r, hr, r1, r2, r3, r4, r5, r6, r7, r8, r9⟩ := script_run w h hl rfl (name := "./config/lidar_imu_default.xml") (by decide +kernel) rfl
    (by rintro f (rfl | rfl | rfl | rfl) hne
        · exact ⟨"/points_raw", rfl, .inr (.inl rfl)⟩
        · exact ⟨"/imu_raw", rfl, .inr (.inr (.inl rfl))⟩
        · exact absurd rfl hne
        · exact absurd rfl hne)
    (.inr rfl) rfl rfl (fun _ => rfl) rfl (fun h => absurd rfl h) rfl (by decide +kernel) h.lidarImu lidarImu_starts
  refine ⟨r, hr, r1, r2, r3, r4, ?_, r6.2 ?_, ?_, r8.2 ?_, r9.2 ?_⟩
  · rw [r5]
    by_cases he : w.fileExists "/mnt/park.bag".toList = true
    · rw [if_pos he]; exact if_pos ⟨by decide +kernel, he⟩
    · rw [if_neg he, if_neg (fun h => he h.2)]; exact if_neg (fun h => h.1 rfl)
  · exact (holdsText_iff _ _).1 (by decide +kernel)
  · cases hx : r.showSubmap with
    | false => rfl
    | true =>
      have := (holdsText_iff _ _).2 (r7.1 hx)
      exact absurd this (by decide +kernel)
  all_goals exact (holdsText_iff _ _).1 (by decide +kernel)

/-- The script for the KITTI data. -/
theorem C111_script_kitti {G : Type} [Group G] (w : NodeWorld G) {imu lidar l2 gps : G} (h : Installed w imu lidar l2 gps)
    (files : List (List Char)) (hf : ∀ f ∈ files, globFits longPubs f = false) :
    ∃ r, startNode w (kittiScript (shellWords files longPubs)) = .ok (.run r) ∧ r.toLidar = lidar ∧ r.toImu = none ∧
      r.useOdom = false ∧ r.toGps = none ∧
      (r.source = if w.fileExists "/home/edward/data/kitti/00/velodyne".toList = true then
        .kitti "/home/edward/data/kitti/00/velodyne".toList else .live) ∧
      r.showMap = true ∧ r.showSubmap = true ∧ r.showPath = true ∧ r.showEdge = true := by
  rw [shellWords_none hf]
  have hl : LineOf [(.cfg, "./config/lidar_only_kitti.xml".toList), (.pc, "velodyne_points".toList),
      (.pcFrame, "frame_velodyne_points".toList), (.urdf, "./urdf/test2.urdf".toList),
      (.kitti, "/home/edward/data/kitti/00/velodyne".toList), (.pubs, globText longPubs)] (kittiScript [globText longPubs]) :=
    script_line (prog := "./build/ros_node/static_mapping_node".toList) (by decide +kernel) (by decide) (plain_words (by decide +kernel))
  obtain ⟨r, hr, r1, r2, r3, r4, r5, r6, r7, r8, r9⟩ := script_run w h hl rfl (name := "./config/lidar_only_kitti.xml") (by decide +kernel) rfl
    (by rintro f (rfl | rfl | rfl | rfl) hne
        · exact ⟨"velodyne_points", rfl, .inl rfl⟩
        · exact absurd rfl hne
        · exact absurd rfl hne
        · exact absurd rfl hne)
    (.inl rfl) rfl rfl (fun h => absurd rfl h) rfl (fun h => absurd rfl h) rfl (by decide +kernel) h.kitti lidarKitti_starts
  refine ⟨r, hr, r1, r2, r3, r4, ?_, r6.2 ?_, r7.2 ?_, r8.2 ?_, r9.2 ?_⟩
  · rw [r5, if_neg (fun h => h.1 rfl)]
    by_cases he : w.fileExists "/home/edward/data/kitti/00/velodyne".toList = true
    · rw [if_pos he]; exact if_pos ⟨by decide +kernel, he⟩
    · rw [if_neg he]; exact if_neg (fun h => he h.2)
  all_goals exact (holdsText_iff _ _).1 (by decide +kernel)

/-- A world as the scripts expect it. -/
def homeWorld : NodeWorld (Multiplicative ℤ) where
  nameOk t := t.head? != some '-'
  fileExists _ := true
  content n :=
    if n = "./config/lidar_only.xml".toList then some lidarOnlyText
    else if n = "./config/lidar_only_kitti.xml".toList then some lidarKittiText
    else if n = "./config/lidar_imu_default.xml".toList then some lidarImuText
    else if n = "./config/lidar_imu_gps_default.xml".toList then some lidarImuGpsText else none
  urdf n := if n = "./urdf/test2.urdf".toList then some (test2Urdf 1 (.ofAdd 2) (.ofAdd 3) (.ofAdd 5)) else none
  live _ _ := .abort
  imuOk _ := true
  mkdir _ := true
  fmax := 2 ^ 128 - 2 ^ 104
  slope := 1 / 4

theorem homeWorld_installed : Installed homeWorld 1 (.ofAdd 2) (.ofAdd 3) (.ofAdd 5) where
  names := by rintro t (rfl | rfl | rfl | rfl | rfl) <;> decide
  urdf := rfl
  imuOk _ := rfl
  only := rfl
  kitti := rfl
  lidarImu := rfl
  lidarImuGps := rfl
  dirs := rfl
  numbers := ⟨rfl, rfl⟩

example : ∃ r, startNode homeWorld (lidarImuGpsScript (shellWords ["build".toList, "config".toList] longPubs)) = .ok (.run r) ∧
    r.toLidar = .ofAdd 2 ∧ r.source = .bag "/mnt/Data/juxin_fisheye_0228/proj-29.bag".toList := by
  obtain ⟨r, h1, h2, -, -, -, h6, -⟩ := C111_script_gps homeWorld homeWorld_installed ["build".toList, "config".toList] (by decide)
  exact ⟨r, h1, h2, h6⟩

/-- The last word of the scripts is not quoted: in a directory with a file called `ape` the shell puts that name in its
place, and nothing is displayed. -/
theorem C111_shell_fails {G : Type} [Group G] (w : NodeWorld G) {imu lidar l2 gps : G} (h : Installed w imu lidar l2 gps) :
    ∃ r, startNode w (lidarOnlyScript (shellWords ["ape".toList] shortPubs)) = .ok (.run r) ∧
      r.showMap = false ∧ r.showSubmap = false ∧ r.showPath = false ∧ r.showEdge = false := by
  have hs : shellWords ["ape".toList] shortPubs = ["ape".toList] := by decide
  rw [hs]
  obtain ⟨r, hr, -, -, -, -, -, h1, h2, h3, h4⟩ := C111_script_only w h "ape".toList (by decide) (by
    rw [← holdsText_iff]; decide)
  refine ⟨r, hr, ?_, ?_, ?_, ?_⟩
  · cases hx : r.showMap with
    | false => rfl
    | true => exact absurd ((holdsText_iff _ _).2 (h1.1 hx)) (by decide)
  · cases hx : r.showSubmap with
    | false => rfl
    | true => exact absurd ((holdsText_iff _ _).2 (h2.1 hx)) (by decide)
  · cases hx : r.showPath with
    | false => rfl
    | true => exact absurd ((holdsText_iff _ _).2 (h3.1 hx)) (by decide)
  · cases hx : r.showEdge with
    | false => rfl
    | true => exact absurd ((holdsText_iff _ _).2 (h4.1 hx)) (by decide)

/-- A recording that is not there is no reason to stop: the node runs and waits for live data. -/
theorem C111_recording_fails {G : Type} [Group G] (w : NodeWorld G) {imu lidar l2 gps : G} (h : Installed w imu lidar l2 gps)
    (hb : w.fileExists "/mnt/park.bag".toList = false) :
    ∃ r, startNode w (lidarImuScript (shellWords [] shortPubs)) = .ok (.run r) ∧ r.source = .live := by
  obtain ⟨r, hr, -, -, -, -, hs, -⟩ := C111_script_imu w h [] (by simp)
  rw [hb] at hs
  exact ⟨r, hr, hs⟩

/-- A forgotten value: the next option is taken for it, and counts as an option too. -/
theorem C111_forgotten_fails {argv a b : List (List Char)} {prog u : List Char} {f g : NodeFlag} (hfg : f ≠ g)
    (h : Cleaned argv (prog :: (a ++ f.word :: g.word :: u :: b))) (hf : f.word ∉ a) (hg : g.word ∉ a) :
    nodeArg argv f = g.word ∧ nodeArg argv g = u := by
  refine ⟨C111_first h hf, C111_first (a := a ++ [f.word]) (by simpa using h) ?_⟩
  simp only [List.mem_append, List.mem_singleton, not_or]
  exact ⟨hg, fun h => hfg (word_inj h).symm⟩

example : nodeArg ["n".toList, "-bag".toList, "-pubs".toList, "[map]".toList] .bag = "-pubs".toList ∧
    nodeArg ["n".toList, "-bag".toList, "-pubs".toList, "[map]".toList] .pubs = "[map]".toList := by decide

/-- A remapping between two options. -/
example : LineOf [(.pc, "points".toList), (.bag, "a.bag".toList)]
    ["n".toList, "-pc".toList, "points".toList, "__name:=x".toList, "-bag".toList, "a.bag".toList] :=
  script_line (prog := "n".toList) (by decide) (by decide) (plain_words (by decide))

/-- C111, which files take the place of a word with brackets: exactly those whose name has one letter of each pair of brackets, in order. So in
a directory without such short names the word stays as it is. -/
theorem C111_brackets : ∀ (ps : List GlobPiece) (f : List Char), globFits ps f = true ↔ List.Forall₂ (fun p c => c ∈ p) ps f
  | [], [] => by simp [globFits]
  | [], c :: f => by simp [globFits]
  | p :: ps, [] => by simp [globFits]
  | p :: ps, c :: f => by
    rw [globFits, Bool.and_eq_true, C111_brackets ps f, List.forall₂_cons]
    simp

theorem C111_brackets_length (ps : List GlobPiece) (files : List (List Char)) (h : ∀ f ∈ files, f.length ≠ ps.length) :
    shellWords files ps = [globText ps] := by
  refine shellWords_none fun f hf => ?_
  cases hb : globFits ps f with
  | false => rfl
  | true => exact absurd ((C111_brackets ps f).1 hb).length_eq.symm (h f hf)

example : globFits [['a', 'b'], ['c']] ['b', 'c'] = true := by decide

end Verif
