import Verif.Spec.MapFiles
import Verif.Props.Xml
import Verif.Props.XmlNum
import Verif.Props.MultiTraj
import Verif.Props.PackageF
/-! The description files of maps, end to end. -/
namespace Verif
open Spec

/-! ### texts of numbers are attribute values -/

theorem partsP_chars (d m : Nat) (e : ℤ) : ∀ c ∈ partsTextP d m e,
    c = '.' ∨ c = 'e' ∨ c = '-' ∨ c = '+' ∨ ∃ d, d < 10 ∧ c = digitChar d := by
  intro c hc
  unfold partsTextP at hc
  split at hc
  · rcases List.mem_append.mp hc with h | h
    · exact .inr (.inr (.inr (.inr (decNat_chars _ _ h))))
    · rcases frac_chars _ _ _ h with h | h
      · exact .inl h
      · exact .inr (.inr (.inr (.inr h)))
  · rcases List.mem_append.mp hc with h | h
    · rcases List.mem_append.mp h with h | h
      · exact .inr (.inr (.inr (.inr (decNat_chars _ _ h))))
      · rcases frac_chars _ _ _ h with h | h
        · exact .inl h
        · exact .inr (.inr (.inr (.inr h)))
    · rcases List.mem_cons.mp h with h | h
      · exact .inr (.inl h)
      · rcases exp_chars _ _ h with h | h | h
        · exact .inr (.inr (.inl h))
        · exact .inr (.inr (.inr (.inl h)))
        · exact .inr (.inr (.inr (.inr h)))

theorem plain_of {v : List Char} (h : ∀ c ∈ v, 32 < c.toNat) : PlainValue v := by
  constructor
  · intro h0
    exact absurd (h _ h0) (by decide)
  · intro h0
    exact absurd (h _ h0) (by decide)

theorem digit_plain {c : Char} (h : ∃ d, d < 10 ∧ c = digitChar d) : 32 < c.toNat := by
  obtain ⟨d, hd, rfl⟩ := h
  rw [digitChar_toNat d hd]; omega

theorem setDouble_plain (x : ℚ) : PlainValue (setDouble x) := by
  have key : ∀ m e, ∀ c ∈ partsTextP 16 m e, 32 < c.toNat := by
    intro m e c hc
    rcases partsP_chars _ _ _ _ hc with rfl | rfl | rfl | rfl | h
    · decide
    · decide
    · decide
    · decide
    · exact digit_plain h
  refine plain_of fun c hc => ?_
  unfold setDouble generalP at hc
  split at hc
  · rw [List.mem_singleton] at hc; subst hc; decide
  · split at hc
    · rcases List.mem_cons.mp hc with rfl | h
      · decide
      · exact key _ _ _ h
    · exact key _ _ _ hc

theorem decInt_above (z : ℤ) : ∀ c ∈ decInt z, 32 < c.toNat := by
  intro c hc
  cases z with
  | ofNat n => exact digit_plain (decNat_chars _ _ hc)
  | negSucc n =>
    rcases List.mem_cons.mp hc with rfl | h
    · decide
    · exact digit_plain (decNat_chars _ _ h)

theorem setInt_plain (z : ℤ) : PlainValue (setInt z) := plain_of (decInt_above z)

theorem connectionsStr_plain (l : List SubmapId) : PlainValue (connectionsStr l) := by
  refine plain_of ?_
  induction l with
  | nil => simp [connectionsStr]
  | cons id r ih =>
    intro c hc
    simp only [connectionsStr, List.cons_append, List.mem_cons, List.mem_append] at hc
    rcases hc with rfl | h | h
    · decide
    · rcases h with h | rfl | h
      · exact decInt_above _ _ h
      · decide
      · exact decInt_above _ _ h
    · rcases h with rfl | h
      · decide
      · exact ih c h

/-! ### documents made of lists -/

theorem elems_ok {name : List Char} (hn : XmlName name) : ∀ l : List (XmlAttrs × XmlForest),
    (∀ p ∈ l, (∀ q ∈ p.1, XmlName q.1 ∧ PlainValue q.2) ∧ DocOk p.2 ∧ DocTabFree p.2) →
    DocOk (elems name l) ∧ DocTabFree (elems name l) := by
  intro l
  induction l with
  | nil => intro _; exact ⟨trivial, trivial⟩
  | cons p r ih =>
    intro h
    obtain ⟨h1, h2, h3⟩ := h p (List.mem_cons_self ..)
    obtain ⟨i1, i2⟩ := ih fun q hq => h q (List.mem_cons_of_mem _ hq)
    exact ⟨⟨hn, fun q hq => ⟨(h1 q hq).1, (h1 q hq).2.1⟩, h2, i1⟩, fun q hq => (h1 q hq).2.2, h3, i2⟩

theorem elems_named (name : List Char) (l : List (XmlAttrs × XmlForest)) : (elems name l).named name = l := by
  induction l with
  | nil => rfl
  | cons p r ih =>
    obtain ⟨a, k⟩ := p
    simp [elems, XmlForest.named, ih]

/-- A document with one root element whose children are given by a list. -/
theorem root_roundtrip {root name : List Char} (hr : XmlName root) (hn : XmlName name)
    (l : List (XmlAttrs × XmlForest))
    (h : ∀ p ∈ l, (∀ q ∈ p.1, XmlName q.1 ∧ PlainValue q.2) ∧ DocOk p.2 ∧ DocTabFree p.2) :
    loadXml (saveXml (.elem root [] (elems name l) .nil)) = .ok (.elem root [] (elems name l) .nil) := by
  obtain ⟨h1, h2⟩ := elems_ok hn l h
  exact C101_exact _ ⟨hr, by simp, h1, trivial⟩ ⟨by simp, h2, trivial⟩ (by simp)

/-! ### map packages -/

theorem pieceAttrs_ok (d : Rat × Rat × List Char) (h : PlainValue d.2.2) :
    ∀ q ∈ pieceAttrs d, XmlName q.1 ∧ PlainValue q.2 := by
  intro q hq
  simp only [pieceAttrs, List.mem_cons, List.not_mem_nil, or_false] at hq
  rcases hq with rfl | rfl | rfl
  · exact ⟨xmlName_check (n := ['x']) (by decide) (by decide), setDouble_plain _⟩
  · exact ⟨xmlName_check (n := ['y']) (by decide) (by decide), setDouble_plain _⟩
  · exact ⟨xmlName_check (n := ['f', 'i', 'l', 'e']) (by decide) (by decide), h⟩

theorem packageDoc_load (ds : List (Rat × Rat × List Char)) (h : ∀ d ∈ ds, PlainValue d.2.2) :
    loadXml (saveXml (packageDoc ds)) = .ok (packageDoc ds) := by
  refine root_roundtrip (xmlName_check (by decide) (by decide)) (xmlName_check (by decide) (by decide)) _ ?_
  intro p hp
  obtain ⟨d, hd, rfl⟩ := List.mem_map.mp hp
  exact ⟨pieceAttrs_ok d (h d hd), trivial, trivial⟩

theorem packageDoc_read (ds : List (Rat × Rat × List Char)) (h : ∀ d ∈ ds, IsDouble d.1 ∧ IsDouble d.2.1) :
    readPieces (packageDoc ds) = some ds := by
  unfold readPieces packageDoc
  simp only [XmlForest.named, if_true, elems_named, List.map_map]
  congr 1
  refine (List.map_congr_left (g := id) fun d hd => ?_).trans (List.map_id _)
  obtain ⟨h1, h2⟩ := h d hd
  obtain ⟨x, y, f⟩ := d
  simp only [Function.comp, pieceAttrs, asAttr, attrOf, id]
  simp only [List.find?_cons]
  simp only [decide_true, show decide (['x'] = ['y']) = false from by decide,
    show decide (['x'] = ['f', 'i', 'l', 'e']) = false from by decide,
    show decide (['y'] = ['f', 'i', 'l', 'e']) = false from by decide, Option.map_some]
  rw [C102_double_roundtrip x h1, C102_double_roundtrip y h2]

/-! ### what is on the disk -/

theorem write_other {d : Disk} {n m : List Char} {f : DiskFile} (h : m ≠ n) : (d.write n f) m = d m := if_neg h

theorem write_same (d : Disk) (n : List Char) (f : DiskFile) : (d.write n f) n = some f := if_pos rfl

/-- The clouds written, the last one under each name. -/
theorem written_clouds (path : List Char) (l : List PkgPiece) : ∀ (d : Disk) (file : List Char),
    (l.foldl (fun d p => d.write (path ++ p.file) (.cloud p.cloud)) d) (path ++ file) =
      match (l.reverse.find? fun p => p.file = file) with
      | some p => some (.cloud p.cloud)
      | none => d (path ++ file) := by
  induction l with
  | nil => intro d file; rfl
  | cons p r ih =>
    intro d file
    rw [List.foldl_cons, ih]
    simp only [List.reverse_cons, List.find?_append]
    cases hf : r.reverse.find? fun p => p.file = file with
    | some q => rfl
    | none =>
      by_cases hp : p.file = file
      · rw [← hp, write_same]; simp
      · rw [write_other (fun h => hp (List.append_cancel_left h).symm)]
        simp [hp]

theorem filePath_join {path name : List Char} (hp : path = [] ∨ EndsWithSlash path) (hn : '/' ∉ name) :
    filePath (path ++ name) = path := by
  obtain ⟨f, h1, h2, h3, -⟩ := filePath_split (path ++ name)
  have a := dirPart_of_split h2 h3
  rw [← h1] at a
  exact dirPart_unique a (dirPart_of_split hn hp)

/-! ### maps of trajectories -/

theorem readSci_decNat (n : Nat) : readSciUnsigned (decNat n) = some (n : ℚ) := by
  have h := readUnsigned_frac n 0 0 (by norm_num)
  have e : fracText 0 0 = [] := by decide
  rw [e, List.append_nil] at h
  have hc : cutAt 'e' (decNat n) = [decNat n] := by
    refine cutAt_none ?_
    intro hm
    obtain ⟨d, hd, h'⟩ := decNat_chars _ _ hm
    exact digit_ne ⟨d, hd, h'⟩ (by decide) rfl
  unfold readSciUnsigned
  rw [hc]
  simpa using h

theorem getDouble_setInt (z : ℤ) (h : -2147483648 ≤ z ∧ z ≤ 2147483647) : getDouble (setInt z) = z := by
  have hr : readSci (decInt z) = some (z : ℚ) := by
    cases z with
    | ofNat n =>
      have h0 := readSci_decNat n
      show readSci (decNat n) = _
      obtain ⟨c, r, hcr⟩ := List.exists_cons_of_ne_nil (decNat_ne_nil n)
      have hc : c ≠ '-' := by
        rintro rfl
        obtain ⟨d, hd, h'⟩ := decNat_chars n '-' (by rw [hcr]; simp)
        exact digit_ne ⟨d, hd, h'⟩ (by decide) rfl
      rw [hcr] at h0 ⊢
      rw [readSci]
      · simpa using h0
      · rintro s hs
        simp only [List.cons.injEq] at hs
        exact hc hs.1
    | negSucc n =>
      show readSci ('-' :: decNat (n + 1)) = _
      rw [readSci, readSci_decNat, Option.map_some, Int.cast_negSucc]
  have hd : IsDouble (z : ℚ) := by
    refine ⟨z, 0, ?_, by simp⟩
    rw [abs_le]
    constructor <;> norm_num <;> omega
  have := (C102_double_reads [] (decInt z) [] z (by simp) hr (decInt_ne_nil z) (by intro c hc; simp at hc)).1
  rw [List.nil_append, List.append_nil, isDouble_fixed hd] at this
  exact this

theorem submapAttrs_ok (s : TrajSubmap) (h : SubmapStorable s) :
    ∀ q ∈ submapAttrs s, XmlName q.1 ∧ PlainValue q.2 := by
  intro q hq
  simp only [submapAttrs, List.mem_cons, List.not_mem_nil, or_false] at hq
  rcases hq with rfl | rfl | rfl | rfl | rfl | rfl | rfl | rfl | rfl
  · exact ⟨xmlName_check (n := ['i', 'd']) (by decide) (by decide), setInt_plain _⟩
  · exact ⟨xmlName_check (n := ['f', 'i', 'l', 'e']) (by decide) (by decide), h.file⟩
  · exact ⟨xmlName_check (n := ['t', 'x']) (by decide) (by decide), setDouble_plain _⟩
  · exact ⟨xmlName_check (n := ['t', 'y']) (by decide) (by decide), setDouble_plain _⟩
  · exact ⟨xmlName_check (n := ['t', 'z']) (by decide) (by decide), setDouble_plain _⟩
  · exact ⟨xmlName_check (n := ['r', 'x']) (by decide) (by decide), setDouble_plain _⟩
  · exact ⟨xmlName_check (n := ['r', 'y']) (by decide) (by decide), setDouble_plain _⟩
  · exact ⟨xmlName_check (n := ['r', 'z']) (by decide) (by decide), setDouble_plain _⟩
  · exact ⟨xmlName_check (n := ['c', 'o', 'n', 'n', 'e', 'c', 't', 'i', 'o', 'n', 's']) (by decide) (by decide), connectionsStr_plain _⟩

theorem submapAttrs_read (s : TrajSubmap) (h : SubmapStorable s) :
    readSubmapNode (submapAttrs s) =
      { id := s.id.submap, file := s.file, tx := s.x, ty := s.y, rest := s.rest
        connections := connectionsStr s.connected } := by
  obtain ⟨hid, -, hx, hy, ⟨hl, hr⟩, -⟩ := h
  obtain ⟨a, b, c, e, hrest⟩ : ∃ a b c e, s.rest = [a, b, c, e] := by
    match s.rest, hl with
    | [a, b, c, e], _ => exact ⟨a, b, c, e, rfl⟩
  rw [hrest] at hr
  have ha := C102_double_roundtrip a (hr a (by simp))
  have hb := C102_double_roundtrip b (hr b (by simp))
  have hc := C102_double_roundtrip c (hr c (by simp))
  have he := C102_double_roundtrip e (hr e (by simp))
  have hX := C102_double_roundtrip s.x hx
  have hY := C102_double_roundtrip s.y hy
  have hI := C102_int_roundtrip s.id.submap hid
  simp only [readSubmapNode, submapAttrs, hrest, asAttr, attrOf]
  simp [hX, hY, hI, ha, hb, hc, he]

theorem trajectoryNode_ok (t : TrajPkg) (h : TrajStorable t) :
    (∀ q ∈ (trajectoryNode t).1, XmlName q.1 ∧ PlainValue q.2) ∧ DocOk (trajectoryNode t).2 ∧
      DocTabFree (trajectoryNode t).2 := by
  constructor
  · intro q hq
    simp only [trajectoryNode, List.mem_cons, List.not_mem_nil, or_false] at hq
    rcases hq with rfl | rfl | rfl
    · exact ⟨xmlName_check (n := ['i', 'd']) (by decide) (by decide), setInt_plain _⟩
    · exact ⟨xmlName_check (n := ['e', 'n', 'u', '_', 'x']) (by decide) (by decide), setDouble_plain _⟩
    · exact ⟨xmlName_check (n := ['e', 'n', 'u', '_', 'y']) (by decide) (by decide), setDouble_plain _⟩
  · refine elems_ok (xmlName_check (by decide) (by decide)) _ fun p hp => ?_
    obtain ⟨s, hs, rfl⟩ := List.mem_map.mp hp
    exact ⟨submapAttrs_ok s (h.submaps s hs), trivial, trivial⟩

theorem trajectoryNode_read (t : TrajPkg) (h : TrajStorable t) :
    readTrajectoryNode (trajectoryNode t) = xmlOfTrajectory t := by
  unfold readTrajectoryNode xmlOfTrajectory trajectoryNode
  simp only [elems_named, List.map_cons, List.map_nil, List.map_map, C102_double_roundtrip _ h.enu.1,
    C102_double_roundtrip _ h.enu.2, getDouble_setInt _ h.id]
  congr 1
  exact List.map_congr_left fun s hs => submapAttrs_read s (h.submaps s hs)

theorem mapDoc_load (l : List TrajPkg) (h : ∀ t ∈ l, TrajStorable t) :
    loadXml (saveXml (mapDoc l)) = .ok (mapDoc l) := by
  refine root_roundtrip (xmlName_check (by decide) (by decide)) (xmlName_check (by decide) (by decide)) _ ?_
  intro p hp
  obtain ⟨t, ht, rfl⟩ := List.mem_map.mp hp
  exact trajectoryNode_ok t (h t ht)

theorem readMapFile_stored (d : Disk) (file : List Char) (l : List TrajPkg) (h : ∀ t ∈ l, TrajStorable t) :
    readMapFile (storeMap d file l) file = some (l.map xmlOfTrajectory) := by
  unfold readMapFile storeMap
  rw [write_same]
  dsimp only
  rw [mapDoc_load l h]
  unfold mapDoc
  simp only [XmlForest.named, if_true, elems_named, List.map_map]
  congr 1
  exact List.map_congr_left fun t ht => trajectoryNode_read t (h t ht)

open Classical in
theorem checkSubmaps_eq (d : Disk) (path : List Char) (l : List TrajSubmap) (h : ∀ s ∈ l, SubmapStorable s) :
    checkSubmaps d path (l.map fun s => { id := s.id.submap, file := s.file, tx := s.x, ty := s.y, rest := s.rest
                                          connections := connectionsStr s.connected }) =
      if ∀ s ∈ l, ∃ f, d (path ++ s.file) = some f then .ok () else .abort := by
  induction l with
  | nil => simp [checkSubmaps]
  | cons s r ih =>
    have hc := C48_connections s.connected (h s (by simp)).connected
    have ih' := ih fun s hs => h s (by simp [hs])
    simp only [List.map_cons, checkSubmaps, hc, Outcome.bind_ok]
    rw [ih']
    by_cases h1 : ∃ f, d (path ++ s.file) = some f
    · have h1' : (d (path ++ s.file)).isSome = true := Option.isSome_iff_exists.2 h1
      rw [Outcome.check_pos h1', Outcome.bind_ok]
      by_cases h2 : ∀ s ∈ r, ∃ f, d (path ++ s.file) = some f
      · rw [if_pos h2, if_pos]
        intro s' hs'
        rcases List.mem_cons.1 hs' with rfl | hs'
        · exact h1
        · exact h2 s' hs'
      · rw [if_neg h2, if_neg]
        exact fun h => h2 fun s' hs' => h s' (by simp [hs'])
    · have h1' : ¬ (d (path ++ s.file)).isSome = true := fun h => h1 (Option.isSome_iff_exists.1 h)
      rw [Outcome.check_neg h1', Outcome.bind_abort]
      exact (if_neg fun h => h1 (h s (by simp))).symm

open Classical in
theorem checkTrajectories_eq (d : Disk) (path : List Char) (l : List TrajPkg) (h : ∀ t ∈ l, TrajStorable t) :
    checkTrajectories d path (l.map xmlOfTrajectory) = if FilesPresent d path l then .ok () else .abort := by
  induction l with
  | nil => simp [checkTrajectories, FilesPresent]
  | cons t r ih =>
    have ih' := ih fun s hs => h s (by simp [hs])
    have hs := checkSubmaps_eq d path t.submaps (h t (by simp)).submaps
    simp only [List.map_cons, checkTrajectories]
    rw [show (xmlOfTrajectory t).submaps = t.submaps.map _ from rfl, hs, ih']
    by_cases h1 : ∀ s ∈ t.submaps, ∃ f, d (path ++ s.file) = some f
    · rw [if_pos h1, Outcome.bind_ok]
      by_cases h2 : FilesPresent d path r
      · rw [if_pos h2, if_pos]
        intro t' ht'
        rcases List.mem_cons.1 ht' with rfl | ht'
        · exact h1
        · exact h2 t' ht'
      · rw [if_neg h2, if_neg]
        exact fun h => h2 fun s' hs' => h s' (by simp [hs'])
    · rw [if_neg h1, Outcome.bind_abort]
      exact (if_neg fun h => h1 (h t (by simp))).symm

end Verif
