import Verif.Model.Crash
import Verif.Props.MapFiles
namespace Verif
open Spec

theorem allWritten_append (d : Disk) (a b : List FileWrite) : allWritten d (a ++ b) = allWritten (allWritten d a) b :=
  List.foldl_append ..

theorem storePackage_writes (d : Disk) (path descr : List Char) (pkg : Package) :
    allWritten d (packageWrites path descr pkg) = storePackage d path descr pkg := by
  unfold packageWrites storePackage
  rw [allWritten_append]
  unfold allWritten
  rw [List.foldl_map]
  rfl

theorem killed_append : ∀ (a b : List FileWrite) (d d' : Disk), KilledWhile d (a ++ b) d' →
    KilledWhile d a d' ∨ KilledWhile (allWritten d a) b d' := by
  intro a
  induction a with
  | nil => intro b d d' h; exact .inr h
  | cons w a ih =>
    intro b d d' h
    rcases h with h | h | h
    · exact .inl (.inl h)
    · exact .inl (.inr (.inl h))
    · rcases ih b _ d' h with h | h
      · exact .inl (.inr (.inr h))
      · exact .inr h

/-- The end of the saving is one of the states. -/
theorem killed_all : ∀ (a : List FileWrite) (d : Disk), KilledWhile d a (allWritten d a) := by
  intro a
  induction a with
  | nil => intro d; rfl
  | cons w a ih => intro d; exact .inr (.inr (ih _))

theorem killed_other : ∀ (a : List FileWrite) (d d' : Disk), KilledWhile d a d' → ∀ n, (∀ w ∈ a, w.1 ≠ n) → d' n = d n := by
  intro a
  induction a with
  | nil => intro d d' h n _; rw [show d' = d from h]
  | cons w a ih =>
    intro d d' h n hn
    have h1 : n ≠ w.1 := fun e => hn w (List.mem_cons_self ..) e.symm
    rcases h with h | ⟨g, -, h⟩ | h
    · rw [h]
    · rw [h, write_other h1]
    · rw [ih _ _ h n fun w' hw => hn w' (List.mem_cons_of_mem _ hw), write_other h1]

theorem allWritten_other (a : List FileWrite) (d : Disk) (n : List Char) (hn : ∀ w ∈ a, w.1 ≠ n) : allWritten d a n = d n :=
  killed_other a d _ (killed_all a d) n hn

/-- A beginning of a saved document is refused, or is the whole document but for the last line end. -/
theorem prefix_load (n : List Char) (a : XmlAttrs) (k : XmlForest) (hf : DocOk (.elem n a k .nil))
    (ht : DocTabFree (.elem n a k .nil)) (p : List Char) (hp : p <+: saveXml (.elem n a k .nil)) :
    (∃ e, loadXml p = .error e) ∨ loadXml p = .ok (.elem n a k .nil) := by
  by_cases hl : p.length + 1 < (saveXml (.elem n a k .nil)).length
  · exact .inl (C101_truncated n a k hf p hp hl)
  right
  by_cases hall : p = saveXml (.elem n a k .nil)
  · rw [hall]
    exact C101_exact _ hf ht (by simp)
  obtain ⟨hn, ha, hk, _⟩ := id hf
  have e : saveXml (.elem n a k .nil) = ('<' :: (declTail ++ ('\n' :: ('<' :: elemBody 0 n a k)))) ++ ['\n'] := by
    unfold saveXml
    rw [writeForest_elem, xmlDecl_eq]
    simp [writeIndent, writeForest]
  have h0 : Char.ofNat 0 ∉ p := fun h => saveXml_no_zero hf (hp.subset h)
  have hp' : p = '<' :: (declTail ++ ('\n' :: ('<' :: elemBody 0 n a k))) := by
    rw [e] at hp hall
    have h1 := prefix_snoc_cases hp hall
    refine h1.eq_of_length ?_
    have h2 := h1.length_le
    rw [e, List.length_append, List.length_singleton] at hl
    omega
  subst hp'
  rw [loadXml_eq h0 (skipBom_lt _), parseFrom_tag, declTail_read]
  dsimp only
  have hws := parseFrom_ws (ws := ['\n']) { open_ := [], kids := .nil } newline_space (boundary_tag (elemBody 0 n a k))
  rw [List.singleton_append] at hws
  have hr := elem_read (d := 0) hn ha hk [] { open_ := [], kids := .nil }
  rw [List.append_nil, parseFrom_nil, if_pos rfl] at hr
  rw [hws, hr]
  have := docNoTabs_id _ ht
  simp [XmlForest.app, this, XmlForest.hasElement]

theorem packageDoc_ok (ds : List (Rat × Rat × List Char)) (h : ∀ d ∈ ds, PlainValue d.2.2) :
    DocOk (packageDoc ds) ∧ DocTabFree (packageDoc ds) := by
  obtain ⟨h1, h2⟩ := elems_ok (name := pieceName) (xmlName_check (by decide) (by decide))
    (ds.map fun d => (pieceAttrs d, XmlForest.nil)) (by
      intro p hp
      obtain ⟨d, hd, rfl⟩ := List.mem_map.mp hp
      exact ⟨pieceAttrs_ok d (h d hd), trivial, trivial⟩)
  exact ⟨⟨xmlName_check (by decide) (by decide), by simp, h1, trivial⟩, by simp, h2, trivial⟩

theorem mapDoc_ok (l : List TrajPkg) (h : ∀ t ∈ l, TrajStorable t) : DocOk (mapDoc l) ∧ DocTabFree (mapDoc l) := by
  obtain ⟨h1, h2⟩ := elems_ok (name := trajectoryName) (xmlName_check (by decide) (by decide))
    (l.map trajectoryNode) (by
      intro p hp
      obtain ⟨t, ht, rfl⟩ := List.mem_map.mp hp
      exact trajectoryNode_ok t (h t ht))
  exact ⟨⟨xmlName_check (by decide) (by decide), by simp, h1, trivial⟩, by simp, h2, trivial⟩

end Verif
