import Verif.Proofs.MapFiles
/-!
C103: the description files of maps, end to end.

English: the description file of a map package, written as text and read by the joining tool, lists exactly the
centres and file names that were written, so joining the package from the disk gives the points of all the pieces;
and the map file of a finished run, read by the program that combines runs, gives back exactly the trajectories,
submaps, poses, file names and connections that were saved.  (File names without tabs and zero bytes; the description
file lies in the directory of the pieces.)
-/
namespace Verif
open Spec

variable {vm : List (Vec3 Rat × List (Vec3 Rat)) → List (Vec3 Rat)} {eo : Bool} {stack : Nat}
  {o : PkgOptions} {submaps : List PkgSubmap} {pkg : Package}

/-- Reading the text that was written gives the same list of centres and files, whatever it is. -/
theorem C103_description (ds : List (Rat × Rat × List Char))
    (h : ∀ d ∈ ds, IsDouble d.1 ∧ IsDouble d.2.1 ∧ PlainValue d.2.2) :
    ∃ f, loadXml (saveXml (packageDoc ds)) = .ok f ∧ readPieces f = some ds :=
  ⟨_, packageDoc_load ds fun d hd => (h d hd).2.2, packageDoc_read ds fun d hd => ⟨(h d hd).1, (h d hd).2.1⟩⟩

example : IsDouble (-5 / 2) ∧ PlainValue "a<b> \"ü\"&\n.pcd".toList := by
  refine ⟨⟨-5, -1, by norm_num, by norm_num⟩, by decide, by decide⟩

theorem package_description (h : savePackageF vm eo stack o submaps = .ok (some pkg)) :
    pkg.description = pkg.pieces.map (fun p => (p.cx, p.cy, p.file)) ∧ (pkg.pieces.map (·.file)).Nodup ∧
      ∀ p ∈ pkg.pieces, IsDouble p.cx ∧ IsDouble p.cy ∧ ∃ x y : Nat, p.file = pieceFileName o.filePrefix x y := by
  obtain ⟨nx, ny, lx, hx', ly, hy', hf, e1, e2, e3, e4, e5, h1, h2, -, h3, h4⟩ := savePackageF_ok h
  refine ⟨h4, by rw [h3]; exact piecesF_nodup nx ny, fun p hp => ?_⟩
  rw [h3] at hp
  obtain ⟨x, y, _, _, rfl⟩ := mem_piecesF.1 hp
  exact ⟨toF64_isDouble _, toF64_isDouble _, x, y, rfl⟩

theorem piece_plain {pre : List Char} (h : PlainValue pre) (x y : Int) : PlainValue (pieceFileName pre x y) := by
  have key : ∀ c : Char, c.toNat ≤ 32 → c ∉ pre → c ∉ pieceFileName pre x y := by
    intro c hc hn hm
    unfold pieceFileName pcdSuffix at hm
    simp only [List.mem_append, List.mem_cons, List.not_mem_nil, or_false] at hm
    rcases hm with h | h | h | h | h
    · exact hn h
    · exact absurd (decInt_above _ _ h) (by omega)
    · subst h; exact absurd hc (by decide)
    · exact absurd (decInt_above _ _ h) (by omega)
    · rcases h with rfl | rfl | rfl | rfl <;> exact absurd hc (by decide)
  exact ⟨key _ (by decide) h.1, key _ (by decide) h.2⟩

/-- A saved package joined from the disk: the points of every piece moved back by its centre. -/
theorem C103_join (d : Disk) (path descr : List Char) (hp : path = [] ∨ EndsWithSlash path) (hd : '/' ∉ descr)
    (hpre : PlainValue o.filePrefix) (h : savePackageF vm eo stack o submaps = .ok (some pkg))
    (hne : ∀ x y : Nat, pieceFileName o.filePrefix x y ≠ descr) :
    joinTool (storePackage d path descr pkg) (path ++ descr) = some (pkg.pieces.flatMap fun p =>
      p.cloud.map fun q => { x := pkgJoinF q.x p.cx, y := pkgJoinF q.y p.cy, z := q.z }) := by
  obtain ⟨h1, h2, h3⟩ := package_description h
  have hplain : ∀ e ∈ pkg.description, IsDouble e.1 ∧ IsDouble e.2.1 ∧ PlainValue e.2.2 := by
    intro e he
    rw [h1] at he
    obtain ⟨p, hp, rfl⟩ := List.mem_map.1 he
    obtain ⟨a, b, x, y, c⟩ := h3 p hp
    exact ⟨a, b, by show PlainValue p.file; rw [c]; exact piece_plain hpre x y⟩
  obtain ⟨f, g1, g2⟩ := C103_description pkg.description hplain
  unfold joinTool
  have hs : storePackage d path descr pkg (path ++ descr) = some (.text (saveXml (packageDoc pkg.description))) :=
    write_same _ _ _
  rw [hs]
  dsimp only
  rw [g1]
  dsimp only
  rw [g2, Option.map_some, filePath_join hp hd, h1, List.flatMap_map]
  congr 1
  have hfl : ∀ l : List PkgPiece, (∀ p ∈ l, p ∈ pkg.pieces) →
      l.flatMap (fun p => joinPiece (storePackage d path descr pkg) path (p.cx, p.cy, p.file)) =
      l.flatMap fun p => p.cloud.map fun q => { x := pkgJoinF q.x p.cx, y := pkgJoinF q.y p.cy, z := q.z } := by
    intro l
    induction l with
    | nil => intro _; rfl
    | cons p l ih =>
      intro hl
      rw [List.flatMap_cons, List.flatMap_cons, ih fun q hq => hl q (by simp [hq])]
      congr 1
      have hp' := hl p (by simp)
      obtain ⟨-, -, x, y, hxy⟩ := h3 p hp'
      have hfind : (pkg.pieces.reverse.find? fun q => q.file = p.file) = some p :=
        find_reverse_nodup h2 hp'
      have hread : storePackage d path descr pkg (path ++ p.file) = some (.cloud p.cloud) := by
        unfold storePackage
        rw [write_other fun h => hne x y (hxy ▸ List.append_cancel_left h), written_clouds, hfind]
      unfold joinPiece
      dsimp only
      rw [hread]
  exact hfl pkg.pieces fun p hp => hp

/-- A package saved on an empty disk and joined from there. -/
def savedAndJoined (path descr pre : List Char) (submaps : List PkgSubmap) : Option (List (Vec3 Rat)) :=
  match savePackageF keepAll true 100 { border := 1, width := 16, filePrefix := pre } submaps with
  | .ok (some pkg) => joinTool (storePackage (fun _ => none) path descr pkg) (path ++ descr)
  | _ => none

/-- One submap with one point. -/
def oneSubmap : List PkgSubmap := [{ pos := ⟨0, 0, 0⟩, cloud := [⟨1 / 2, 0, 3⟩] }]

example : savedAndJoined "out/".toList "p.xml".toList "a&<b".toList oneSubmap = some [⟨1 / 2, 0, 3⟩] := by
  decide +kernel

/-- Every point is lost, without an error, when the file prefix contains a tab, when the output path does not end with
a slash, or when the description file is put in a directory of its own. -/
theorem C103_join_fails :
    savedAndJoined "out/".toList "p.xml".toList "part\t".toList oneSubmap = some [] ∧
    savedAndJoined "out".toList "p.xml".toList "part".toList oneSubmap = some [] ∧
    savedAndJoined "out/".toList "d/p.xml".toList "part".toList oneSubmap = some [] := by
  refine ⟨?_, ?_, ?_⟩ <;> decide +kernel

/-- A description file named like a piece overwrites it: its points are lost. -/
theorem C103_same_name_fails :
    savedAndJoined "out/".toList "part0_0.pcd".toList "part".toList oneSubmap = some [] := by decide +kernel

/-! Maps of trajectories -/

/-- A saved map is loaded completely: the trajectories in order, numbered from zero, with all their submaps: index, file,
the six pose numbers (exactly) and connections. -/
theorem C103_map (d : Disk) (file : List Char) (l : List TrajPkg) (h : ∀ t ∈ l, TrajStorable t)
    (hf : FilesPresent (storeMap d file l) (filePath file) l) :
    ∃ m, loadBaseFile (storeMap d file l) file = .ok m ∧
      m.base.map (fun t => (t.id, t.submaps)) = (numberedFrom 0 l).map (fun t => (t.id, t.submaps)) := by
  obtain ⟨m, h1, h2⟩ := C56_contents l fun t ht s hs => ((h t ht).submaps s hs).connected
  refine ⟨m, ?_, h2⟩
  unfold loadBaseFile
  rw [readMapFile_stored d file l h]
  dsimp only
  rw [checkTrajectories_eq _ _ l h, if_pos hf, Outcome.bind_ok, h1]

/-- If the file of one submap is missing the program stops. -/
theorem C103_map_missing (d : Disk) (file : List Char) (l : List TrajPkg) (h : ∀ t ∈ l, TrajStorable t)
    (hf : ¬ FilesPresent (storeMap d file l) (filePath file) l) :
    loadBaseFile (storeMap d file l) file = .abort := by
  unfold loadBaseFile
  rw [readMapFile_stored d file l h]
  dsimp only
  rw [checkTrajectories_eq _ _ l h, if_neg hf, Outcome.bind_abort]

/-- Neither program takes the file of the other: the joining tool returns an error for a map file, the map program
stops on the description of a package. -/
theorem C103_wrong_kind (d : Disk) (file path descr : List Char) (l : List TrajPkg) (h : ∀ t ∈ l, TrajStorable t)
    (ds : List (Rat × Rat × List Char)) (hds : ∀ e ∈ ds, PlainValue e.2.2) (pkg : Package) (hp : pkg.description = ds) :
    joinTool (storeMap d file l) file = none ∧
      loadBaseFile (storePackage d path descr pkg) (path ++ descr) = .abort := by
  constructor
  · unfold joinTool storeMap
    rw [write_same]
    dsimp only
    rw [mapDoc_load l h]
    have : readPieces (mapDoc l) = none := by
      unfold readPieces mapDoc
      simp only [XmlForest.named]
      rw [if_neg (by decide)]
    dsimp only
    rw [this]
    rfl
  · have hs : storePackage d path descr pkg (path ++ descr) = some (.text (saveXml (packageDoc pkg.description))) :=
      write_same _ _ _
    unfold loadBaseFile readMapFile
    rw [hs]
    dsimp only
    rw [hp, packageDoc_load ds hds]
    have : (packageDoc ds).named mapName = [] := by
      unfold packageDoc
      simp only [XmlForest.named]
      rw [if_neg (by decide)]
    dsimp only
    rw [this]

/-- A missing file stops the map program and gives an error of the joining tool. -/
theorem C103_no_file (d : Disk) (file : List Char) (h : d file = none) :
    joinTool d file = none ∧ loadBaseFile d file = .abort := by
  constructor
  · unfold joinTool; rw [h]
  · unfold loadBaseFile readMapFile; rw [h]

/-- Attributes that are left out count as zero, or as the empty text: a piece without a centre keeps its points where
they are, a submap without pose numbers stands at the origin. -/
theorem C103_left_out (a : XmlAttrs) (rest : XmlForest) :
    (∀ file, attrOf a ['f', 'i', 'l', 'e'] = some file → attrOf a ['x'] = none → attrOf a ['y'] = none →
      readPieces (.elem mapPackageName [] (.elem pieceName a .nil .nil) rest) = some [(0, 0, file)]) ∧
    ((∀ n ∈ (["tx", "ty", "tz", "rx", "ry", "rz"] : List String), attrOf a n.toList = none) →
      (readSubmapNode a).tx = 0 ∧ (readSubmapNode a).ty = 0 ∧ (readSubmapNode a).rest = [0, 0, 0, 0]) ∧
    (attrOf a ['c', 'o', 'n', 'n', 'e', 'c', 't', 'i', 'o', 'n', 's'] = none →
      connectionsStrToIds (readSubmapNode a).connections = .ok []) ∧
    (attrOf a ['i', 'd'] = none → (readSubmapNode a).id = 0) := by
  refine ⟨?_, ?_, ?_, ?_⟩
  · intro file hf hx hy
    simp [readPieces, XmlForest.named, asAttr, hf, hx, hy]
  · intro h
    have h1 := h "tx" (by simp); have h2 := h "ty" (by simp); have h3 := h "tz" (by simp)
    have h4 := h "rx" (by simp); have h5 := h "ry" (by simp); have h6 := h "rz" (by simp)
    simp only [String.reduceToList] at h1 h2 h3 h4 h5 h6
    simp [readSubmapNode, asAttr, h1, h2, h3, h4, h5, h6]
  · intro h
    simp only [readSubmapNode, asAttr, h]
    rfl
  · intro h
    simp only [readSubmapNode, asAttr, h]

example : attrOf [(['f', 'i', 'l', 'e'], "a.pcd".toList)] ['f', 'i', 'l', 'e'] = some "a.pcd".toList ∧
    attrOf [(['f', 'i', 'l', 'e'], "a.pcd".toList)] ['x'] = none := by decide

/-- Non-vacuity: a map with a connection, and where it is after loading. -/
def oneMap : List TrajPkg :=
  [{ id := 7, enuX := 1 / 2, enuY := 3
     submaps := [{ id := ⟨7, 0⟩, file := "a.bin".toList, x := 1 / 4, y := -2, rest := [0, 1, 1 / 8, 5], connected := [⟨0, 1⟩] },
                 { id := ⟨7, 1⟩, file := "b.bin".toList, x := 0, y := 0, rest := [0, 0, 0, 0], connected := [] }] }]

example : ∀ t ∈ oneMap, TrajStorable t := by
  have z : ∀ n : Int, |n| ≤ 2 ^ 53 → IsDouble n := fun n h => ⟨n, 0, h, by simp⟩
  have z0 : IsDouble 0 := by simpa using z 0 (by norm_num)
  have z1 : IsDouble 1 := by simpa using z 1 (by norm_num)
  have z5 : IsDouble 5 := by simpa using z 5 (by norm_num)
  have z3 : IsDouble 3 := by simpa using z 3 (by norm_num)
  have z2 : IsDouble (-2) := by simpa using z (-2) (by norm_num)
  have h8 : IsDouble (1 / 8) := ⟨1, -3, by norm_num, by norm_num⟩
  have h4 : IsDouble (1 / 4) := ⟨1, -2, by norm_num, by norm_num⟩
  have h2 : IsDouble (1 / 2) := ⟨1, -1, by norm_num, by norm_num⟩
  intro t ht
  simp only [oneMap, List.mem_singleton] at ht
  subst ht
  refine ⟨by decide, ⟨h2, z3⟩, fun s hs => ?_⟩
  simp only [List.mem_cons, List.not_mem_nil, or_false] at hs
  rcases hs with rfl | rfl
  · refine ⟨by decide, ⟨by decide, by decide⟩, h4, z2, ⟨rfl, ?_⟩, by decide⟩
    intro v hv
    simp only [List.mem_cons, List.not_mem_nil, or_false] at hv
    rcases hv with rfl | rfl | rfl | rfl <;> assumption
  · refine ⟨by decide, ⟨by decide, by decide⟩, z0, z0, ⟨rfl, ?_⟩, by decide⟩
    intro v hv
    simp only [List.mem_cons, List.not_mem_nil, or_false, or_self] at hv
    subst hv; exact z0

example : (match loadBaseFile (storeMap (fun n => if n = "m/a.bin".toList ∨ n = "m/b.bin".toList then some (.cloud []) else none)
      "m/map.xml".toList oneMap) "m/map.xml".toList with
    | .ok m => m.base.map (fun t => (t.id, t.submaps))
    | _ => []) = [((0 : Int), [{ id := ⟨0, 0⟩, file := "a.bin".toList, x := 1 / 4, y := -2, rest := [0, 1, 1 / 8, 5], connected := [⟨0, 1⟩] },
                 { id := ⟨0, 1⟩, file := "b.bin".toList, x := 0, y := 0, rest := [0, 0, 0, 0], connected := [] }])] := by
  decide +kernel

end Verif
