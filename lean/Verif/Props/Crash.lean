import Verif.Proofs.Crash
import Verif.Spec.Crash
/-! C131: a map whose saving was interrupted is not taken for a map. -/
namespace Verif
open Spec

variable {vm : List (Vec3 Rat × List (Vec3 Rat)) → List (Vec3 Rat)} {eo : Bool} {stack : Nat} {o : PkgOptions}
  {submaps : List PkgSubmap} {pkg : Package}

theorem package_plain (hpre : PlainValue o.filePrefix) (h : savePackageF vm eo stack o submaps = .ok (some pkg)) :
    ∀ e ∈ pkg.description, IsDouble e.1 ∧ IsDouble e.2.1 ∧ PlainValue e.2.2 := by
  obtain ⟨h1, h2, h3⟩ := package_description h
  intro e he
  rw [h1] at he
  obtain ⟨p, hp, rfl⟩ := List.mem_map.1 he
  obtain ⟨a, b, x, y, c⟩ := h3 p hp
  exact ⟨a, b, by show PlainValue p.file; rw [c]; exact piece_plain hpre x y⟩

theorem join_of_doc (d : Disk) (path descr : List Char) (hp : path = [] ∨ EndsWithSlash path) (hd : '/' ∉ descr)
    (hpre : PlainValue o.filePrefix) (h : savePackageF vm eo stack o submaps = .ok (some pkg)) (s : List Char)
    (hs : d (path ++ descr) = some (.text s)) (hl : loadXml s = .ok (packageDoc pkg.description))
    (hc : ∀ p ∈ pkg.pieces, d (path ++ p.file) = some (.cloud p.cloud)) :
    joinTool d (path ++ descr) = some (wholeMap pkg) := by
  have hplain := package_plain hpre h
  obtain ⟨h1, -, -⟩ := package_description h
  unfold joinTool
  rw [hs]
  dsimp only
  rw [hl]
  dsimp only
  rw [packageDoc_read pkg.description fun e he => ⟨(hplain e he).1, (hplain e he).2.1⟩, Option.map_some,
    filePath_join hp hd, h1, List.flatMap_map]
  unfold wholeMap
  congr 1
  have hfl : ∀ l : List PkgPiece, (∀ p ∈ l, p ∈ pkg.pieces) →
      l.flatMap (fun p => joinPiece d path (p.cx, p.cy, p.file)) =
      l.flatMap fun p => p.cloud.map fun q => { x := pkgJoinF q.x p.cx, y := pkgJoinF q.y p.cy, z := q.z } := by
    intro l
    induction l with
    | nil => intro _; rfl
    | cons p l ih =>
      intro hl
      rw [List.flatMap_cons, List.flatMap_cons, ih fun q hq => hl q (by simp [hq])]
      congr 1
      unfold joinPiece
      dsimp only
      rw [hc p (hl p (by simp))]
  exact hfl pkg.pieces fun p hp => hp

theorem pieces_written (d : Disk) (path : List Char) (h : savePackageF vm eo stack o submaps = .ok (some pkg)) :
    ∀ p ∈ pkg.pieces, allWritten d (pkg.pieces.map fun p => (path ++ p.file, DiskFile.cloud p.cloud)) (path ++ p.file) =
      some (.cloud p.cloud) := by
  obtain ⟨-, h2, -⟩ := package_description h
  intro p hp
  have hfind : (pkg.pieces.reverse.find? fun q => q.file = p.file) = some p := find_reverse_nodup h2 hp
  unfold allWritten
  rw [List.foldl_map, written_clouds, hfind]

/-- C131, the part that holds: in a directory that has no description file yet, whenever the program is ended while it
saves — before, among or after the pieces, in the middle of a file, among the files saved before and after — the joining
tool either returns an error or gives the whole map. -/
theorem C131_package_partial (d : Disk) (path descr : List Char) (hp : path = [] ∨ EndsWithSlash path) (hd : '/' ∉ descr)
    (hpre : PlainValue o.filePrefix) (h : savePackageF vm eo stack o submaps = .ok (some pkg))
    (hne : ∀ x y : Nat, pieceFileName o.filePrefix x y ≠ descr) (before after : List FileWrite)
    (hfresh : d (path ++ descr) = none) (hb : NotSaved (path ++ descr) before) (ha : NotSaved (path ++ descr) after)
    (hap : ∀ p ∈ pkg.pieces, NotSaved (path ++ p.file) after) (d' : Disk)
    (hk : KilledWhile d (before ++ packageWrites path descr pkg ++ after) d') :
    joinTool d' (path ++ descr) = none ∨ joinTool d' (path ++ descr) = some (wholeMap pkg) := by
  have hplain := package_plain hpre h
  obtain ⟨h1, h2, h3⟩ := package_description h
  obtain ⟨o1, o2⟩ := packageDoc_ok pkg.description fun e he => (hplain e he).2.2
  have hpd : ∀ p ∈ pkg.pieces, path ++ p.file ≠ path ++ descr := by
    intro p hp e
    obtain ⟨-, -, x, y, hxy⟩ := h3 p hp
    exact hne x y (hxy ▸ List.append_cancel_left e)
  have hnone : ∀ e : Disk, e (path ++ descr) = none → joinTool e (path ++ descr) = none := fun e he => (C103_no_file e _ he).1
  unfold packageWrites at hk
  obtain ⟨cl, hcl⟩ : ∃ cl : List FileWrite, cl = pkg.pieces.map fun p => (path ++ p.file, DiskFile.cloud p.cloud) := ⟨_, rfl⟩
  have hcn : NotSaved (path ++ descr) cl := by
    intro w hw
    rw [hcl] at hw
    obtain ⟨p, hp, rfl⟩ := List.mem_map.1 hw
    exact hpd p hp
  rw [← hcl, List.append_assoc, List.append_assoc] at hk
  rcases killed_append _ _ _ _ hk with hk | hk
  · exact .inl (hnone d' (by rw [killed_other _ _ _ hk _ hb, hfresh]))
  have hf1 : allWritten d before (path ++ descr) = none := by rw [allWritten_other _ _ _ hb, hfresh]
  rcases killed_append _ _ _ _ hk with hk | hk
  · exact .inl (hnone d' (by rw [killed_other _ _ _ hk _ hcn, hf1]))
  have hf2 : allWritten (allWritten d before) cl (path ++ descr) = none := by rw [allWritten_other _ _ _ hcn, hf1]
  have hpc : ∀ p ∈ pkg.pieces, allWritten (allWritten d before) cl (path ++ p.file) = some (.cloud p.cloud) := by
    rw [hcl]
    exact pieces_written _ path h
  rcases hk with hk | ⟨g, hg, hk⟩ | hk
  · exact .inl (hnone d' (by rw [hk, hf2]))
  · obtain ⟨s, hs, rfl⟩ := hg
    have hds : d' (path ++ descr) = some (.text s) := by rw [hk]; exact write_same _ _ _
    rcases prefix_load _ _ _ o1 o2 s hs with ⟨e, he⟩ | he
    · left
      unfold joinTool
      rw [hds]
      dsimp only
      rw [he]
    · right
      refine join_of_doc d' path descr hp hd hpre h s hds he fun p hp => ?_
      rw [hk, write_other (hpd p hp), hpc p hp]
  · right
    refine join_of_doc d' path descr hp hd hpre h _ ?_ (packageDoc_load _ fun e he => (hplain e he).2.2) fun p hp => ?_
    · rw [killed_other _ _ _ hk _ ha]
      exact write_same _ _ _
    · rw [killed_other _ _ _ hk _ (hap p hp), write_other (hpd p hp), hpc p hp]

/-- C131, the part that holds, for maps of trajectories: where there is no map file yet, ending the program at any moment
leaves a directory from which loading stops, or loads every trajectory with all its submaps; and then every file saved
before the map file (the clouds of the submaps) is complete. -/
theorem C131_map_partial (d : Disk) (file : List Char) (l : List TrajPkg) (h : ∀ t ∈ l, TrajStorable t)
    (before after : List FileWrite) (hfresh : d file = none) (hb : NotSaved file before) (ha : NotSaved file after) (d' : Disk)
    (hk : KilledWhile d (before ++ mapWrites file l ++ after) d') :
    loadBaseFile d' file = .abort ∨
      (∃ m, loadBaseFile d' file = .ok m ∧
        m.base.map (fun t => (t.id, t.submaps)) = (numberedFrom 0 l).map (fun t => (t.id, t.submaps))) ∧
      ∀ n, n ≠ file → NotSaved n after → d' n = allWritten d before n := by
  obtain ⟨o1, o2⟩ := mapDoc_ok l h
  have hnone : ∀ e : Disk, e file = none → loadBaseFile e file = .abort := fun e he => (C103_no_file e _ he).2
  rw [List.append_assoc] at hk
  rcases killed_append _ _ _ _ hk with hk | hk
  · exact .inl (hnone d' (by rw [killed_other _ _ _ hk _ hb, hfresh]))
  have hf1 : allWritten d before file = none := by rw [allWritten_other _ _ _ hb, hfresh]
  have key : ∀ s : List Char, d' file = some (.text s) → loadXml s = .ok (mapDoc l) →
      loadBaseFile d' file = .abort ∨ ∃ m, loadBaseFile d' file = .ok m ∧
        m.base.map (fun t => (t.id, t.submaps)) = (numberedFrom 0 l).map (fun t => (t.id, t.submaps)) := by
    intro s hs hl
    have hr : readMapFile d' file = some (l.map xmlOfTrajectory) := by
      have := readMapFile_stored d' file l h
      unfold readMapFile storeMap at this
      rw [write_same] at this
      dsimp only at this
      rw [mapDoc_load l h] at this
      unfold readMapFile
      rw [hs]
      dsimp only
      rw [hl]
      exact this
    obtain ⟨m, h1, h2⟩ := C56_contents l fun t ht s hs => ((h t ht).submaps s hs).connected
    by_cases hfp : FilesPresent d' (filePath file) l
    · right
      refine ⟨m, ?_, h2⟩
      unfold loadBaseFile
      rw [hr]
      dsimp only
      rw [checkTrajectories_eq _ _ l h, if_pos hfp, Outcome.bind_ok, h1]
    · left
      unfold loadBaseFile
      rw [hr]
      dsimp only
      rw [checkTrajectories_eq _ _ l h, if_neg hfp, Outcome.bind_abort]
  rcases hk with hk | ⟨g, hg, hk⟩ | hk
  · exact .inl (hnone d' (by rw [hk, hf1]))
  · obtain ⟨s, hs, rfl⟩ := hg
    have hds : d' file = some (.text s) := by rw [hk]; exact write_same _ _ _
    rcases prefix_load _ _ _ o1 o2 s hs with ⟨e, he⟩ | he
    · left
      unfold loadBaseFile readMapFile
      rw [hds]
      dsimp only
      rw [he]
    · rcases key s hds he with hh | hh
      · exact .inl hh
      · refine .inr ⟨hh, fun n hn _ => ?_⟩
        rw [hk, write_other hn]
  · have hds : d' file = some (.text (saveXml (mapDoc l))) := by
      rw [killed_other _ _ _ hk _ ha]
      exact write_same _ _ _
    rcases key _ hds (mapDoc_load l h) with hh | hh
    · exact .inl hh
    · refine .inr ⟨hh, fun n hn hna => ?_⟩
      rw [killed_other _ _ _ hk _ hna, write_other hn]

/-! ### runs -/

/-- What is saved for some submaps. -/
def crashPkg (submaps : List PkgSubmap) : Option Package :=
  match savePackageF keepAll true 100 { border := 1, width := 16, filePrefix := "part".toList } submaps with
  | .ok p => p
  | _ => none

/-- Another run, a hundred metres away. -/
def farSubmap : List PkgSubmap := [{ pos := ⟨100, 0, 0⟩, cloud := [⟨101, 0, 3⟩] }]

/-- The run `old` is saved in an empty directory; then `new` is saved there, and the program is ended after `n` files.  What
the joining tool gives. -/
def joinedAfter (old new : List PkgSubmap) (n : Nat) : Option (List (Vec3 Rat)) :=
  match crashPkg old, crashPkg new with
  | some a, some b => joinTool (allWritten (storePackage (fun _ => none) "out/".toList "p.xml".toList a)
      ((packageWrites "out/".toList "p.xml".toList b).take n)) "out/p.xml".toList
  | _, _ => none

/-- Ended after some of the files is one of the states. -/
theorem killed_take : ∀ (ws : List FileWrite) (n : Nat) (d : Disk), KilledWhile d ws (allWritten d (ws.take n)) := by
  intro ws
  induction ws with
  | nil => intro n d; simp [KilledWhile, allWritten]
  | cons w ws ih =>
    intro n d
    cases n with
    | zero => exact .inl rfl
    | succ n => exact .inr (.inr (ih n _))

/-- C131 is false in a directory that holds the map of an earlier run: ended after the first piece, the tool joins the
new piece at the place of the old one, without an error.  The point belongs to neither map. -/
theorem C131_again_fails : joinedAfter oneSubmap farSubmap 0 = some [⟨1 / 2, 0, 3⟩] ∧
    joinedAfter oneSubmap farSubmap 2 = some [⟨101, 0, 3⟩] ∧ joinedAfter oneSubmap farSubmap 1 = some [⟨1, 0, 3⟩] := by
  refine ⟨?_, ?_, ?_⟩ <;> decide +kernel

/-- C131 is false when the power fails after the program has ended in good order: the description may be there and the
pieces not, and the tool gives an empty map without an error. -/
theorem C131_power_fails : ∃ (pkg : Package) (d' : Disk), crashPkg oneSubmap = some pkg ∧
    PowerCut (fun _ => none) (packageWrites "out/".toList "p.xml".toList pkg) d' ∧
    joinTool d' "out/p.xml".toList = some [] ∧ wholeMap pkg ≠ [] := by
  obtain ⟨pkg, hp⟩ : ∃ pkg, crashPkg oneSubmap = some pkg := Option.isSome_iff_exists.1 (by decide +kernel)
  refine ⟨pkg, Disk.write (fun _ => none) "out/p.xml".toList (.text (saveXml (packageDoc pkg.description))), hp, ?_, ?_, ?_⟩
  · intro n
    by_cases hn : n = "out/p.xml".toList
    · right
      refine ⟨("out/p.xml".toList, .text (saveXml (packageDoc pkg.description))), ?_, hn.symm, ?_⟩
      · unfold packageWrites
        exact List.mem_append_right _ (List.mem_singleton.2 rfl)
      · rw [hn]; exact write_same _ _ _
    · left
      exact write_other hn
  · have : (crashPkg oneSubmap).map (fun pkg => joinTool (Disk.write (fun _ => none) "out/p.xml".toList
        (.text (saveXml (packageDoc pkg.description)))) "out/p.xml".toList) = some (some []) := by decide +kernel
    rw [hp] at this
    exact Option.some.inj this
  · have : (crashPkg oneSubmap).map wholeMap ≠ some [] := by decide +kernel
    rw [hp] at this
    exact fun e => this (congrArg some e)

/-- The hypotheses of `C131_package_partial` are met: a package saved in an empty directory between other files; ended
after no, one and two files the tool refuses, refuses and gives the whole map. -/
example : (match crashPkg oneSubmap with
    | some p => (List.range 3).map fun n => joinTool (allWritten (fun _ => none)
        ((packageWrites "out/".toList "p.xml".toList p).take n)) "out/p.xml".toList
    | none => []) = [none, none, some [⟨1 / 2, 0, 3⟩]] := by decide +kernel

/-- Half of the description is refused, all but the line end of it is enough. -/
example : (match crashPkg oneSubmap with
    | some p => [50, (saveXml (packageDoc p.description)).length - 2, (saveXml (packageDoc p.description)).length - 1].map fun n => joinTool ((allWritten (fun _ => none)
        ((packageWrites "out/".toList "p.xml".toList p).take 1)).write "out/p.xml".toList
          (.text ((saveXml (packageDoc p.description)).take n))) "out/p.xml".toList
    | none => []) = [none, none, some [⟨1 / 2, 0, 3⟩]] := by decide +kernel

end Verif
