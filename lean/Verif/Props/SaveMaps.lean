import Verif.Proofs.SaveMaps
/-!
C34: separated map output.

English: with separated output and a positive step, the parts written together contain every submap
exactly once, in order, each part holds consecutive submaps and at most `step` of them, only the
last part may be shorter, and part numbers are distinct and consecutive from zero.

`C34_parts` says which files are written: for a splitting of the submaps into consecutive groups,
one static part per group, numbered by the group's position, holding exactly the group's scans, and
one direct part per group that has points.  `C34_numbers_fails`: a group without points has no
direct part, so the numbers of the direct parts need not be consecutive.
-/
namespace Verif
open Spec
variable {P : Type}

/-- Number and content of the static parts among the files. -/
def staticParts : List (MapFile P) → List (Int × List (P × List P))
  | [] => []
  | .staticPart i c :: fs => (i, c) :: staticParts fs
  | _ :: fs => staticParts fs

/-- Number and content of the direct parts among the files. -/
def directParts : List (MapFile P) → List (Int × List P)
  | [] => []
  | .part i c :: fs => (i, c) :: directParts fs
  | _ :: fs => directParts fs

theorem staticParts_append (a b : List (MapFile P)) :
    staticParts (a ++ b) = staticParts a ++ staticParts b := by
  induction a with
  | nil => rfl
  | cons f fs ih => cases f <;> simp [staticParts, ih]

theorem directParts_append (a b : List (MapFile P)) :
    directParts (a ++ b) = directParts a ++ directParts b := by
  induction a with
  | nil => rfl
  | cons f fs ih => cases f <;> simp [directParts, ih]

theorem staticParts_allFiles (o : SaveOptions) (h : o.mrvm = true) (k : Nat)
    (gs : List (List (SaveSubmap P))) :
    staticParts (allFiles o k gs) = (gs.zipIdx k).map fun (g, i) => ((i : Int), scans g) := by
  induction gs generalizing k with
  | nil => rfl
  | cons g gs ih =>
    rw [allFiles, staticParts_append, ih, List.zipIdx_cons, List.map_cons]
    simp only [groupFiles, h]
    split <;> rfl

theorem directParts_allFiles (o : SaveOptions) (h : o.direct = true) (k : Nat)
    (gs : List (List (SaveSubmap P))) :
    directParts (allFiles o k gs) =
      ((gs.zipIdx k).filter fun (g, _) => !(points g).isEmpty).map
        fun (g, i) => ((i : Int), points g) := by
  induction gs generalizing k with
  | nil => rfl
  | cons g gs ih =>
    rw [allFiles, directParts_append, ih, List.zipIdx_cons, List.filter_cons]
    cases hp : (points g).isEmpty <;> cases hm : o.mrvm <;>
      simp [groupFiles, h, hp, hm, directParts]

/-- The files written with separated output and a positive step. -/
theorem C34_parts (o : SaveOptions) (hs : o.separate = true) (n : Nat) (hn : 0 < n)
    (hst : o.step = (n : Int)) (submaps : List (SaveSubmap P)) :
    ∃ files groups, saveMaps o submaps = .ok files ∧ Split n submaps groups ∧
      (o.mrvm = true → staticParts files = groups.zipIdx.map fun (g, i) => ((i : Int), scans g)) ∧
      (o.direct = true → directParts files =
        (groups.zipIdx.filter fun (g, _) => !(points g).isEmpty).map
          fun (g, i) => ((i : Int), points g)) := by
  cases hss : submaps with
  | nil =>
    refine ⟨[], [], ?_, ⟨rfl, by simp, by simp, by simp⟩, by intro _; rfl, by intro _; rfl⟩
    simp only [saveMaps, saveLoop, hs, if_true, Outcome.bind_ok]
    split <;> rfl
  | cons s ss =>
    by_cases ho : (!o.direct && !o.mrvm) = true
    · -- nothing is requested: any splitting will do, take the one the loop would use
      obtain ⟨st', rest, _, b, _, _⟩ := saveLoop_eq o hs n hn hst (s :: ss).length (s :: ss) 0
        { whole := [], mrvm := [], files := [] } [] []
        ⟨by simp, by simp, by simpa using hn, by simp [points], by simp [scans], rfl⟩ (by simp)
        (by simp)
      refine ⟨[], rest, by rw [saveMaps, if_pos ho], by simpa using b, ?_, ?_⟩
      · intro h; simp [h] at ho
      · intro h; simp [h] at ho
    · obtain ⟨st', rest, a, b, _, d⟩ := saveLoop_eq o hs n hn hst (s :: ss).length (s :: ss) 0
        { whole := [], mrvm := [], files := [] } [] []
        ⟨by simp, by simp, by simpa using hn, by simp [points], by simp [scans], rfl⟩ (by simp)
        (by simp)
      refine ⟨st'.files, rest, ?_, by simpa using b, ?_, ?_⟩
      · rw [saveMaps, if_neg ho, a]
        simp only [Outcome.bind_ok, hs, if_true, Outcome.pure_eq]
      · intro h; rw [d, List.nil_append, staticParts_allFiles o h]
      · intro h; rw [d, List.nil_append, directParts_allFiles o h]

/-- The separated direct output, its parts put together, is the unseparated one: every point of
every submap once, in order. -/
theorem C34_same_as_whole (o : SaveOptions) (hs : o.separate = true) (n : Nat) (hn : 0 < n)
    (hst : o.step = (n : Int)) (hd : o.direct = true) (submaps : List (SaveSubmap P)) :
    ∃ files, saveMaps o submaps = .ok files ∧
      (directParts files).flatMap Prod.snd = points submaps := by
  obtain ⟨files, groups, h, hsp, _, h2⟩ := C34_parts o hs n hn hst submaps
  refine ⟨files, h, ?_⟩
  rw [h2 hd, ← hsp.all]
  have key : ∀ (gs : List (List (SaveSubmap P))) (k : Nat),
      (((gs.zipIdx k).filter fun (g, _) => !(points g).isEmpty).map
        fun (g, i) => ((i : Int), points g)).flatMap Prod.snd = points gs.flatten := by
    intro gs
    induction gs with
    | nil => intro k; rfl
    | cons g gs ih =>
      intro k
      rw [List.zipIdx_cons, List.filter_cons, List.flatten_cons, points_append, ← ih (k + 1)]
      cases hp : points g with
      | nil => simp [hp]
      | cons a b => simp [hp]
  exact key groups 0

/-- Without separation one static map with every scan and, unless there are no points, one whole
map with every point. -/
theorem C34_unseparated (o : SaveOptions) (hs : o.separate = false)
    (hd : o.direct = true ∨ o.mrvm = true) (submaps : List (SaveSubmap P)) :
    saveMaps o submaps = .ok
      ((if o.mrvm then [.static (scans submaps)] else []) ++
       (if o.direct && !(points submaps).isEmpty then [.whole (points submaps)] else [])) := by
  have ho : ¬ (!o.direct && !o.mrvm) = true := by
    rcases hd with h | h <;> simp [h]
  rw [saveMaps, if_neg ho, saveLoop_whole o hs]
  simp only [Outcome.bind_ok, hs, Bool.false_eq_true, if_false, Outcome.pure_eq]
  cases hm : o.mrvm <;> cases hdd : o.direct <;> simp

/-- Part numbers: three submaps, step 1, the middle one without points: the direct parts are
numbered 0 and 2. -/
theorem C34_numbers_fails :
    saveMaps { direct := true, mrvm := false, separate := true, step := 1 }
      [[{ cloud := [5], toGlobal := id, position := (0 : Int) }], [],
       [{ cloud := [7], toGlobal := id, position := 0 }]] =
      .ok [.part 0 [5], .part 2 [7]] := rfl

/-- Step zero is a division by zero as soon as there is a submap. -/
theorem C34_step_zero_fails (s : SaveSubmap P) (ss : List (SaveSubmap P)) (o : SaveOptions)
    (hs : o.separate = true) (h0 : o.step = 0) (hd : o.direct = true) :
    saveMaps o (s :: ss) = .ub := by
  simp [saveMaps, saveLoop, saveOne, hs, h0, hd]

/-- Five submaps in parts of two. -/
example : saveMaps { direct := true, mrvm := true, separate := true, step := 2 }
    ((List.range 5).map fun (i : Nat) =>
      [{ cloud := [(i : Int)], toGlobal := fun x => x + 10, position := (i : Int) }]) =
    .ok [.part 0 [10, 11], .staticPart 0 [(0, [10]), (1, [11])],
         .part 1 [12, 13], .staticPart 1 [(2, [12]), (3, [13])],
         .part 2 [14], .staticPart 2 [(4, [14])]] := rfl

end Verif
