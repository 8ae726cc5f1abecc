import Verif.Proofs.Names
/-! Property theorems C32 (file names), C33 (ordering of ids) and C51 (paths). -/
namespace Verif
open Spec

/-- C32 for every prefix that does not begin with `f_`: all names under which submaps and frames
are saved are different for different ids, no frame shares a name with a submap, and map pieces
have different names.
Missing: prefixes beginning with `f_`, for which a submap and a frame can collide
(`C32_prefix_fails`). -/
theorem C32_names_partial (pre : List Char) :
    (∀ a b : SubmapId, a ≠ b → submapFileName pre a ≠ submapFileName pre b) ∧
    (∀ a b : FrameId, a ≠ b → frameFileName a ≠ frameFileName b) ∧
    (∀ x y x' y' : Int, (x, y) ≠ (x', y') → pieceFileName pre x y ≠ pieceFileName pre x' y') ∧
    (¬ ['f', '_'] <+: pre → ∀ (a : SubmapId) (f : FrameId),
      submapFileName pre a ≠ frameFileName f) :=
  ⟨fun _ _ h e => h (submapFileName_inj e), fun _ _ h e => h (frameFileName_inj e),
   fun x y x' y' h e => h (by rw [(pieceFileName_inj e).1, (pieceFileName_inj e).2]),
   fun hp a f => submap_frame_ne hp a f⟩

/-- The default prefix `submap_` (submap_options.h) meets the condition, and the name of a
submap is the expected text. -/
example : ¬ ['f', '_'] <+: "submap_".toList ∧
    submapFileName "submap_".toList ⟨0, 12⟩ = "submap_0_12.bin".toList ∧
    frameFileName ⟨0, 12, -3⟩ = "f_0_12_-3.bin".toList := by
  refine ⟨by decide, ?_, ?_⟩ <;> decide +kernel

/-- C32 is false for some prefixes: with the prefix `f_0_`, submap (1,2) is saved under the name
of frame (0,1,2). -/
theorem C32_prefix_fails : ∃ (pre : List Char) (a : SubmapId) (f : FrameId),
    submapFileName pre a = frameFileName f :=
  ⟨"f_0_".toList, ⟨1, 2⟩, ⟨0, 1, 2⟩, by decide +kernel⟩

/-- The texts shown for submap ids are different for different ids. -/
theorem C32_debug_strings (a b : SubmapId) (h : a.debugString = b.debugString) : a = b := by
  unfold SubmapId.debugString at h
  obtain ⟨e1, e2⟩ := sep_unique ',' _ _ _ _ (no_comma _) (no_comma _) (List.cons.inj h).2
  have e3 := List.append_cancel_right e2
  cases a; cases b
  simp only [SubmapId.mk.injEq]
  exact ⟨decInt_inj e1, decInt_inj e3⟩

/-- C33 for submap ids. -/
theorem C33_submap_order : StrictTotal SubmapId.lt ∧
    (∀ a b : SubmapId, a.lt b = true ↔
      a.trajectory < b.trajectory ∨ (a.trajectory = b.trajectory ∧ a.submap < b.submap)) ∧
    (∀ a b : SubmapId, (a.eq b = true ↔ a = b) ∧ (a.ne b = true ↔ a ≠ b)) := by
  have key : ∀ a b : SubmapId, a.lt b = true ↔
      a.trajectory < b.trajectory ∨ (a.trajectory = b.trajectory ∧ a.submap < b.submap) := by
    intro a b
    simp only [SubmapId.lt, Bool.or_eq_true, Bool.and_eq_true, decide_eq_true_eq, Bool.not_eq_true',
      decide_eq_false_iff_not]
    omega
  refine ⟨⟨?_, ?_, ?_⟩, key, ?_⟩
  · intro a
    rw [← Bool.not_eq_true, key]; omega
  · intro a b c
    rw [key, key, key]; omega
  · intro a b
    rw [key, key]
    rcases a with ⟨a1, a2⟩; rcases b with ⟨b1, b2⟩
    simp only [SubmapId.mk.injEq]; omega
  · intro a b
    rcases a with ⟨a1, a2⟩; rcases b with ⟨b1, b2⟩
    simp [SubmapId.eq, SubmapId.ne]
    omega

/-- C33 for frame ids. -/
theorem C33_frame_order : StrictTotal FrameId.lt ∧
    (∀ a b : FrameId, a.lt b = true ↔
      a.trajectory < b.trajectory ∨ (a.trajectory = b.trajectory ∧
        (a.submap < b.submap ∨ (a.submap = b.submap ∧ a.frame < b.frame)))) ∧
    (∀ a b : FrameId, (a.eq b = true ↔ a = b) ∧ (a.ne b = true ↔ a ≠ b)) := by
  have key : ∀ a b : FrameId, a.lt b = true ↔
      a.trajectory < b.trajectory ∨ (a.trajectory = b.trajectory ∧
        (a.submap < b.submap ∨ (a.submap = b.submap ∧ a.frame < b.frame))) := by
    intro a b
    simp only [FrameId.lt, Bool.or_eq_true, Bool.and_eq_true, decide_eq_true_eq, Bool.not_eq_true',
      decide_eq_false_iff_not]
    omega
  refine ⟨⟨?_, ?_, ?_⟩, key, ?_⟩
  · intro a
    rw [← Bool.not_eq_true, key]; omega
  · intro a b c
    rw [key, key, key]; omega
  · intro a b
    rw [key, key]
    rcases a with ⟨a1, a2, a3⟩; rcases b with ⟨b1, b2, b3⟩
    simp only [FrameId.mk.injEq]; omega
  · intro a b
    rcases a with ⟨a1, a2, a3⟩; rcases b with ⟨b1, b2, b3⟩
    simp [FrameId.eq, FrameId.ne]
    omega

example : SubmapId.lt ⟨0, 5⟩ ⟨1, 2⟩ = true ∧ FrameId.lt ⟨1, 2, 7⟩ ⟨1, 3, 0⟩ = true := by decide

/-- C51: the directory part is the longest prefix ending in a slash (and is the only such text),
the path is the directory part followed by a file part without slashes, and taking the directory
part twice changes nothing.  The file part cut to 127 characters is what the short log name
shows. -/
theorem C51_directory (s : List Char) :
    IsDirPart s (filePath s) ∧ (∀ d, IsDirPart s d → d = filePath s) ∧
    (∃ f, s = filePath s ++ f ∧ '/' ∉ f ∧ splitFileName s = f.take 127) ∧
    filePath (filePath s) = filePath s := by
  obtain ⟨f, h1, h2, h3, h4⟩ := filePath_split s
  have hd : IsDirPart s (filePath s) := by
    have := dirPart_of_split (d := filePath s) h2 h3
    rwa [← h1] at this
  refine ⟨hd, fun d h => dirPart_unique h hd, ⟨f, h1, h2, h4.symm⟩, ?_⟩
  obtain ⟨g, g1, g2, g3, -⟩ := filePath_split (filePath s)
  have hg : IsDirPart (filePath s) (filePath (filePath s)) := by
    have := dirPart_of_split (d := filePath (filePath s)) g2 g3
    rwa [← g1] at this
  have hs : IsDirPart (filePath s) (filePath s) := by
    have := dirPart_of_split (d := filePath s) (f := []) (by simp) h3
    rwa [List.append_nil] at this
  exact dirPart_unique hg hs

example : filePath "/a/b/c.txt".toList = "/a/b/".toList ∧
    splitFileName "/a/b/c.txt".toList = "c.txt".toList ∧ filePath "c.txt".toList = [] := by
  decide

/-- Creating a directory: trailing slashes are irrelevant; nothing is created for the root or for
an existing path; otherwise exactly one directory is asked for, the path without its trailing
slashes, and its result is reported. -/
theorem C51_create_dir (existsPath create : List Char → Bool) (path : List Char) (n : Nat)
    (hn : ¬ EndsWithSlash path) :
    createDir existsPath create (path ++ List.replicate n '/') =
      if path = [] ∨ existsPath path = true then (true, []) else (create path, [path]) := by
  have hs : stripSlashes path = path := by
    obtain ⟨k, h1, -⟩ := stripSlashes_spec path
    cases k with
    | zero => simpa using h1.symm
    | succ k =>
      rw [List.replicate_succ', ← List.append_assoc] at h1
      exact absurd ⟨_, h1⟩ hn
  unfold createDir
  rw [stripSlashes_append, hs]
  simp [List.isEmpty_iff]

example : ¬ EndsWithSlash "/tmp/x".toList := by
  rintro ⟨e, he⟩
  have := congrArg List.getLast? he
  simp at this

end Verif
