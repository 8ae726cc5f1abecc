import Verif.Proofs.CloudGeom
/-! Property theorems C12 (moving and joining clouds) and C13 (normals). -/
namespace Verif
open Spec
variable {R : Type _} [CommRing R]

/-- C12: the in-place transform keeps stamp, number and order of points, intensities and factors,
and moves every position by the transform. -/
theorem C12_inplace (T : Mat4 R) (c : InnerCloud R) :
    let d := transformInplace T c
    d.stamp = c.stamp ∧ d.points.length = c.points.length ∧
    ∀ i (h : i < c.points.length) (h' : i < d.points.length),
      pos d.points[i] = move T (pos c.points[i]) ∧
      d.points[i].intensity = c.points[i].intensity ∧ d.points[i].factor = c.points[i].factor := by
  refine ⟨rfl, by simp [transformInplace], ?_⟩
  intro i h h'
  simp only [transformInplace, List.getElem_map, pos_transformPoint]
  exact ⟨trivial, rfl, rfl⟩

/-- C12: transforming into another cloud gives the same as in place, whatever the output held
before; a null output aborts. -/
theorem C12_to_output (T : Mat4 R) (c : InnerCloud R) (o : InnerCloud R) :
    transformToOutput T c (some o) = .ok (transformInplace T c) ∧
    transformToOutput T c none = .abort := by
  refine ⟨?_, rfl⟩
  simp [transformToOutput, transformInplace, foldl_push (transformPoint T)]

/-- C12 is false when the output is the input itself: all points are lost. -/
theorem C12_to_itself_fails (T : Mat4 R) (c : InnerCloud R) :
    transformToItself T c = ⟨c.stamp, []⟩ ∧ (c.points ≠ [] → transformToItself T c ≠ transformInplace T c) := by
  refine ⟨by simp [transformToItself], fun h e => h ?_⟩
  have := congrArg InnerCloud.points e
  simpa [transformToItself, transformInplace] using this.symm

/-- C12: the identity changes nothing. -/
theorem C12_identity (c : InnerCloud R) : transformInplace (1 : Mat4 R) c = c := by
  have : ∀ p : InnerPoint R, transformPoint (1 : Mat4 R) p = p := by
    intro p
    rw [transformPoint_eq_iff, pos_transformPoint, move_one]
    exact ⟨rfl, rfl, rfl⟩
  have e : transformPoint (1 : Mat4 R) = id := funext this
  simp [transformInplace, e]

/-- C12: transforming by A, then by B equals transforming by B*A. -/
theorem C12_compose (A B : Mat4 R) (hA : IsAffine A) (c : InnerCloud R) :
    transformInplace B (transformInplace A c) = transformInplace (B * A) c := by
  have : ∀ p : InnerPoint R, transformPoint B (transformPoint A p) = transformPoint (B * A) p := by
    intro p
    rw [transformPoint_eq_iff, pos_transformPoint, pos_transformPoint, pos_transformPoint,
      move_mul A B hA]
    exact ⟨rfl, rfl, rfl⟩
  simp [transformInplace, this]

/-- C12: appending keeps the stamp and the earlier points and adds the new ones in order. -/
theorem C12_append (a b : InnerCloud R) :
    (appendCloud a b).stamp = a.stamp ∧ (appendCloud a b).points = a.points ++ b.points := by
  have := foldl_push (fun p : InnerPoint R => p) b.points a
  simp only [appendCloud]
  rw [this]
  simp

/-- C12: transforming distributes over appending (used when a submap is put together). -/
theorem C12_append_transform (T : Mat4 R) (a b : InnerCloud R) :
    transformInplace T (appendCloud a b) =
      appendCloud (transformInplace T a) (transformInplace T b) := by
  have e : ∀ x y : InnerCloud R, appendCloud x y = ⟨x.stamp, x.points ++ y.points⟩ := by
    intro x y
    have := C12_append x y
    cases h : appendCloud x y
    simp_all
  rw [e, e]
  simp [transformInplace]

-- a quarter turn about z with a translation
def quarterTurn : Mat4 ℤ := !![0, -1, 0, 5; 1, 0, 0, 6; 0, 0, 1, 7; 0, 0, 0, 1]

example : IsAffine quarterTurn ∧ IsRotation quarterTurn := by
  constructor
  · simp [IsAffine, quarterTurn]
  · intro i j; fin_cases i <;> fin_cases j <;> simp [quarterTurn]

/-- C13: what the code computes for a cloud with normals: positions are moved correctly, but every
normal is rotated *and translated*. -/
theorem C13_apply_transform_result (T : Mat4 R) (c : EigenCloud R)
    (h0 : c.points ≠ []) (hn : c.normals = [] ∨ c.normals.length = c.points.length) :
    c.applyTransform T = .ok ⟨c.points.map (move T),
      c.normals.map (fun n => vadd (rotate T n) (translation T))⟩ := by
  have hpos : 0 < c.points.length := by cases h : c.points <;> simp_all
  unfold EigenCloud.applyTransform
  simp only [Outcome.check, hpos, if_true, top3_homTimes]
  rcases hn with hn | hn
  · simp [hn, Outcome.check]
  · simp [hn, hpos, move]

/-- C13 is false: a pure translation changes normals, even their length. -/
theorem C13_normals_directions_fails :
    ∃ (T : Mat4 ℤ) (c d : EigenCloud ℤ), IsAffine T ∧ IsRotation T ∧
      (∀ v, rotate T v = v) ∧ c.applyTransform T = .ok d ∧
      d.normals ≠ c.normals.map (rotate T) ∧ (∀ n ∈ c.normals, dot n n = 1) ∧
      ¬ ∀ n ∈ d.normals, dot n n = 1 := by
  refine ⟨!![1,0,0,5; 0,1,0,0; 0,0,1,0; 0,0,0,1], ⟨[⟨1,2,3⟩], [⟨0,0,1⟩]⟩,
    ⟨[⟨6,2,3⟩], [⟨5,0,1⟩]⟩, ?_, ?_, ?_, ?_, ?_, ?_, ?_⟩
  · simp [IsAffine]
  · intro i j; fin_cases i <;> fin_cases j <;> simp
  · intro v; simp [rotate]
  · rw [C13_apply_transform_result _ _ (by simp) (by simp)]
    simp [move, vadd, rotate, translation]
  · simp [rotate]
  · simp [dot]
  · simp [dot]

/-- C13 for transforms without translation: normals are rotated, and keep their length when the
linear part is a rotation. Missing: transforms with a translation. -/
theorem C13_normals_directions_partial (T : Mat4 R) (c : EigenCloud R)
    (h0 : c.points ≠ []) (hn : c.normals = [] ∨ c.normals.length = c.points.length)
    (ht : translation T = ⟨0, 0, 0⟩) :
    ∃ d, c.applyTransform T = .ok d ∧ d.points = c.points.map (move T) ∧
      d.normals = c.normals.map (rotate T) ∧
      (IsRotation T → ∀ n ∈ c.normals, dot (rotate T n) (rotate T n) = dot n n) := by
  refine ⟨_, C13_apply_transform_result T c h0 hn, rfl, ?_, fun hr n _ => dot_rotate T hr n n⟩
  simp [ht, vadd]

/-- C13: the CHECKs: an empty cloud or a wrong number of normals aborts. -/
theorem C13_apply_transform_checks (T : Mat4 R) (c : EigenCloud R) :
    (c.points = [] → c.applyTransform T = .abort) ∧
    (c.points ≠ [] → c.normals ≠ [] → c.normals.length ≠ c.points.length →
      c.applyTransform T = .abort) := by
  constructor
  · intro h
    simp [EigenCloud.applyTransform, h, Outcome.check]
  · intro h hn hl
    have hpos : 0 < c.points.length := by cases h' : c.points <;> simp_all
    have hnpos : 0 < c.normals.length := by cases h' : c.normals <;> simp_all
    simp [EigenCloud.applyTransform, Outcome.check, hpos, hnpos, hl]

example : ∃ c : EigenCloud ℤ, c.points ≠ [] ∧ c.normals.length = c.points.length :=
  ⟨⟨[⟨1,2,3⟩], [⟨0,0,1⟩]⟩, by simp, rfl⟩
example : IsRotation (!![0,-1,0,0; 1,0,0,0; 0,0,1,0; 0,0,0,1] : Mat4 ℤ) := by
  intro i j; fin_cases i <;> fin_cases j <;> simp

end Verif
