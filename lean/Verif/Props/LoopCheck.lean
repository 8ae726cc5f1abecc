import Verif.Proofs.LoopCheck
import Verif.Spec.LoopCheck
import Mathlib.LinearAlgebra.Matrix.Determinant.Basic
import Mathlib.Algebra.Order.Ring.Rat
/-!
C39: consistency of accepted loop edges.

English: a set of loop edges is accepted only if it has at least two edges and any two of them
differ by no more than twice the stated tolerance in implied translation and rotation; whether a set
is accepted does not depend on the order of the remaining edges.

The tolerances are 0.25 m and 0.02 rad.  "Implied" position: where an edge places the newest frame.
For rotations the code's measure is the norm of the Euler angles, which is not a distance;
`C39_rotation_partial` (in LoopCheckReal) bounds the angle between the rotations.
-/
namespace Verif
open Matrix Spec
variable {R : Type} [Field R] [LinearOrder R] [IsStrictOrderedRing R]

/-- The rotation is orthogonal. -/
def IsRot (A : Matrix (Fin 3) (Fin 3) R) : Prop := A * A.transpose = 1 ∧ A.transpose * A = 1

theorem isRot_mul {A B : Matrix (Fin 3) (Fin 3) R} (ha : IsRot A) (hb : IsRot B) : IsRot (A * B) := by
  constructor
  · rw [Matrix.transpose_mul, Matrix.mul_assoc, ← Matrix.mul_assoc B, hb.1, Matrix.one_mul, ha.1]
  · rw [Matrix.transpose_mul, Matrix.mul_assoc, ← Matrix.mul_assoc A.transpose, ha.2, Matrix.one_mul, hb.2]

theorem impliedPosition_eq (pose : Nat → Rigid R) (e : LoopEdge R) :
    impliedPosition pose e = (e.source pose).trans := by
  funext i
  simp [impliedPosition, LoopEdge.source, Rigid.mul, Matrix.mulVec, dotProduct, Fin.sum_univ_three]

theorem checkResult_iff (euler : Matrix (Fin 3) (Fin 3) R → R) (pose : Nat → Rigid R)
    (edges : List (LoopEdge R)) :
    checkResult euler pose edges = true ↔ 2 ≤ edges.length ∧ ∃ e es, edges = e :: es ∧
      ∀ e' ∈ es, sqNorm ((e.source pose).between (e'.source pose)).trans ≤ (1 / 4) ^ 2 ∧
        euler ((e.source pose).between (e'.source pose)).rot ≤ 1 / 50 := by
  match edges with
  | [] => simp [checkResult]
  | [a] => simp [checkResult]
  | a :: b :: es =>
    simp only [checkResult, List.all_eq_true, edgeAgrees, Bool.not_eq_true', Bool.or_eq_false_iff,
      decide_eq_false_iff_not, not_lt]
    constructor
    · intro h; exact ⟨by simp, a, b :: es, rfl, h⟩
    · rintro ⟨_, e, es', he, h⟩
      rw [List.cons.injEq] at he
      obtain ⟨rfl, rfl⟩ := he
      exact h

/-- Accepted: at least two edges, and any two place the newest frame at most 0.5 m apart. -/
theorem source_translation {euler : Matrix (Fin 3) (Fin 3) R → R} {pose : Nat → Rigid R}
    {edges : List (LoopEdge R)} (hr : ∀ e ∈ edges, IsRot (e.source pose).rot)
    (h : checkResult euler pose edges = true) :
    2 ≤ edges.length ∧ ∀ a ∈ edges, ∀ b ∈ edges,
      sqNorm ((a.source pose).trans - (b.source pose).trans) ≤ (2 * (1 / 4)) ^ 2 := by
  obtain ⟨hl, e, es, rfl, hall⟩ := (checkResult_iff euler pose edges).mp h
  refine ⟨hl, ?_⟩
  have key : ∀ a ∈ e :: es,
      sqNorm ((a.source pose).trans - (e.source pose).trans) ≤ (1 / 4) ^ 2 := by
    intro a ha
    rcases List.mem_cons.mp ha with rfl | ha
    · rw [sub_self]
      simp [sqNorm]
    · have := (hall a ha).1
      rwa [Rigid.between, sqNorm_rot (hr e List.mem_cons_self).1] at this
  intro a ha b hb
  have h1 := sqNorm_sub_le (a.source pose).trans (b.source pose).trans (e.source pose).trans
  have h2 := key a ha
  have h3 := key b hb
  have e4 : (2 * (1 / 4) : R) ^ 2 = 2 * (1 / 4) ^ 2 + 2 * (1 / 4) ^ 2 := by ring
  rw [e4]
  linarith

/-- The same for rotations, if the Euler-angle measure bounds the distance from the identity:
`‖M - 1‖² ≤ κ·euler(M)²` for measures within the tolerance. -/
theorem source_rotation {euler : Matrix (Fin 3) (Fin 3) R → R} {pose : Nat → Rigid R}
    {edges : List (LoopEdge R)} (hr : ∀ e ∈ edges, IsRot (e.source pose).rot) {κ : R} (hκ : 0 ≤ κ)
    (he : ∀ M, IsRot M → M.det = 1 → euler M ≤ 1 / 50 → 0 ≤ euler M ∧ frob2 (M - 1) ≤ κ * euler M ^ 2)
    (hd : ∀ e ∈ edges, (e.source pose).rot.det = 1)
    (h : checkResult euler pose edges = true) :
    ∀ a ∈ edges, ∀ b ∈ edges,
      frob2 ((a.source pose).rot - (b.source pose).rot) ≤ κ * (2 * (1 / 50)) ^ 2 := by
  obtain ⟨hl, e, es, rfl, hall⟩ := (checkResult_iff euler pose edges).mp h
  have he1 := hr e List.mem_cons_self
  have key : ∀ a ∈ e :: es,
      frob2 ((a.source pose).rot - (e.source pose).rot) ≤ κ * (1 / 50) ^ 2 := by
    intro a ha
    rcases List.mem_cons.mp ha with rfl | ha'
    · rw [sub_self]
      simp only [frob2, Matrix.zero_apply]
      have : 0 ≤ κ * (1 / 50) ^ 2 := mul_nonneg hκ (sq_nonneg _)
      simpa using this
    · have hle := (hall a ha').2
      have ham := hr a ha
      have hrot : IsRot ((e.source pose).between (a.source pose)).rot := by
        simp only [Rigid.between]
        constructor
        · rw [Matrix.transpose_mul, Matrix.transpose_transpose, Matrix.mul_assoc,
            ← Matrix.mul_assoc (a.source pose).rot, ham.1, Matrix.one_mul, he1.2]
        · rw [Matrix.transpose_mul, Matrix.transpose_transpose, Matrix.mul_assoc,
            ← Matrix.mul_assoc (e.source pose).rot, he1.1, Matrix.one_mul, ham.2]
      have hdet : ((e.source pose).between (a.source pose)).rot.det = 1 := by
        simp only [Rigid.between]
        rw [Matrix.det_mul, Matrix.det_transpose, hd a ha, hd e List.mem_cons_self, one_mul]
      obtain ⟨h0, hb⟩ := he _ hrot hdet hle
      have hfe : frob2 (((e.source pose).between (a.source pose)).rot - 1) =
          frob2 ((a.source pose).rot - (e.source pose).rot) := by
        rw [← frob2_rot he1.1 ((a.source pose).rot - (e.source pose).rot), Matrix.mul_sub, he1.2]
        rfl
      rw [hfe] at hb
      refine le_trans hb ?_
      have : euler ((e.source pose).between (a.source pose)).rot ^ 2 ≤ (1 / 50) ^ 2 :=
        pow_le_pow_left₀ h0 hle 2
      exact mul_le_mul_of_nonneg_left this hκ
  intro a ha b hb
  have h1 := frob2_sub_le (a.source pose).rot (b.source pose).rot (e.source pose).rot
  have h2 := key a ha
  have h3 := key b hb
  have e4 : κ * (2 * (1 / 50) : R) ^ 2 = 2 * (κ * (1 / 50) ^ 2) + 2 * (κ * (1 / 50) ^ 2) := by ring
  rw [e4]
  linarith

/-- Accepted: at least two edges, and any two place the newest frame at most 0.5 m apart. -/
theorem C39_translation {euler : Matrix (Fin 3) (Fin 3) R → R} {pose : Nat → Rigid R}
    {edges : List (LoopEdge R)} (hp : ∀ i, IsRot (pose i).rot) (hr : ∀ e ∈ edges, IsRot e.transform.rot)
    (h : checkResult euler pose edges = true) :
    2 ≤ edges.length ∧ ∀ a ∈ edges, ∀ b ∈ edges,
      sqDistance (impliedPosition pose a) (impliedPosition pose b) ≤ (2 * (1 / 4)) ^ 2 := by
  obtain ⟨h1, h2⟩ := source_translation (fun e he => (by
    show IsRot ((pose e.target).rot * e.transform.rot)
    exact isRot_mul (hp _) (hr e he))) h
  refine ⟨h1, fun a ha b hb => ?_⟩
  have := h2 a ha b hb
  rw [sqNorm_eq] at this
  rw [impliedPosition_eq, impliedPosition_eq]
  exact this

/-- The order of the edges after the first does not matter. -/
theorem C39_order_rest (euler : Matrix (Fin 3) (Fin 3) R → R) (pose : Nat → Rigid R)
    (e : LoopEdge R) {es es' : List (LoopEdge R)} (hp : es.Perm es') :
    checkResult euler pose (e :: es) = checkResult euler pose (e :: es') := by
  rw [Bool.eq_iff_iff, checkResult_iff, checkResult_iff, List.length_cons, List.length_cons,
    hp.length_eq]
  constructor
  · rintro ⟨h1, a, as, he, h⟩
    rw [List.cons.injEq] at he
    obtain ⟨rfl, rfl⟩ := he
    exact ⟨h1, _, _, rfl, fun e' h' => h e' (hp.mem_iff.mpr h')⟩
  · rintro ⟨h1, a, as, he, h⟩
    rw [List.cons.injEq] at he
    obtain ⟨rfl, rfl⟩ := he
    exact ⟨h1, _, _, rfl, fun e' h' => h e' (hp.mem_iff.mp h')⟩

/-- An edge that places the newest frame at `(x, 0, 0)` without rotation. -/
def edgeAt (x : Rat) : LoopEdge Rat := { target := 0, transform := ⟨1, ![x, 0, 0]⟩ }

def originPose (_ : Nat) : Rigid Rat := ⟨1, 0⟩

theorem edgeAt_trans (x y : Rat) : sqNorm
    (((edgeAt x).source originPose).between ((edgeAt y).source originPose)).trans = (y - x) ^ 2 := by
  simp [edgeAt, originPose, LoopEdge.source, Rigid.mul, Rigid.between, sqNorm_eq]

/-- Which edge comes first does matter: the same three edges (0 m, 0.2 m, 0.4 m) are accepted with
the middle one first and rejected with an outer one first.  The edges are appended by concurrent
tasks (225-228), so the order is not determined by the input. -/
theorem C39_order_first_fails :
    checkResult (fun _ => 0) originPose [edgeAt (2 / 10), edgeAt 0, edgeAt (4 / 10)] = true ∧
    checkResult (fun _ => 0) originPose [edgeAt 0, edgeAt (2 / 10), edgeAt (4 / 10)] = false := by
  constructor
  · simp only [checkResult, List.all_cons, List.all_nil, edgeAgrees, edgeAt_trans]
    norm_num
  · simp only [checkResult, List.all_cons, List.all_nil, edgeAgrees, edgeAt_trans]
    norm_num

/-- The hypotheses of `C39_translation` are met by these edges. -/
example : (∀ i, IsRot (originPose i).rot) ∧ ∀ e ∈ [edgeAt (2 / 10), edgeAt 0, edgeAt (4 / 10)], IsRot e.transform.rot := by
  refine ⟨fun i => by simp [IsRot, originPose], ?_⟩
  intro e he
  simp only [List.mem_cons, List.not_mem_nil, or_false] at he
  rcases he with rfl | rfl | rfl <;> simp [IsRot, edgeAt]

end Verif
