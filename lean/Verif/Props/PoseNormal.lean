import Verif.Spec.PoseNormal
import Verif.Props.ImuTracker
/-! Property theorems C71: poses are rigid motions. -/
namespace Verif
open Spec

/-- What is known of the entries of a rotation, all of it. -/
structure RotAll (R : Mat3) : Prop where
  base : RotEq R
  r0 : R 0 0 ^ 2 + R 0 1 ^ 2 + R 0 2 ^ 2 = 1
  r01 : R 0 0 * R 1 0 + R 0 1 * R 1 1 + R 0 2 * R 1 2 = 0
  r02 : R 0 0 * R 2 0 + R 0 1 * R 2 1 + R 0 2 * R 2 2 = 0
  r12 : R 1 0 * R 2 0 + R 1 1 * R 2 1 + R 1 2 * R 2 2 = 0
  c12 : R 0 1 * R 0 2 + R 1 1 * R 1 2 + R 2 1 * R 2 2 = 0
  k00 : R 0 0 = R 1 1 * R 2 2 - R 1 2 * R 2 1
  k10 : R 1 0 = R 0 2 * R 2 1 - R 0 1 * R 2 2
  k20 : R 2 0 = R 0 1 * R 1 2 - R 0 2 * R 1 1

theorem rotAll {R : Mat3} (h : IsRot3 R) : RotAll R := by
  have hb := rotEq h
  obtain ⟨h1, h2⟩ := h
  have h3 : R * R.transpose = 1 := mul_eq_one_comm.1 h1
  have hadj : R.transpose = R.adjugate := by
    have : R.adjugate * R = 1 := by rw [Matrix.adjugate_mul, h2, one_smul]
    calc R.transpose = (R.adjugate * R) * R.transpose := by rw [this, one_mul]
      _ = R.adjugate * (R * R.transpose) := by rw [Matrix.mul_assoc]
      _ = R.adjugate := by rw [h3, Matrix.mul_one]
  rw [Matrix.adjugate_fin_three] at hadj
  have e : ∀ i j, (R.transpose * R) i j = (1 : Mat3) i j := fun i j => by rw [h1]
  have f : ∀ i j, (R * R.transpose) i j = (1 : Mat3) i j := fun i j => by rw [h3]
  have g : ∀ i j, R.transpose i j = _ := fun i j => congrFun (congrFun hadj i) j
  simp only [Matrix.mul_apply, Fin.sum_univ_three, Matrix.transpose_apply] at e f
  have f00 := f 0 0
  have f01 := f 0 1
  have f02 := f 0 2
  have f12 := f 1 2
  have e12 := e 1 2
  have g00 := g 0 0
  have g10 := g 0 1
  have g20 := g 0 2
  simp [Matrix.transpose_apply] at g00 g10 g20
  simp at f00 f01 f02 f12 e12
  constructor
  · exact hb
  all_goals linarith

theorem Quat.norm_sq (q : Quat) : q.norm ^ 2 = q.w ^ 2 + q.x ^ 2 + q.y ^ 2 + q.z ^ 2 := by
  unfold Quat.norm
  rw [Real.sq_sqrt (by positivity)]

/-- Any quaternion that is not zero has length one after normalisation. -/
theorem Quat.normalize_isUnit {q : Quat} (h : 0 < q.w ^ 2 + q.x ^ 2 + q.y ^ 2 + q.z ^ 2) : q.normalize.IsUnit := by
  have hn : 0 < q.norm := Real.sqrt_pos.2 h
  unfold Quat.normalize Quat.IsUnit
  rw [if_pos hn]
  have := q.norm_sq
  simp only [div_pow]
  rw [← add_div, ← add_div, ← add_div, ← this, div_self (by positivity)]

/-- The index chosen when the trace is not positive has a diagonal entry that is not smaller than the others. -/
theorem quat_index (m : Mat3) : ∃ i : Fin 3, (∀ a, m a a ≤ m i i) ∧
    (if m 2 2 > m (if m 1 1 > m 0 0 then 1 else 0) (if m 1 1 > m 0 0 then 1 else 0) then (2 : Fin 3)
      else if m 1 1 > m 0 0 then 1 else 0) = i := by
  refine ⟨_, ?_, rfl⟩
  intro a
  split_ifs <;> fin_cases a <;> simp at * <;> linarith

/-- The three forms of the quaternion of a matrix. -/
inductive QuatForm (m : Mat3) : Quat → Prop
  | trace (s : ℝ) (hs : 0 < s) (h : s ^ 2 = m 0 0 + m 1 1 + m 2 2 + 1) (h1 : 1 ≤ s ^ 2) :
      QuatForm m ⟨1 / 2 * s, (m 2 1 - m 1 2) * (1 / 2 / s), (m 0 2 - m 2 0) * (1 / 2 / s), (m 1 0 - m 0 1) * (1 / 2 / s)⟩
  | x (s : ℝ) (hs : 0 < s) (h : s ^ 2 = m 0 0 - m 1 1 - m 2 2 + 1) (h1 : 1 ≤ s ^ 2) :
      QuatForm m ⟨(m 2 1 - m 1 2) * (1 / 2 / s), 1 / 2 * s, (m 1 0 + m 0 1) * (1 / 2 / s), (m 2 0 + m 0 2) * (1 / 2 / s)⟩
  | y (s : ℝ) (hs : 0 < s) (h : s ^ 2 = m 1 1 - m 2 2 - m 0 0 + 1) (h1 : 1 ≤ s ^ 2) :
      QuatForm m ⟨(m 0 2 - m 2 0) * (1 / 2 / s), (m 0 1 + m 1 0) * (1 / 2 / s), 1 / 2 * s, (m 2 1 + m 1 2) * (1 / 2 / s)⟩
  | z (s : ℝ) (hs : 0 < s) (h : s ^ 2 = m 2 2 - m 0 0 - m 1 1 + 1) (h1 : 1 ≤ s ^ 2) :
      QuatForm m ⟨(m 1 0 - m 0 1) * (1 / 2 / s), (m 0 2 + m 2 0) * (1 / 2 / s), (m 1 2 + m 2 1) * (1 / 2 / s), 1 / 2 * s⟩

theorem quatOfMat_form (m : Mat3) : QuatForm m (quatOfMat m) := by
  unfold quatOfMat
  dsimp only
  by_cases ht : m 0 0 + m 1 1 + m 2 2 > 0
  · rw [if_pos ht]
    have hp : (0 : ℝ) ≤ m 0 0 + m 1 1 + m 2 2 + 1 := by linarith
    refine .trace _ (Real.sqrt_pos.2 (by linarith)) (Real.sq_sqrt hp) ?_
    rw [Real.sq_sqrt hp]
    linarith
  · rw [if_neg ht]
    obtain ⟨i, hi, he⟩ := quat_index m
    rw [he]
    have h0 := hi 0
    have h1 := hi 1
    have h2 := hi 2
    fin_cases i
    · have hp : (1 : ℝ) ≤ m 0 0 - m 1 1 - m 2 2 + 1 := by simp at h1 h2; linarith
      simpa using QuatForm.x (m := m) _ (Real.sqrt_pos.2 (by linarith)) (Real.sq_sqrt (by linarith))
        (by rw [Real.sq_sqrt (by linarith)]; exact hp)
    · have hp : (1 : ℝ) ≤ m 1 1 - m 2 2 - m 0 0 + 1 := by simp at h0 h2; linarith
      simpa using QuatForm.y (m := m) _ (Real.sqrt_pos.2 (by linarith)) (Real.sq_sqrt (by linarith))
        (by rw [Real.sq_sqrt (by linarith)]; exact hp)
    · have hp : (1 : ℝ) ≤ m 2 2 - m 0 0 - m 1 1 + 1 := by simp at h0 h1; linarith
      simpa using QuatForm.z (m := m) _ (Real.sqrt_pos.2 (by linarith)) (Real.sq_sqrt (by linarith))
        (by rw [Real.sq_sqrt (by linarith)]; exact hp)


/-- The rotation matrix of a quaternion times its squared length. -/
noncomputable def homMat (q : Quat) : Mat3 :=
  !![q.w ^ 2 + q.x ^ 2 - q.y ^ 2 - q.z ^ 2, 2 * q.y * q.x - 2 * q.z * q.w, 2 * q.z * q.x + 2 * q.y * q.w;
     2 * q.y * q.x + 2 * q.z * q.w, q.w ^ 2 - q.x ^ 2 + q.y ^ 2 - q.z ^ 2, 2 * q.z * q.y - 2 * q.x * q.w;
     2 * q.z * q.x - 2 * q.y * q.w, 2 * q.z * q.y + 2 * q.x * q.w, q.w ^ 2 - q.x ^ 2 - q.y ^ 2 + q.z ^ 2]

def sq4 (q : Quat) : ℝ := q.w ^ 2 + q.x ^ 2 + q.y ^ 2 + q.z ^ 2

/-- A multiple of a quaternion. -/
def Quat.scale (c : ℝ) (q : Quat) : Quat := ⟨c * q.w, c * q.x, c * q.y, c * q.z⟩

theorem normalize_toMat {q : Quat} (h : 0 < sq4 q) (i j : Fin 3) :
    q.normalize.toMat i j = homMat q i j / sq4 q := by
  have hn : 0 < q.norm := Real.sqrt_pos.2 h
  have hs : q.norm ^ 2 = sq4 q := q.norm_sq
  have hne : q.norm ≠ 0 := hn.ne'
  rw [Quat.toMat_hom (Quat.normalize_isUnit h), ← hs]
  unfold Quat.normalize homMat
  rw [if_pos hn]
  fin_cases i <;> fin_cases j <;> simp <;> field_simp

theorem homMat_scale (c : ℝ) (q : Quat) (i j : Fin 3) : homMat (q.scale c) i j = c ^ 2 * homMat q i j := by
  unfold homMat Quat.scale
  fin_cases i <;> fin_cases j <;> simp <;> ring

theorem sq4_scale (c : ℝ) (q : Quat) : sq4 (q.scale c) = c ^ 2 * sq4 q := by
  unfold sq4 Quat.scale
  ring

/-- Four times a component of the quaternion times the quaternion: linear in the matrix. -/
inductive LinForm : (Mat3 → Quat) → Prop
  | trace : LinForm fun m => ⟨m 0 0 + m 1 1 + m 2 2 + 1, m 2 1 - m 1 2, m 0 2 - m 2 0, m 1 0 - m 0 1⟩
  | x : LinForm fun m => ⟨m 2 1 - m 1 2, m 0 0 - m 1 1 - m 2 2 + 1, m 1 0 + m 0 1, m 2 0 + m 0 2⟩
  | y : LinForm fun m => ⟨m 0 2 - m 2 0, m 0 1 + m 1 0, m 1 1 - m 2 2 - m 0 0 + 1, m 2 1 + m 1 2⟩
  | z : LinForm fun m => ⟨m 1 0 - m 0 1, m 0 2 + m 2 0, m 1 2 + m 2 1, m 2 2 - m 0 0 - m 1 1 + 1⟩

/-- The quaternion of a matrix is a multiple of one of the linear forms, and that form is not small. -/
theorem quatOfMat_lin (m : Mat3) : ∃ l, LinForm l ∧ 1 ≤ sq4 (l m) ∧ ∃ c, 0 < c ∧ quatOfMat m = (l m).scale c := by
  have aux : ∀ s : ℝ, 0 < s → 1 / 2 / s * s ^ 2 = 1 / 2 * s := fun s hs => by field_simp
  have big : ∀ a b c d : ℝ, 1 ≤ a → 1 ≤ a ^ 2 + b ^ 2 + c ^ 2 + d ^ 2 := fun a b c d h => by
    nlinarith [sq_nonneg b, sq_nonneg c, sq_nonneg d]
  have hf := quatOfMat_form m
  generalize quatOfMat m = q at hf ⊢
  cases hf with
  | trace s hs h h1 =>
    refine ⟨_, .trace, ?_, 1 / 2 / s, by positivity, ?_⟩
    · have := big _ (m 2 1 - m 1 2) (m 0 2 - m 2 0) (m 1 0 - m 0 1) h1
      unfold sq4; dsimp only; rw [← h]; linarith
    · unfold Quat.scale; dsimp only; rw [← h, aux s hs]; simp only [mul_comm]
  | x s hs h h1 =>
    refine ⟨_, .x, ?_, 1 / 2 / s, by positivity, ?_⟩
    · have := big _ (m 2 1 - m 1 2) (m 1 0 + m 0 1) (m 2 0 + m 0 2) h1
      unfold sq4; dsimp only; rw [← h]; linarith
    · unfold Quat.scale; dsimp only; rw [← h, aux s hs]; simp only [mul_comm]
  | y s hs h h1 =>
    refine ⟨_, .y, ?_, 1 / 2 / s, by positivity, ?_⟩
    · have := big _ (m 0 2 - m 2 0) (m 0 1 + m 1 0) (m 2 1 + m 1 2) h1
      unfold sq4; dsimp only; rw [← h]; linarith
    · unfold Quat.scale; dsimp only; rw [← h, aux s hs]; simp only [mul_comm]
  | z s hs h h1 =>
    refine ⟨_, .z, ?_, 1 / 2 / s, by positivity, ?_⟩
    · have := big _ (m 1 0 - m 0 1) (m 0 2 + m 2 0) (m 1 2 + m 2 1) h1
      unfold sq4; dsimp only; rw [← h]; linarith
    · unfold Quat.scale; dsimp only; rw [← h, aux s hs]; simp only [mul_comm]

/-- For a rotation each linear form gives back the rotation. -/
theorem lin_rot {R : Mat3} (hR : IsRot3 R) {l : Mat3 → Quat} (hl : LinForm l) (i j : Fin 3) :
    homMat (l R) i j = sq4 (l R) * R i j := by
  obtain ⟨⟨a1, a2, a3, a4, a5, a6, a7, a8, a9, a10, a11, a12, a13⟩, b1, b2, b3, b4, b5, b6, b7, b8⟩ := rotAll hR
  cases hl with
  | trace =>
    have hs : sq4 ⟨R 0 0 + R 1 1 + R 2 2 + 1, R 2 1 - R 1 2, R 0 2 - R 2 0, R 1 0 - R 0 1⟩ = 4 * (R 0 0 + R 1 1 + R 2 2 + 1) := by
      unfold sq4; dsimp only; linarith
    dsimp only
    rw [hs]
    unfold homMat
    fin_cases i <;> fin_cases j <;> simp <;> linarith
  | x =>
    have hs : sq4 ⟨R 2 1 - R 1 2, R 0 0 - R 1 1 - R 2 2 + 1, R 1 0 + R 0 1, R 2 0 + R 0 2⟩ = 4 * (R 0 0 - R 1 1 - R 2 2 + 1) := by
      unfold sq4; dsimp only; linarith
    dsimp only
    rw [hs]
    unfold homMat
    fin_cases i <;> fin_cases j <;> simp <;> linarith
  | y =>
    have hs : sq4 ⟨R 0 2 - R 2 0, R 0 1 + R 1 0, R 1 1 - R 2 2 - R 0 0 + 1, R 2 1 + R 1 2⟩ = 4 * (R 1 1 - R 2 2 - R 0 0 + 1) := by
      unfold sq4; dsimp only; linarith
    dsimp only
    rw [hs]
    unfold homMat
    fin_cases i <;> fin_cases j <;> simp <;> linarith
  | z =>
    have hs : sq4 ⟨R 1 0 - R 0 1, R 0 2 + R 2 0, R 1 2 + R 2 1, R 2 2 - R 0 0 - R 1 1 + 1⟩ = 4 * (R 2 2 - R 0 0 - R 1 1 + 1) := by
      unfold sq4; dsimp only; linarith
    dsimp only
    rw [hs]
    unfold homMat
    fin_cases i <;> fin_cases j <;> simp <;> linarith


/-! ### how far the result is from a rotation near the input -/

theorem cs4 {p1 p2 p3 p4 q1 q2 q3 q4 D A : ℝ} (hD : 0 ≤ D) (hA : 0 ≤ A) (hp : p1 ^ 2 + p2 ^ 2 + p3 ^ 2 + p4 ^ 2 = D ^ 2)
    (hq : q1 ^ 2 + q2 ^ 2 + q3 ^ 2 + q4 ^ 2 = A ^ 2) : |p1 * q1 + p2 * q2 + p3 * q3 + p4 * q4| ≤ D * A := by
  apply abs_le_of_sq_le_sq _ (mul_nonneg hD hA)
  rw [mul_pow, ← hp, ← hq]
  nlinarith [sq_nonneg (p1 * q2 - p2 * q1), sq_nonneg (p1 * q3 - p3 * q1), sq_nonneg (p1 * q4 - p4 * q1),
    sq_nonneg (p2 * q3 - p3 * q2), sq_nonneg (p2 * q4 - p4 * q2), sq_nonneg (p3 * q4 - p4 * q3)]

/-- The difference of two quaternions. -/
def Quat.sub (a b : Quat) : Quat := ⟨a.w - b.w, a.x - b.x, a.y - b.y, a.z - b.z⟩

/-- Twice the first argument minus the second. -/
def Quat.twice (a d : Quat) : Quat := ⟨2 * a.w - d.w, 2 * a.x - d.x, 2 * a.y - d.y, 2 * a.z - d.z⟩

theorem homMat_sub (a b : Quat) {D A : ℝ} (hD : 0 ≤ D) (hA : 0 ≤ A) (hd : sq4 (a.sub b) = D ^ 2)
    (hs : sq4 (a.twice (a.sub b)) = A ^ 2) (i j : Fin 3) : |homMat a i j - homMat b i j| ≤ D * A := by
  unfold sq4 at hd hs
  set d := a.sub b with hdd
  set e := a.twice d with hee
  have key : ∀ q1 q2 q3 q4 : ℝ, q1 ^ 2 + q2 ^ 2 + q3 ^ 2 + q4 ^ 2 = A ^ 2 →
      homMat a i j - homMat b i j = d.w * q1 + d.x * q2 + d.y * q3 + d.z * q4 → |homMat a i j - homMat b i j| ≤ D * A :=
    fun q1 q2 q3 q4 hq h => by rw [h]; exact cs4 hD hA hd hq
  have e1 : d.w = a.w - b.w := rfl
  have e2 : d.x = a.x - b.x := rfl
  have e3 : d.y = a.y - b.y := rfl
  have e4 : d.z = a.z - b.z := rfl
  have f1 : e.w = a.w + b.w := by rw [hee]; unfold Quat.twice; rw [e1]; ring
  have f2 : e.x = a.x + b.x := by rw [hee]; unfold Quat.twice; rw [e2]; ring
  have f3 : e.y = a.y + b.y := by rw [hee]; unfold Quat.twice; rw [e3]; ring
  have f4 : e.z = a.z + b.z := by rw [hee]; unfold Quat.twice; rw [e4]; ring
  fin_cases i <;> fin_cases j
  · exact key e.w e.x (-e.y) (-e.z) (by linarith) (by unfold homMat; rw [e1, e2, e3, e4, f1, f2, f3, f4]; simp; ring)
  · exact key (-e.z) e.y e.x (-e.w) (by linarith) (by unfold homMat; rw [e1, e2, e3, e4, f1, f2, f3, f4]; simp; ring)
  · exact key e.y e.z e.w e.x (by linarith) (by unfold homMat; rw [e1, e2, e3, e4, f1, f2, f3, f4]; simp; ring)
  · exact key e.z e.y e.x e.w (by linarith) (by unfold homMat; rw [e1, e2, e3, e4, f1, f2, f3, f4]; simp; ring)
  · exact key e.w (-e.x) e.y (-e.z) (by linarith) (by unfold homMat; rw [e1, e2, e3, e4, f1, f2, f3, f4]; simp; ring)
  · exact key (-e.x) (-e.w) e.z e.y (by linarith) (by unfold homMat; rw [e1, e2, e3, e4, f1, f2, f3, f4]; simp; ring)
  · exact key (-e.y) e.z (-e.w) e.x (by linarith) (by unfold homMat; rw [e1, e2, e3, e4, f1, f2, f3, f4]; simp; ring)
  · exact key e.x e.w e.z e.y (by linarith) (by unfold homMat; rw [e1, e2, e3, e4, f1, f2, f3, f4]; simp; ring)
  · exact key e.w (-e.x) (-e.y) e.z (by linarith) (by unfold homMat; rw [e1, e2, e3, e4, f1, f2, f3, f4]; simp; ring)

theorem sq4_sub (a b : Quat) {D A : ℝ} (hD : 0 ≤ D) (hA : 0 ≤ A) (hd : sq4 (a.sub b) = D ^ 2)
    (hs : sq4 (a.twice (a.sub b)) = A ^ 2) : |sq4 a - sq4 b| ≤ D * A := by
  have h : sq4 a - sq4 b = (a.sub b).w * (a.twice (a.sub b)).w + (a.sub b).x * (a.twice (a.sub b)).x +
      (a.sub b).y * (a.twice (a.sub b)).y + (a.sub b).z * (a.twice (a.sub b)).z := by
    unfold sq4 Quat.twice Quat.sub
    ring
  rw [h]
  exact cs4 hD hA hd hs

theorem sq4_nonneg (q : Quat) : 0 ≤ sq4 q := by
  unfold sq4
  positivity

/-- The length of twice a quaternion minus another. -/
theorem twice_le (a d : Quat) : Real.sqrt (sq4 (a.twice d)) ≤ 2 * Real.sqrt (sq4 a) + Real.sqrt (sq4 d) := by
  apply Real.sqrt_le_iff.2
  refine ⟨by positivity, ?_⟩
  have h := cs4 (Real.sqrt_nonneg (sq4 a)) (Real.sqrt_nonneg (sq4 d)) (Real.sq_sqrt (sq4_nonneg a)).symm
    (Real.sq_sqrt (sq4_nonneg d)).symm
  have h1 := Real.sq_sqrt (sq4_nonneg a)
  have h2 := Real.sq_sqrt (sq4_nonneg d)
  have h3 := (abs_le.1 h).1
  have : sq4 (a.twice d) = 4 * sq4 a - 4 * (a.w * d.w + a.x * d.x + a.y * d.y + a.z * d.z) + sq4 d := by
    unfold sq4 Quat.twice
    ring
  rw [this]
  nlinarith

/-- The error of the result for a quaternion near one that belongs to a rotation. -/
theorem near_rot {a b : Quat} {R : Mat3} (ha : 1 ≤ sq4 a) (hR : ∀ i j, |R i j| ≤ 1)
    (hb : ∀ i j, homMat b i j = sq4 b * R i j) {D : ℝ} (hD : Real.sqrt (sq4 (a.sub b)) ≤ D) (i j : Fin 3) :
    |homMat a i j / sq4 a - R i j| ≤ 2 * D * (2 + D) := by
  set d := Real.sqrt (sq4 (a.sub b)) with hd
  have hd0 : 0 ≤ d := Real.sqrt_nonneg _
  set n := Real.sqrt (sq4 a) with hn
  have hn2 : n ^ 2 = sq4 a := Real.sq_sqrt (sq4_nonneg a)
  have hn1 : 1 ≤ n := by rw [hn]; exact Real.one_le_sqrt.2 ha
  have ht := twice_le a (a.sub b)
  rw [← hn, ← hd] at ht
  have h1 := homMat_sub a b hd0 (Real.sqrt_nonneg _) (Real.sq_sqrt (sq4_nonneg _)).symm
    (Real.sq_sqrt (sq4_nonneg (a.twice (a.sub b)))).symm i j
  have h2 := sq4_sub a b hd0 (Real.sqrt_nonneg _) (Real.sq_sqrt (sq4_nonneg _)).symm
    (Real.sq_sqrt (sq4_nonneg (a.twice (a.sub b)))).symm
  have hm : d * Real.sqrt (sq4 (a.twice (a.sub b))) ≤ d * (2 * n + d) := mul_le_mul_of_nonneg_left ht hd0
  have hpos : 0 < sq4 a := by linarith
  have e : homMat a i j / sq4 a - R i j = (homMat a i j - sq4 a * R i j) / sq4 a := by
    field_simp
  rw [e, abs_div, abs_of_pos hpos, div_le_iff₀ hpos]
  have e2 : homMat a i j - sq4 a * R i j = (homMat a i j - homMat b i j) - (sq4 a - sq4 b) * R i j := by
    rw [hb i j]; ring
  rw [e2]
  have h3 : |(sq4 a - sq4 b) * R i j| ≤ d * (2 * n + d) := by
    rw [abs_mul]
    calc |sq4 a - sq4 b| * |R i j| ≤ |sq4 a - sq4 b| * 1 := mul_le_mul_of_nonneg_left (hR i j) (abs_nonneg _)
      _ ≤ d * (2 * n + d) := by linarith
  have h4 := abs_sub (homMat a i j - homMat b i j) ((sq4 a - sq4 b) * R i j)
  have h5 : 2 * d * (2 * n + d) ≤ 2 * D * (2 + D) * sq4 a := by
    rw [← hn2]
    have : 2 * d * (2 * n + d) ≤ 2 * d * (2 + d) * n ^ 2 := by
      nlinarith [mul_nonneg hd0 (sub_nonneg.2 hn1), mul_nonneg hd0 hd0, sq_nonneg (n - 1),
        mul_nonneg (mul_nonneg hd0 hd0) (sub_nonneg.2 hn1)]
    have h6 : 2 * d * (2 + d) ≤ 2 * D * (2 + D) := by nlinarith
    nlinarith [sq_nonneg n]
  linarith

theorem rot_entry {R : Mat3} (h : IsRot3 R) (i j : Fin 3) : |R i j| ≤ 1 := by
  have h' := rotAll h
  obtain ⟨⟨a1, a2, a3, a4, a5, a6, a7, a8, a9, a10, a11, a12, a13⟩, b1, b2, b3, b4, b5, b6, b7, b8⟩ := h'
  have row : ∀ i, R i 0 ^ 2 + R i 1 ^ 2 + R i 2 ^ 2 = 1 := by
    intro i
    fin_cases i
    · exact b1
    · exact a4
    · exact a5
  have e := row i
  have s0 := sq_nonneg (R i 0)
  have s1 := sq_nonneg (R i 1)
  have s2 := sq_nonneg (R i 2)
  have key : R i j ^ 2 ≤ 1 := by
    fin_cases j
    · change R i 0 ^ 2 ≤ 1
      linarith
    · change R i 1 ^ 2 ≤ 1
      linarith
    · change R i 2 ^ 2 ≤ 1
      linarith
  exact abs_le_one_iff_mul_self_le_one.2 (by linarith)

/-- Nearby matrices have nearby linear forms. -/
theorem lin_close {l : Mat3 → Quat} (hl : LinForm l) {m R : Mat3} {e : ℝ} (he : 0 ≤ e) (h : ∀ i j, |m i j - R i j| ≤ e) :
    Real.sqrt (sq4 ((l m).sub (l R))) ≤ 4.6 * e := by
  have b : ∀ i j, -e ≤ m i j - R i j ∧ m i j - R i j ≤ e := fun i j => abs_le.1 (h i j)
  have q3 : ∀ u : ℝ, |u| ≤ 3 * e → u ^ 2 ≤ 9 * e ^ 2 := fun u hu => by
    have := abs_le.1 hu; nlinarith
  have q2 : ∀ u : ℝ, |u| ≤ 2 * e → u ^ 2 ≤ 4 * e ^ 2 := fun u hu => by
    have := abs_le.1 hu; nlinarith
  have a00 := b 0 0
  have a01 := b 0 1
  have a02 := b 0 2
  have a10 := b 1 0
  have a11 := b 1 1
  have a12 := b 1 2
  have a20 := b 2 0
  have a21 := b 2 1
  have a22 := b 2 2
  apply Real.sqrt_le_iff.2
  refine ⟨by positivity, ?_⟩
  have fin : ∀ p q r s : ℝ, |p| ≤ 3 * e → |q| ≤ 2 * e → |r| ≤ 2 * e → |s| ≤ 2 * e → p ^ 2 + q ^ 2 + r ^ 2 + s ^ 2 ≤ (4.6 * e) ^ 2 :=
    fun p q r s hp hq hr hs => by
      have := q3 p hp
      have := q2 q hq
      have := q2 r hr
      have := q2 s hs
      nlinarith [sq_nonneg e]
  unfold sq4 Quat.sub
  cases hl with
  | trace =>
    refine fin _ _ _ _ ?_ ?_ ?_ ?_ <;> apply abs_le.2 <;> constructor <;> linarith
  | x =>
    dsimp only
    rw [add_comm ((m 2 1 - m 1 2 - (R 2 1 - R 1 2)) ^ 2)]
    refine fin _ _ _ _ ?_ ?_ ?_ ?_ <;> apply abs_le.2 <;> constructor <;> linarith
  | y =>
    dsimp only
    rw [add_comm ((m 0 2 - m 2 0 - (R 0 2 - R 2 0)) ^ 2 + _) ((m 1 1 - m 2 2 - m 0 0 + 1 - _) ^ 2), ← add_assoc]
    refine fin _ _ _ _ ?_ ?_ ?_ ?_ <;> apply abs_le.2 <;> constructor <;> linarith
  | z =>
    dsimp only
    rw [add_comm, ← add_assoc, ← add_assoc]
    refine fin _ _ _ _ ?_ ?_ ?_ ?_ <;> apply abs_le.2 <;> constructor <;> linarith

/-! ### C71 -/

/-- The rotation part after `NormalizeRotation`, for every matrix. -/
theorem normal_rot (m : Mat3) : IsRot3 (quatOfMat m).normalize.toMat := by
  obtain ⟨l, _, h1, c, hc, e⟩ := quatOfMat_lin m
  apply Quat.toMat_rot
  apply Quat.normalize_isUnit
  show 0 < sq4 (quatOfMat m)
  rw [e, sq4_scale]
  positivity

theorem normal_lin (m : Mat3) : ∃ l, LinForm l ∧ 1 ≤ sq4 (l m) ∧
    ∀ i j, (quatOfMat m).normalize.toMat i j = homMat (l m) i j / sq4 (l m) := by
  obtain ⟨l, hl, h1, c, hc, e⟩ := quatOfMat_lin m
  refine ⟨l, hl, h1, fun i j => ?_⟩
  have hp : 0 < sq4 ((l m).scale c) := by rw [sq4_scale]; positivity
  rw [e, normalize_toMat hp, homMat_scale, sq4_scale, mul_div_mul_left _ _ (by positivity)]

theorem normal_close {m R : Mat3} (hR : IsRot3 R) {e : ℝ} (h : ∀ i j, |m i j - R i j| ≤ e) (i j : Fin 3) :
    |(quatOfMat m).normalize.toMat i j - R i j| ≤ 24 * e := by
  have he : 0 ≤ e := le_trans (abs_nonneg _) (h 0 0)
  by_cases hs : 1 / 12 ≤ e
  · have h1 := abs_le.1 (rot_entry hR i j)
    have h2 := abs_le.1 (rot_entry (normal_rot m) i j)
    apply abs_le.2
    constructor <;> linarith
  · push Not at hs
    obtain ⟨l, hl, h1, hq⟩ := normal_lin m
    rw [hq i j]
    have := near_rot h1 (rot_entry hR) (lin_rot hR hl) (lin_close hl he h) i j
    nlinarith

theorem normal_same {R : Mat3} (hR : IsRot3 R) : (quatOfMat R).normalize.toMat = R := by
  ext i j
  have h := normal_close hR (m := R) (e := 0) (fun i j => by simp) i j
  rw [mul_zero] at h
  exact sub_eq_zero.1 (abs_nonpos_iff.1 h)


theorem rotBlock_eq (t : Pose4) : rotBlock t = !![t 0 0, t 0 1, t 0 2; t 1 0, t 1 1, t 1 2; t 2 0, t 2 1, t 2 2] := by
  apply mat3_ext <;> rfl

theorem rotBlock_set (t : Pose4) (r : Mat3) : rotBlock (setRotBlock t r) = r := by
  ext i j
  unfold rotBlock setRotBlock
  rw [dif_pos ⟨i.isLt, j.isLt⟩]
  rfl

theorem setRotBlock_last (t : Pose4) (r : Mat3) (j : Fin 4) : setRotBlock t r 3 j = t 3 j := by
  unfold setRotBlock
  rw [dif_neg (by simp)]

theorem setRotBlock_trans (t : Pose4) (r : Mat3) (i : Fin 4) : setRotBlock t r i 3 = t i 3 := by
  unfold setRotBlock
  rw [dif_neg (by simp)]

theorem normalizeRotation_rigid {t : Pose4} (h : Homogeneous t) : RigidMotion (normalizeRotation t) := by
  refine ⟨?_, ?_⟩
  · unfold normalizeRotation Homogeneous
    rw [setRotBlock_last, setRotBlock_last, setRotBlock_last, setRotBlock_last]
    exact h
  · rw [← rotBlock_eq]
    unfold normalizeRotation
    rw [rotBlock_set]
    exact normal_rot _

theorem normalizeRotation_close {t R : Pose4} (hR : RigidMotion R) {e : ℝ} (h : ∀ i j, |t i j - R i j| ≤ e) (i j : Fin 4) :
    |normalizeRotation t i j - R i j| ≤ 24 * e := by
  have he : 0 ≤ e := le_trans (abs_nonneg _) (h 0 0)
  unfold normalizeRotation
  by_cases hb : i.val < 3 ∧ j.val < 3
  · have e1 : setRotBlock t (quatOfMat (rotBlock t)).normalize.toMat i j =
        (quatOfMat (rotBlock t)).normalize.toMat ⟨i.val, hb.1⟩ ⟨j.val, hb.2⟩ := by
      unfold setRotBlock
      rw [dif_pos hb]
    have e2 : R i j = rotBlock R ⟨i.val, hb.1⟩ ⟨j.val, hb.2⟩ := rfl
    rw [e1, e2]
    apply normal_close
    · rw [rotBlock_eq]
      exact hR.2
    · intro a b
      exact h a.castSucc b.castSucc
  · have e1 : setRotBlock t (quatOfMat (rotBlock t)).normalize.toMat i j = t i j := by
      unfold setRotBlock
      rw [dif_neg hb]
    rw [e1]
    linarith [h i j]

/-- The poses after a list of calls. -/
theorem poses_last (cs : List PoseCall) (f : FramePoses) :
    (cs.foldl FramePoses.call f).global =
      (if (cs.any setsGlobal) then normalizeRotation (lastGlobal cs) else f.global) ∧
    (cs.foldl FramePoses.call f).loc =
      (if (cs.any setsLocal) then normalizeRotation (lastLocal cs) else f.loc) := by
  induction cs generalizing f with
  | nil => simp
  | cons c cs ih =>
    obtain ⟨h1, h2⟩ := ih (f.call c)
    rw [List.foldl_cons, h1, h2]
    cases c with
    | setGlobal t =>
      simp only [List.any_cons, Bool.true_or, if_true, lastGlobal, lastLocal, Bool.false_or, FramePoses.call, setsGlobal, setsLocal]
      refine ⟨?_, trivial⟩
      split <;> rename_i hh <;> simp only [hh, if_true] <;> rfl
    | setLocal t =>
      simp only [List.any_cons, Bool.true_or, if_true, lastGlobal, lastLocal, Bool.false_or, FramePoses.call, setsGlobal, setsLocal]
      refine ⟨trivial, ?_⟩
      split <;> rename_i hh <;> simp only [hh, if_true] <;> rfl

theorem rigid_one : RigidMotion 1 := by
  refine ⟨by simp [Homogeneous], ?_⟩
  rw [← rotBlock_eq]
  have : rotBlock 1 = 1 := by
    ext i j
    unfold rotBlock
    simp [Matrix.one_apply]
  rw [this]
  exact ⟨by simp, by simp⟩

theorem normalizeRotation_same {R : Pose4} (h : RigidMotion R) : normalizeRotation R = R := by
  ext i j
  have h := normalizeRotation_close h (t := R) (e := 0) (fun i j => by simp) i j
  rw [mul_zero] at h
  exact sub_eq_zero.1 (abs_nonpos_iff.1 h)

/-- Whatever was set, the pose is the normalised last one; the identity of a new frame is one of them. -/
theorem poses_normal (cs : List PoseCall) :
    (cs.foldl FramePoses.call .new).global = normalizeRotation (lastGlobal cs) ∧
    (cs.foldl FramePoses.call .new).loc = normalizeRotation (lastLocal cs) := by
  have g : ∀ cs : List PoseCall, (cs.any setsGlobal) = false → lastGlobal cs = 1 := by
    intro cs h
    induction cs with
    | nil => rfl
    | cons c cs ih =>
      cases c with
      | setGlobal t => simp [setsGlobal] at h
      | setLocal t => exact ih (by simpa [setsGlobal] using h)
  have l : ∀ cs : List PoseCall, (cs.any setsLocal) = false → lastLocal cs = 1 := by
    intro cs h
    induction cs with
    | nil => rfl
    | cons c cs ih =>
      cases c with
      | setLocal t => simp [setsLocal] at h
      | setGlobal t => exact ih (by simpa [setsLocal] using h)
  obtain ⟨h1, h2⟩ := poses_last cs .new
  rw [h1, h2]
  refine ⟨?_, ?_⟩
  · split
    · rfl
    · rename_i h
      rw [g cs (by simpa using h), normalizeRotation_same rigid_one]
      rfl
  · split
    · rfl
    · rename_i h
      rw [l cs (by simpa using h), normalizeRotation_same rigid_one]
      rfl

theorem last_homogeneous {cs : List PoseCall} (h : ∀ c ∈ cs, Homogeneous (givenPose c)) :
    Homogeneous (lastGlobal cs) ∧ Homogeneous (lastLocal cs) := by
  induction cs with
  | nil => exact ⟨rigid_one.1, rigid_one.1⟩
  | cons c cs ih =>
    have ih' := ih fun c hc => h c (List.mem_cons_of_mem _ hc)
    have hc := h c List.mem_cons_self
    cases c with
    | setGlobal t =>
      refine ⟨?_, ih'.2⟩
      unfold lastGlobal
      split
      · exact ih'.1
      · exact hc
    | setLocal t =>
      refine ⟨ih'.1, ?_⟩
      unfold lastLocal
      split
      · exact ih'.2
      · exact hc

/-- **C71 (rigid).** After any calls of the pose setters with homogeneous matrices — rotations or not — both
poses are rigid motions, and their shifts are those of the last matrices given. -/
theorem C71_rigid (cs : List PoseCall) (h : ∀ c ∈ cs, Homogeneous (givenPose c)) :
    let f := cs.foldl FramePoses.call .new
    RigidMotion f.global ∧ RigidMotion f.loc ∧ (∀ i, f.global i 3 = lastGlobal cs i 3) ∧
    (∀ i, f.loc i 3 = lastLocal cs i 3) := by
  dsimp only
  obtain ⟨h1, h2⟩ := poses_normal cs
  rw [h1, h2]
  obtain ⟨h3, h4⟩ := last_homogeneous h
  exact ⟨normalizeRotation_rigid h3, normalizeRotation_rigid h4, fun i => setRotBlock_trans _ _ i,
    fun i => setRotBlock_trans _ _ i⟩

/-- **C71 (close).** If the last matrix given is within `e` of a rigid motion in every entry, the pose is
within `24 e` of it; in particular a rigid motion is returned as it was given. -/
theorem C71_close (cs : List PoseCall) {R : Pose4} (hR : RigidMotion R) {e : ℝ} :
    let f := cs.foldl FramePoses.call .new
    ((∀ i j, |lastGlobal cs i j - R i j| ≤ e) → ∀ i j, |f.global i j - R i j| ≤ 24 * e) ∧
    ((∀ i j, |lastLocal cs i j - R i j| ≤ e) → ∀ i j, |f.loc i j - R i j| ≤ 24 * e) ∧
    (lastGlobal cs = R → f.global = R) ∧ (lastLocal cs = R → f.loc = R) := by
  dsimp only
  obtain ⟨h1, h2⟩ := poses_normal cs
  rw [h1, h2]
  refine ⟨fun h => normalizeRotation_close hR h, fun h => normalizeRotation_close hR h, ?_, ?_⟩
  · rintro rfl
    exact normalizeRotation_same hR
  · rintro rfl
    exact normalizeRotation_same hR

/-- Non-vacuity: a matrix that is no rotation — even the zero matrix in the upper left part — is homogeneous. -/
example : Homogeneous !![0, 0, 0, 5; 0, 0, 0, 6; 0, 0, 0, 7; 0, 0, 0, 1] ∧
    ¬ RigidMotion !![0, 0, 0, 5; 0, 0, 0, 6; 0, 0, 0, 7; 0, 0, 0, 1] := by
  refine ⟨by simp [Homogeneous], fun h => ?_⟩
  have := h.2.2
  simp [Matrix.det_fin_three] at this

/-- Non-vacuity: a half turn about the `z` axis is a rigid motion; its trace is negative. -/
example : RigidMotion !![-1, 0, 0, 5; 0, -1, 0, 6; 0, 0, 1, 7; 0, 0, 0, 1] := by
  refine ⟨by simp [Homogeneous], ?_, ?_⟩
  · apply mat3_ext <;> simp [Matrix.mul_apply, Fin.sum_univ_three]
  · simp [Matrix.det_fin_three]

end Verif
