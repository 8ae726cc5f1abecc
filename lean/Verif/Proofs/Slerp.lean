import Verif.Model.Slerp
import Verif.Spec.Slerp
import Verif.Props.PoseNormal
/-! Lemmas for C95. -/
namespace Verif
open Spec

theorem quatOfMat_unit {R : Mat3} (h : IsRot3 R) : (quatOfMat R).IsUnit := by
  obtain ⟨⟨a1, a2, a3, a4, a5, a6, a7, a8, a9, a10, a11, a12, a13⟩, b1, b2, b3, b4, b5, b6, b7, b8⟩ := rotAll h
  have key : ∀ s p q r : ℝ, 0 < s → s ^ 4 + p ^ 2 + q ^ 2 + r ^ 2 = 4 * s ^ 2 →
      (1 / 2 * s) ^ 2 + (p * (1 / 2 / s)) ^ 2 + (q * (1 / 2 / s)) ^ 2 + (r * (1 / 2 / s)) ^ 2 = 1 := by
    intro s p q r hs e
    have hs' : s ≠ 0 := hs.ne'
    field_simp
    linarith
  have hf := quatOfMat_form R
  generalize quatOfMat R = q at hf ⊢
  unfold Quat.IsUnit
  cases hf with
  | trace s hs h h1 =>
    have := key s (R 2 1 - R 1 2) (R 0 2 - R 2 0) (R 1 0 - R 0 1) hs (by
      have : s ^ 4 = (s ^ 2) ^ 2 := by ring
      rw [this, h]; linarith)
    dsimp only; linarith
  | x s hs h h1 =>
    have := key s (R 2 1 - R 1 2) (R 1 0 + R 0 1) (R 2 0 + R 0 2) hs (by
      have : s ^ 4 = (s ^ 2) ^ 2 := by ring
      rw [this, h]; linarith)
    dsimp only; linarith
  | y s hs h h1 =>
    have := key s (R 0 2 - R 2 0) (R 0 1 + R 1 0) (R 2 1 + R 1 2) hs (by
      have : s ^ 4 = (s ^ 2) ^ 2 := by ring
      rw [this, h]; linarith)
    dsimp only; linarith
  | z s hs h h1 =>
    have := key s (R 1 0 - R 0 1) (R 0 2 + R 2 0) (R 1 2 + R 2 1) hs (by
      have : s ^ 4 = (s ^ 2) ^ 2 := by ring
      rw [this, h]; linarith)
    dsimp only; linarith

theorem quatOfMat_toMat {R : Mat3} (h : IsRot3 R) : (quatOfMat R).toMat = R := by
  have := normal_same h
  rwa [Quat.normalize_unit (quatOfMat_unit h)] at this

theorem toMat_trace {a b : Quat} (ha : a.IsUnit) (hb : b.IsUnit) :
    (a.toMat.transpose * b.toMat).trace = 4 * (a.dot b) ^ 2 - 1 := by
  have e : (a.toMat.transpose * b.toMat).trace = 4 * (a.dot b) ^ 2 -
      (a.w ^ 2 + a.x ^ 2 + a.y ^ 2 + a.z ^ 2) * (b.w ^ 2 + b.x ^ 2 + b.y ^ 2 + b.z ^ 2) := by
    rw [Quat.toMat_hom ha, Quat.toMat_hom hb]
    simp [Matrix.trace, Matrix.mul_apply, Fin.sum_univ_three, Quat.dot]
    ring
  unfold Quat.IsUnit at ha hb
  rw [e, ha, hb]
  ring

/-- The dot product of the two quaternions and the angle. -/
theorem dot_angle {A B : Mat3} (hA : IsRot3 A) (hB : IsRot3 B) {θ : ℝ} (h : TurnAngle A B θ) :
    |(quatOfMat A).dot (quatOfMat B)| = Real.cos (θ / 2) := by
  have h1 := toMat_trace (quatOfMat_unit hA) (quatOfMat_unit hB)
  rw [quatOfMat_toMat hA, quatOfMat_toMat hB, h.2.2] at h1
  have h2 := Real.cos_sq (θ / 2)
  rw [show 2 * (θ / 2) = θ by ring] at h2
  have h3 : 0 ≤ Real.cos (θ / 2) := Real.cos_nonneg_of_mem_Icc ⟨by linarith [h.1, Real.pi_pos], by linarith [h.2.1]⟩
  rw [← abs_of_nonneg h3]
  apply (sq_eq_sq_iff_abs_eq_abs _ _).1
  linarith

theorem turnAngle_exists {A B : Mat3} (hA : IsRot3 A) (hB : IsRot3 B) : ∃ θ, TurnAngle A B θ := by
  have h1 := toMat_trace (quatOfMat_unit hA) (quatOfMat_unit hB)
  rw [quatOfMat_toMat hA, quatOfMat_toMat hB] at h1
  set d := (quatOfMat A).dot (quatOfMat B) with hd
  have hc : |d| ≤ 1 * 1 := cs4 (p1 := (quatOfMat A).w) (p2 := (quatOfMat A).x) (p3 := (quatOfMat A).y) (p4 := (quatOfMat A).z)
    (by norm_num) (by norm_num) (by rw [one_pow]; exact quatOfMat_unit hA) (by rw [one_pow]; exact quatOfMat_unit hB)
  have hd2 : d ^ 2 ≤ 1 := by
    have := abs_le.1 hc
    nlinarith
  refine ⟨Real.arccos (2 * d ^ 2 - 1), Real.arccos_nonneg _, Real.arccos_le_pi _, ?_⟩
  rw [h1, Real.cos_arccos (by nlinarith [sq_nonneg d]) (by linarith)]
  ring

/-- The mix of two quaternions. -/
def Quat.mix (k0 k1 : ℝ) (a b : Quat) : Quat :=
  ⟨k0 * a.w + k1 * b.w, k0 * a.x + k1 * b.x, k0 * a.y + k1 * b.y, k0 * a.z + k1 * b.z⟩

def Quat.neg (a : Quat) : Quat := ⟨-a.w, -a.x, -a.y, -a.z⟩

theorem Quat.neg_toMat (a : Quat) : a.neg.toMat = a.toMat := by
  apply mat3_ext <;> simp [Quat.toMat, Quat.neg]

theorem Quat.neg_unit {a : Quat} (h : a.IsUnit) : a.neg.IsUnit := by
  unfold Quat.IsUnit Quat.neg at *
  simpa using h

/-- The second quaternion can be given the sign that makes the dot product nonnegative. -/
theorem slerp_mix (eps : ℝ) (a b : Quat) (t : ℝ) (hb : b.IsUnit) : ∃ c : Quat, c.IsUnit ∧ c.toMat = b.toMat ∧
    a.dot c = |a.dot b| ∧ eigenSlerp eps a b t = Quat.mix (slerpScale0 eps |a.dot b| t) (slerpScale1 eps |a.dot b| t) a c := by
  unfold eigenSlerp
  dsimp only
  by_cases hd : a.dot b < 0
  · refine ⟨b.neg, Quat.neg_unit hb, b.neg_toMat, ?_, ?_⟩
    · rw [abs_of_neg hd]
      unfold Quat.dot Quat.neg
      ring
    · rw [if_pos hd]
      unfold Quat.mix Quat.neg
      dsimp only
      simp only [neg_mul, mul_neg]
  · refine ⟨b, hb, rfl, (abs_of_nonneg (not_lt.1 hd)).symm, ?_⟩
    rw [if_neg hd]
    rfl

theorem mix_unit {a c : Quat} (ha : a.IsUnit) (hc : c.IsUnit) (k0 k1 : ℝ) :
    sq4 (Quat.mix k0 k1 a c) = k0 ^ 2 + k1 ^ 2 + 2 * k0 * k1 * a.dot c := by
  unfold Quat.IsUnit at ha hc
  unfold sq4 Quat.mix Quat.dot
  linear_combination k0 ^ 2 * ha + k1 ^ 2 * hc

theorem mix_dot_left {a c : Quat} (ha : a.IsUnit) (k0 k1 : ℝ) : a.dot (Quat.mix k0 k1 a c) = k0 + k1 * a.dot c := by
  unfold Quat.IsUnit at ha
  unfold Quat.mix Quat.dot
  linear_combination k0 * ha

theorem mix_dot_right {a c : Quat} (hc : c.IsUnit) (k0 k1 : ℝ) : (Quat.mix k0 k1 a c).dot c = k0 * a.dot c + k1 := by
  unfold Quat.IsUnit at hc
  unfold Quat.mix Quat.dot
  linear_combination k1 * hc

theorem sin_sum_sq (u v : ℝ) : Real.sin u ^ 2 + Real.sin v ^ 2 + 2 * Real.sin u * Real.sin v * Real.cos (u + v) = Real.sin (u + v) ^ 2 := by
  rw [Real.cos_add, Real.sin_add]
  have hu := Real.sin_sq_add_cos_sq u
  have hv := Real.sin_sq_add_cos_sq v
  linear_combination (-(Real.sin v) ^ 2) * hu - (Real.sin u) ^ 2 * hv

/-- The far case: a rotation at constant speed. -/
theorem slerp_far {eps θ : ℝ} (he : 0 ≤ eps) {A B : Mat3} (hA : IsRot3 A) (hB : IsRot3 B) (h : TurnAngle A B θ)
    (hf : Real.cos (θ / 2) < 1 - eps) {t : ℝ} (h0 : 0 ≤ t) (h1 : t ≤ 1) :
    IsRot3 (slerpMat eps A B t) ∧ TurnAngle A (slerpMat eps A B t) (t * θ) ∧
      TurnAngle (slerpMat eps A B t) B ((1 - t) * θ) := by
  have hd := dot_angle hA hB h
  have hua := quatOfMat_unit hA
  have hub := quatOfMat_unit hB
  have ea := quatOfMat_toMat hA
  have eb := quatOfMat_toMat hB
  unfold slerpMat
  generalize quatOfMat A = a at *
  generalize quatOfMat B = b at *
  obtain ⟨c, huc, ec, edc, es⟩ := slerp_mix eps a b t hub
  rw [es]
  rw [hd] at edc ⊢
  rw [eb] at ec
  have hpos : 0 < θ / 2 := by
    rcases lt_or_eq_of_le h.1 with hp | hp
    · linarith
    · rw [← hp] at hf
      norm_num at hf
      linarith
  have hle : θ / 2 ≤ Real.pi / 2 := by linarith [h.2.1]
  have hac : Real.arccos (Real.cos (θ / 2)) = θ / 2 := Real.arccos_cos hpos.le (by linarith [Real.pi_pos])
  have hs : 0 < Real.sin (θ / 2) := Real.sin_pos_of_pos_of_lt_pi hpos (by linarith [Real.pi_pos])
  have hs' : Real.sin (θ / 2) ≠ 0 := hs.ne'
  unfold slerpScale0 slerpScale1
  rw [if_neg (not_le.2 hf), if_neg (not_le.2 hf), hac]
  set φ := θ / 2 with hφ
  set u := (1 - t) * φ with hu
  set v := t * φ with hv
  have huv : φ = u + v := by rw [hu, hv]; ring
  set s := Quat.mix (Real.sin u / Real.sin φ) (Real.sin v / Real.sin φ) a c with hsdef
  have hus : s.IsUnit := by
    show sq4 s = 1
    rw [hsdef, mix_unit hua huc, edc]
    have := sin_sum_sq u v
    rw [← huv] at this
    field_simp
    linarith
  have hl : a.dot s = Real.cos v := by
    rw [hsdef, mix_dot_left hua, edc]
    have : Real.sin u = Real.sin φ * Real.cos v - Real.cos φ * Real.sin v := by
      rw [← Real.sin_sub, huv]; ring_nf
    field_simp
    rw [this]; ring
  have hr : s.dot c = Real.cos u := by
    rw [hsdef, mix_dot_right huc, edc]
    have : Real.sin v = Real.sin φ * Real.cos u - Real.cos φ * Real.sin u := by
      rw [← Real.sin_sub, huv]; ring_nf
    field_simp
    rw [this]; ring
  refine ⟨Quat.toMat_rot hus, ⟨by nlinarith [h.1], by nlinarith [h.1, h.2.1], ?_⟩, ⟨by nlinarith [h.1], by nlinarith [h.1, h.2.1], ?_⟩⟩
  · rw [← ea, toMat_trace hua hus, hl]
    have := Real.cos_sq v
    rw [show 2 * v = t * θ by rw [hv, hφ]; ring] at this
    linarith
  · rw [← ec, toMat_trace hus huc, hr]
    have := Real.cos_sq u
    rw [show 2 * u = (1 - t) * θ by rw [hu, hφ]; ring] at this
    linarith

/-- The matrix of a quaternion is a quadratic function of it. -/
theorem toMat_mix (t : ℝ) (a c : Quat) (i j : Fin 3) :
    (Quat.mix (1 - t) t a c).toMat i j - ((1 - t) * a.toMat i j + t * c.toMat i j) =
      -(t * (1 - t)) * ((a.sub c).toMat i j - (1 : Mat3) i j) := by
  unfold Quat.mix Quat.toMat Quat.sub
  fin_cases i <;> fin_cases j <;> simp <;> ring

theorem toMat_one_le (q : Quat) (i j : Fin 3) : |q.toMat i j - (1 : Mat3) i j| ≤ 2 * sq4 q := by
  unfold Quat.toMat sq4
  apply abs_le.2
  have := sq_nonneg q.w
  have := sq_nonneg q.x
  have := sq_nonneg q.y
  have := sq_nonneg q.z
  have := sq_nonneg (q.y + q.x)
  have := sq_nonneg (q.y - q.x)
  have := sq_nonneg (q.z + q.x)
  have := sq_nonneg (q.z - q.x)
  have := sq_nonneg (q.z + q.y)
  have := sq_nonneg (q.z - q.y)
  have := sq_nonneg (q.z + q.w)
  have := sq_nonneg (q.z - q.w)
  have := sq_nonneg (q.y + q.w)
  have := sq_nonneg (q.y - q.w)
  have := sq_nonneg (q.x + q.w)
  have := sq_nonneg (q.x - q.w)
  fin_cases i <;> fin_cases j <;> constructor <;> simp <;> nlinarith

theorem sub_sq4 {a c : Quat} (ha : a.IsUnit) (hc : c.IsUnit) : sq4 (a.sub c) = 2 - 2 * a.dot c := by
  unfold Quat.IsUnit at ha hc
  unfold sq4 Quat.sub Quat.dot
  linear_combination ha + hc

theorem quarter {t : ℝ} (h0 : 0 ≤ t) (h1 : t ≤ 1) : 0 ≤ t * (1 - t) ∧ t * (1 - t) ≤ 1 / 4 :=
  ⟨mul_nonneg h0 (by linarith), by nlinarith [sq_nonneg (t - 1 / 2)]⟩

/-- The near case: almost the straight mix, and almost a rotation. -/
theorem slerp_near {eps θ : ℝ} {A B : Mat3} (hA : IsRot3 A) (hB : IsRot3 B) (h : TurnAngle A B θ)
    (hn : 1 - eps ≤ Real.cos (θ / 2)) (he1 : eps < 1) {t : ℝ} (h0 : 0 ≤ t) (h1 : t ≤ 1) :
    (∀ i j, |slerpMat eps A B t i j - ((1 - t) * A i j + t * B i j)| ≤ eps) ∧
    ∃ Q, IsRot3 Q ∧ ∀ i j, |slerpMat eps A B t i j - Q i j| ≤ eps := by
  have hd := dot_angle hA hB h
  have hua := quatOfMat_unit hA
  have hub := quatOfMat_unit hB
  have ea := quatOfMat_toMat hA
  have eb := quatOfMat_toMat hB
  have hc1 := Real.cos_le_one (θ / 2)
  unfold slerpMat
  generalize quatOfMat A = a at *
  generalize quatOfMat B = b at *
  obtain ⟨c, huc, ec, edc, es⟩ := slerp_mix eps a b t hub
  rw [es]
  rw [hd] at edc ⊢
  rw [eb] at ec
  unfold slerpScale0 slerpScale1
  rw [if_pos hn, if_pos hn]
  obtain ⟨q0, q1⟩ := quarter h0 h1
  constructor
  · intro i j
    rw [← ea, ← ec, toMat_mix, abs_mul, abs_neg, abs_of_nonneg q0]
    have b1 := toMat_one_le (a.sub c) i j
    rw [sub_sq4 hua huc, edc] at b1
    have b0 := abs_nonneg ((a.sub c).toMat i j - (1 : Mat3) i j)
    nlinarith
  · set s := Quat.mix (1 - t) t a c with hs
    have hn2 : sq4 s = 1 - 2 * (t * (1 - t)) * (1 - Real.cos (θ / 2)) := by
      rw [hs, mix_unit hua huc, edc]; ring
    have hlow : 1 - eps / 2 ≤ sq4 s := by rw [hn2]; nlinarith
    have hhigh : sq4 s ≤ 1 := by rw [hn2]; nlinarith
    have hpos : 0 < sq4 s := by linarith
    have hQ : IsRot3 s.normalize.toMat := Quat.toMat_rot (Quat.normalize_isUnit hpos)
    refine ⟨s.normalize.toMat, hQ, fun i j => ?_⟩
    have e1 : s.toMat i j = homMat s i j + (1 - sq4 s) * (1 : Mat3) i j := by
      unfold Quat.toMat homMat sq4
      fin_cases i <;> fin_cases j <;> simp <;> ring
    have e2 := normalize_toMat hpos i j
    have e3 : homMat s i j = sq4 s * s.normalize.toMat i j := by
      rw [e2]; field_simp
    rw [e1, e3]
    have e4 := abs_le.1 (rot_entry hQ i j)
    have e5 : |(1 : Mat3) i j| ≤ 1 := by
      rw [Matrix.one_apply]; split_ifs <;> simp
    have e6 := abs_le.1 e5
    apply abs_le.2
    constructor <;> nlinarith

theorem mix_left (a c : Quat) : Quat.mix 1 0 a c = a := by
  unfold Quat.mix
  simp

theorem mix_right (a c : Quat) : Quat.mix 0 1 a c = c := by
  unfold Quat.mix
  simp

theorem slerpScale_ends {eps d : ℝ} (he : 0 ≤ eps) (hd0 : 0 ≤ d) :
    slerpScale0 eps d 0 = 1 ∧ slerpScale1 eps d 0 = 0 ∧ slerpScale0 eps d 1 = 0 ∧ slerpScale1 eps d 1 = 1 := by
  unfold slerpScale0 slerpScale1
  by_cases h : d ≥ 1 - eps
  · simp [h]
  · simp only [h, if_false]
    push Not at h
    have hs : Real.sin (Real.arccos d) ≠ 0 := by
      rw [Real.sin_arccos]
      apply (Real.sqrt_pos.2 _).ne'
      nlinarith
    norm_num
    exact hs

theorem slerp_ends {eps : ℝ} (he : 0 ≤ eps) {A B : Mat3} (hA : IsRot3 A) (hB : IsRot3 B) :
    slerpMat eps A B 0 = A ∧ slerpMat eps A B 1 = B := by
  have hub := quatOfMat_unit hB
  have ea := quatOfMat_toMat hA
  have eb := quatOfMat_toMat hB
  unfold slerpMat
  generalize quatOfMat A = a at *
  generalize quatOfMat B = b at *
  obtain ⟨s1, s2, s3, s4⟩ := slerpScale_ends he (abs_nonneg (a.dot b))
  constructor
  · obtain ⟨c, huc, ec, edc, es⟩ := slerp_mix eps a b 0 hub
    rw [es, s1, s2, mix_left, ea]
  · obtain ⟨c, huc, ec, edc, es⟩ := slerp_mix eps a b 1 hub
    rw [es, s3, s4, mix_right, ec, eb]

end Verif
