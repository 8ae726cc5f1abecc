import Verif.Proofs.MotionFilter
import Verif.Model.Floats
import Mathlib.Analysis.Real.Pi.Bounds
/-! C124: key frames are as dense as configured. -/
namespace Verif
open Spec

/-- What a round does: the new pose is the newest key frame's times the result, and it becomes a key
frame exactly under the condition. -/
theorem keyRounds_get (single : ℝ → ℝ) (o : MotionOptions) (rounds : List (RTransform × ℝ)) :
    ∀ (t : RTransform) (i : Nat) (P : RTransform) (k : Bool), IsRot3 t.rot → (∀ r ∈ rounds, IsRot3 r.1.rot) →
      (keyRounds single o t rounds)[i]? = some (P, k) →
      ∃ r K, rounds[i]? = some r ∧
        K = ((((keyRounds single o t rounds).take i).filter (·.2)).map (·.1)).getLast?.getD t ∧
        IsRot3 K.rot ∧ P = K.mul r.1 ∧ (k = true ↔ keyCondition single o r.2 r.1) := by
  induction rounds with
  | nil => intro t i P k _ _ h; simp [keyRounds] at h
  | cons r rest ih =>
    intro t i P k ht hr h
    obtain ⟨a, el⟩ := r
    have ha : IsRot3 a.rot := hr _ (List.mem_cons_self ..)
    have hr' : ∀ r ∈ rest, IsRot3 r.1.rot := fun r hm => hr r (List.mem_cons_of_mem _ hm)
    have hs : IsRot3 (t.mul a).rot := isRot3_comp ht ha
    have last : ∀ (l : List RTransform) (x y : RTransform), (x :: l).getLast?.getD y = l.getLast?.getD x := by
      intro l x y
      cases l with
      | nil => rfl
      | cons b l => rw [List.getLast?_cons_cons]; simp [List.getLast?_cons]
    cases i with
    | zero =>
      refine ⟨(a, el), t, rfl, by simp, ht, ?_⟩
      by_cases c : keyCondition single o el a
      · simp only [keyRounds, c, if_true, List.getElem?_cons_zero, Option.some.injEq, Prod.mk.injEq] at h
        exact ⟨h.1.symm, by rw [← h.2]; simpa using c⟩
      · simp only [keyRounds, c, if_false, List.getElem?_cons_zero, Option.some.injEq, Prod.mk.injEq] at h
        exact ⟨h.1.symm, by rw [← h.2]; simpa using c⟩
    | succ i =>
      by_cases c : keyCondition single o el a
      · simp only [keyRounds, c, if_true, List.getElem?_cons_succ] at h
        obtain ⟨r, K, h1, h2, h3⟩ := ih _ i P k hs hr' h
        refine ⟨r, K, by simpa using h1, ?_, h3⟩
        rw [h2]
        simp only [keyRounds, c, if_true, List.take_succ_cons, List.filter_cons, List.map_cons]
        rw [last]
      · simp only [keyRounds, c, if_false, List.getElem?_cons_succ] at h
        obtain ⟨r, K, h1, h2, h3⟩ := ih _ i P k ht hr' h
        refine ⟨r, K, by simpa using h1, ?_, h3⟩
        rw [h2]
        simp only [keyRounds, c, if_false, List.take_succ_cons, List.filter_cons, List.map_cons]
        simp

variable {single : ℝ → ℝ} {o : MotionOptions} {rounds : List (RTransform × ℝ)} {i : Nat} {P : RTransform}

/-- C124: a cloud that has moved by the configured distance since the newest key frame, or turned by the
configured angle (above a thousandth of a degree and up to 89 degrees), becomes a key frame; rounding to
`float` never loses one. -/
theorem C124_dense {k : Bool} (hs : Narrowing single)
    (ht : single o.translationRange = o.translationRange) (ha : single o.angleRange = o.angleRange)
    (hr : ∀ r ∈ rounds, IsRot3 r.1.rot)
    (h : (keyRounds single o ⟨1, 0⟩ rounds)[i]? = some (P, k)) :
    let K := latestKey ((keyRounds single o ⟨1, 0⟩ rounds).take i)
    (o.translationRange ≤ apart K P → k = true) ∧
    (angleOff < o.angleRange → o.angleRange ≤ 89 → o.angleRange ≤ turned K P → k = true) := by
  obtain ⟨r, K, hr1, hK, rK, hP, hk⟩ := keyRounds_get single o rounds ⟨1, 0⟩ i P k isRot3_one hr h
  have hK' : latestKey ((keyRounds single o ⟨1, 0⟩ rounds).take i) = K := hK.symm
  have hA : IsRot3 r.1.rot := hr r (List.mem_of_getElem? hr1)
  dsimp only
  rw [hK', hP, apart_mul rK, turned_mul rK, hk]
  refine ⟨fun hd => Or.inl ?_, fun h0 h1 h2 => Or.inr ⟨h0, ?_⟩⟩
  · rw [← ht]; exact hs.mono _ _ hd
  · rw [← ha]
    refine hs.mono _ _ ?_
    have hp := Real.pi_pos
    have hq : 0 < 180 / Real.pi := by positivity
    rcases turn_found hA with hf | hf
    · exact le_trans h2 (mul_le_mul_of_nonneg_right hf hq.le)
    · have := mul_le_mul_of_nonneg_right hf hq.le
      have e : 89 * (Real.pi / 180) * (180 / Real.pi) = 89 := by field_simp
      rw [e] at this
      linarith

/-- C124: so every cloud between key frames is nearer to the newest one than the configured distance, and
turned by less than the configured angle. -/
theorem C124_between (hs : Narrowing single)
    (ht : single o.translationRange = o.translationRange) (ha : single o.angleRange = o.angleRange)
    (h0 : angleOff < o.angleRange) (h1 : o.angleRange ≤ 89) (hr : ∀ r ∈ rounds, IsRot3 r.1.rot)
    (h : (keyRounds single o ⟨1, 0⟩ rounds)[i]? = some (P, false)) :
    let K := latestKey ((keyRounds single o ⟨1, 0⟩ rounds).take i)
    apart K P < o.translationRange ∧ turned K P < o.angleRange := by
  obtain ⟨d, t⟩ := C124_dense hs ht ha hr h
  constructor
  · by_contra hn
    push Not at hn
    exact absurd (d hn) (by simp)
  · by_contra hn
    push Not at hn
    exact absurd (t h0 h1 hn) (by simp)

/-- C124, partial: a key frame has moved by the configured distance (less a share of 2^-24) or turned by a
third of the configured angle.  That it has turned by the whole angle is false: `C124_early_fails`. -/
theorem C124_spacing_partial (hs : Narrowing single) (h1 : o.angleRange ≤ 180)
    (hr : ∀ r ∈ rounds, IsRot3 r.1.rot)
    (h : (keyRounds single o ⟨1, 0⟩ rounds)[i]? = some (P, true)) :
    let K := latestKey ((keyRounds single o ⟨1, 0⟩ rounds).take i)
    o.translationRange ≤ (1 + 1 / 2 ^ 24) * apart K P ∨
    (angleOff < o.angleRange ∧ o.angleRange ≤ (1 + 1 / 2 ^ 24) * (3 * turned K P)) := by
  obtain ⟨r, K, hr1, hK, rK, hP, hk⟩ := keyRounds_get single o rounds ⟨1, 0⟩ i P true isRot3_one hr h
  have hK' : latestKey ((keyRounds single o ⟨1, 0⟩ rounds).take i) = K := hK.symm
  have hA : IsRot3 r.1.rot := hr r (List.mem_of_getElem? hr1)
  dsimp only
  rw [hK', hP, apart_mul rK, turned_mul rK]
  have up : ∀ x, 0 ≤ x → single x ≤ (1 + 1 / 2 ^ 24) * x := by
    intro x hx
    have := (abs_le.1 (hs.err x)).2
    rw [abs_of_nonneg hx] at this
    linarith
  rcases hk.1 rfl with hd | ⟨h0, hd⟩
  · exact Or.inl (le_trans hd (up _ (Real.sqrt_nonneg _)))
  · refine Or.inr ⟨h0, ?_⟩
    have hp := Real.pi_pos
    have hq : 0 < 180 / Real.pi := by positivity
    by_cases ht : turn r.1.rot < Real.pi / 3
    · refine le_trans (le_trans hd (up _ (by positivity))) ?_
      have := mul_le_mul_of_nonneg_right (euler_le_turn hA ht) hq.le
      have e : 3 * turn r.1.rot * (180 / Real.pi) = 3 * (turn r.1.rot * (180 / Real.pi)) := by ring
      rw [e] at this
      exact mul_le_mul_of_nonneg_left this (by positivity)
    · push Not at ht
      have := mul_le_mul_of_nonneg_right ht hq.le
      have e : Real.pi / 3 * (180 / Real.pi) = 60 := by field_simp; norm_num
      rw [e] at this
      have : (180 : ℝ) ≤ 3 * (turn r.1.rot * (180 / Real.pi)) := by linarith
      have z : (0 : ℝ) ≤ 1 / 2 ^ 24 * (3 * (turn r.1.rot * (180 / Real.pi))) := by
        apply mul_nonneg <;> linarith
      linarith

/-- A conversion that is exact. -/
theorem narrowing_id : Narrowing (fun x : ℝ => x) := by
  refine ⟨fun _ _ h => h, fun x => ?_⟩
  simp

/-- C124, the negation of a key frame only by the whole angle: with the default settings a cloud that has
not moved and has turned by less than the configured angle becomes a key frame, because
the three Euler angles are added up. -/
theorem C124_early_fails : ∃ (o : MotionOptions) (rounds : List (RTransform × ℝ)) (P : RTransform),
    o = {} ∧ (∀ r ∈ rounds, IsRot3 r.1.rot) ∧
    (keyRounds (fun x => x) o ⟨1, 0⟩ rounds)[0]? = some (P, true) ∧
    apart ⟨1, 0⟩ P = 0 ∧ turned ⟨1, 0⟩ P < o.angleRange := by
  have hp := Real.pi_pos
  have p3 := Real.pi_gt_three
  have p4 := Real.pi_lt_d2
  obtain ⟨a, ha⟩ : ∃ a : ℝ, a = 52 / 100 * (Real.pi / 180) := ⟨_, rfl⟩
  have a0 : 0 < a := by rw [ha]; positivity
  have a1 : a < 1 / 100 := by rw [ha]; norm_num at p4 ⊢; linarith
  obtain ⟨e, he⟩ : ∃ e : Euler, e = ⟨a, a, a⟩ := ⟨_, rfl⟩
  have rot : ∀ e : Euler, IsRot3 (fromEuler e) := by
    intro e
    rw [C63_meaning]
    have hz : IsRot3 (rotZ e.z) := by
      have := Real.sin_sq_add_cos_sq e.z
      constructor
      · ext i j; fin_cases i <;> fin_cases j <;> simp [rotZ, Matrix.mul_apply, Fin.sum_univ_succ] <;> nlinarith
      · rw [Matrix.det_fin_three]; simp [rotZ]; nlinarith
    have hy : IsRot3 (rotY e.y) := by
      have := Real.sin_sq_add_cos_sq e.y
      constructor
      · ext i j; fin_cases i <;> fin_cases j <;> simp [rotY, Matrix.mul_apply, Fin.sum_univ_succ] <;> nlinarith
      · rw [Matrix.det_fin_three]; simp [rotY]; nlinarith
    have hx : IsRot3 (rotX e.x) := by
      have := Real.sin_sq_add_cos_sq e.x
      constructor
      · ext i j; fin_cases i <;> fin_cases j <;> simp [rotX, Matrix.mul_apply, Fin.sum_univ_succ] <;> nlinarith
      · rw [Matrix.det_fin_three]; simp [rotX]; nlinarith
    exact isRot3_comp (isRot3_comp hz hy) hx
  have back : toEuler (fromEuler e) = e := by
    have c : 1 / 1000000 ≤ Real.cos e.y := by
      rw [he]
      have := Real.one_sub_sq_div_two_le_cos (x := a)
      dsimp only
      nlinarith
    rw [he] at c ⊢
    exact C63_angles _ ⟨by dsimp only; linarith, by dsimp only; linarith⟩
      ⟨by dsimp only; linarith, by dsimp only; linarith⟩ ⟨by dsimp only; linarith, by dsimp only; linarith⟩ c
  have key : keyCondition (fun x => x) ({} : MotionOptions) 0 ⟨fromEuler e, 0⟩ := by
    right
    constructor
    · show angleOff < 3 / 2
      unfold angleOff; norm_num
    · show (3 / 2 : ℝ) ≤ _
      dsimp only
      rw [back, he]
      dsimp only
      rw [abs_of_pos a0, ha]
      have : (52 / 100 * (Real.pi / 180) + 52 / 100 * (Real.pi / 180) + 52 / 100 * (Real.pi / 180)) * (180 / Real.pi) =
          156 / 100 := by field_simp; norm_num
      rw [this]; norm_num
  refine ⟨{}, [(⟨fromEuler e, 0⟩, 0)], (⟨1, 0⟩ : RTransform).mul ⟨fromEuler e, 0⟩, rfl, ?_, ?_, ?_, ?_⟩
  · intro r hr
    rw [List.mem_singleton] at hr
    rw [hr]; exact rot e
  · simp [keyRounds, key]
  · rw [apart_mul isRot3_one]
    simp [norm3d]
  · rw [turned_mul isRot3_one]
    show turn (fromEuler e) * (180 / Real.pi) < 3 / 2
    -- the cosine of the angle
    have tr := trace_small a a a (by
      have : Real.sqrt (a ^ 2 + a ^ 2 + a ^ 2) ≤ Real.sqrt ((1 / 50) ^ 2) := by
        apply Real.sqrt_le_sqrt; nlinarith
      rwa [Real.sqrt_sq (by norm_num)] at this)
    have tr' : 3 - (fromEuler e).trace ≤ 101 / 100 * (a ^ 2 + a ^ 2 + a ^ 2) := by
      rw [trace3, C63_meaning, rot_product, he]
      simpa using tr
    have c := cos_turn (rot e)
    have t0 : 0 ≤ turn (fromEuler e) := Real.arccos_nonneg _
    have tp : turn (fromEuler e) ≤ Real.pi := Real.arccos_le_pi _
    have hc := Real.cos_le_one_sub_mul_cos_sq (x := turn (fromEuler e)) (by rw [abs_of_nonneg t0]; exact tp)
    have sq : 2 / Real.pi ^ 2 * turn (fromEuler e) ^ 2 ≤ 101 / 200 * (3 * a ^ 2) := by
      rw [c] at hc; linarith
    have sq2 : turn (fromEuler e) ^ 2 ≤ (Real.pi * a * (871 / 1000)) ^ 2 := by
      have h2 : turn (fromEuler e) ^ 2 = Real.pi ^ 2 / 2 * (2 / Real.pi ^ 2 * turn (fromEuler e) ^ 2) := by
        field_simp
      rw [h2]
      have h3 := mul_le_mul_of_nonneg_left sq (by positivity : 0 ≤ Real.pi ^ 2 / 2)
      refine le_trans h3 ?_
      have : 0 ≤ Real.pi ^ 2 * a ^ 2 := by positivity
      nlinarith
    have h4 := abs_le_of_sq_le_sq sq2 (by positivity)
    rw [abs_of_nonneg t0] at h4
    have h5 := mul_le_mul_of_nonneg_right h4 (by positivity : 0 ≤ 180 / Real.pi)
    refine lt_of_le_of_lt h5 ?_
    have e6 : Real.pi * a * (871 / 1000) * (180 / Real.pi) = Real.pi * (52 / 100 * (871 / 1000)) := by
      rw [ha]; field_simp
    rw [e6]
    norm_num at p4 ⊢
    linarith

/-- C124: an angle of a thousandth of a degree or less switches turning off: a cloud that has turned right
round, without moving, is no key frame. -/
theorem C124_off_fails : ∃ (o : MotionOptions) (P : RTransform),
    0 < o.angleRange ∧ (keyRounds (fun x => x) o ⟨1, 0⟩ [(⟨rotZ Real.pi, 0⟩, 0)])[0]? = some (P, false) ∧
    turned ⟨1, 0⟩ P = 180 := by
  refine ⟨{ angleRange := 1 / 2048 }, (⟨1, 0⟩ : RTransform).mul ⟨rotZ Real.pi, 0⟩, by norm_num, ?_, ?_⟩
  · have : ¬ keyCondition (fun x => x) { angleRange := 1 / 2048 } 0 ⟨rotZ Real.pi, 0⟩ := by
      rintro (h | ⟨h, _⟩)
      · simp [norm3d] at h
        linarith
      · unfold angleOff at h
        norm_num at h
    simp only [keyRounds]
    rw [if_neg this]
    rfl
  · rw [turned_mul isRot3_one]
    have : turn (rotZ Real.pi) = Real.pi := by
      unfold turn
      rw [trace3]
      simp [rotZ]
      norm_num
    rw [this]
    field_simp

/-- C124: written as a thousandth in the settings it is still on: the nearest `float` is above the
nearest `double`. -/
theorem C124_edge : angleOff = ((toF64 (1 / 1000) : ℚ) : ℝ) ∧ angleOff < ((toF32 (1 / 1000) : ℚ) : ℝ) := by
  have h64 : toF64 (1 / 1000) = 1152921504606847 / 1152921504606846976 := by decide +kernel
  refine ⟨by rw [h64]; unfold angleOff; norm_num, ?_⟩
  have : toF32 (1 / 1000) = 8589935 / 2 ^ 33 := by decide +kernel
  rw [this]
  unfold angleOff
  norm_num

/-- C124: the configured time is never used: however long ago the newest key frame was, a cloud at the
same place is none. -/
theorem C124_time_fails (timeRange elapsed : ℝ) : ∃ P : RTransform,
    (keyRounds (fun x => x) { timeRange := timeRange } ⟨1, 0⟩ [(⟨1, 0⟩, elapsed)])[0]? = some (P, false) := by
  refine ⟨(⟨1, 0⟩ : RTransform).mul ⟨1, 0⟩, ?_⟩
  have : ¬ keyCondition (fun x => x) { timeRange := timeRange } elapsed ⟨1, 0⟩ := by
    have z : toEuler (1 : Mat3) = ⟨0, 0, 0⟩ := by
      have h : Real.sqrt ((1 : Mat3) 0 0 * (1 : Mat3) 0 0 + (1 : Mat3) 1 0 * (1 : Mat3) 1 0) = 1 := by simp
      have h0 : atan2 0 1 = 0 := by
        unfold atan2
        have : (⟨1, 0⟩ : ℂ) = 1 := rfl
        rw [this, Complex.arg_one]
      unfold toEuler
      dsimp only
      rw [h, if_neg (by norm_num)]
      simp [h0]
    rintro (h | ⟨_, h⟩)
    · simp [norm3d] at h
      linarith
    · dsimp only at h
      rw [z] at h
      simp at h
      linarith
  simp [keyRounds, this]

/-- The theorems are not empty: with the default settings, clouds 0.2 m apart: every second one is a key
frame. -/
example : ∃ P Q : RTransform,
    (keyRounds (fun x => x) {} ⟨1, 0⟩ [(⟨1, ![1 / 5, 0, 0]⟩, 0), (⟨1, ![2 / 5, 0, 0]⟩, 0)]) =
      [(P, false), (Q, true)] ∧ Q.trans 0 = 2 / 5 := by
  have z : toEuler (1 : Mat3) = ⟨0, 0, 0⟩ := by
    have h : Real.sqrt ((1 : Mat3) 0 0 * (1 : Mat3) 0 0 + (1 : Mat3) 1 0 * (1 : Mat3) 1 0) = 1 := by simp
    have h0 : atan2 0 1 = 0 := by
      unfold atan2
      have : (⟨1, 0⟩ : ℂ) = 1 := rfl
      rw [this, Complex.arg_one]
    unfold toEuler
    dsimp only
    rw [h, if_neg (by norm_num)]
    simp [h0]
  have n : ∀ x : ℝ, 0 ≤ x → norm3d ![x, 0, 0] = x := by
    intro x hx
    unfold norm3d
    simp [Real.sqrt_sq hx]
  have c1 : ¬ keyCondition (fun x => x) {} 0 ⟨1, ![1 / 5, 0, 0]⟩ := by
    rintro (h | ⟨_, h⟩)
    · dsimp only at h
      rw [n _ (by norm_num)] at h
      norm_num at h
    · dsimp only at h
      rw [z] at h
      simp at h
      linarith
  have c2 : keyCondition (fun x => x) {} 0 ⟨1, ![2 / 5, 0, 0]⟩ := by
    left
    dsimp only
    rw [n _ (by norm_num)]
    norm_num
  refine ⟨(⟨1, 0⟩ : RTransform).mul ⟨1, ![1 / 5, 0, 0]⟩, (⟨1, 0⟩ : RTransform).mul ⟨1, ![2 / 5, 0, 0]⟩, ?_, ?_⟩
  · simp only [keyRounds]
    rw [if_neg c1, if_pos c2]
  · simp [RTransform.mul]

end Verif
