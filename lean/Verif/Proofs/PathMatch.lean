import Verif.Spec.PathMatch
import Verif.Props.Euler
import Verif.Proofs.MathHelpers
import Verif.Proofs.Outcome
import Mathlib.Analysis.SpecialFunctions.Trigonometric.Angle
/-! Lemmas for C105. -/
namespace Verif
open Spec

theorem turnZ_zero (n : Nat) (a : ℝ) (v : PathVec n) :
    (turnZ n a).mulVec v 0 = Real.cos a * v 0 - Real.sin a * v 1 := by
  have h1 : (Fin.succ 0 : Fin (n + 2)) = 1 := rfl
  simp only [Matrix.mulVec, dotProduct, Fin.sum_univ_succ, turnZ, h1]
  simp [Fin.ext_iff]
  ring

theorem turnZ_one (n : Nat) (a : ℝ) (v : PathVec n) :
    (turnZ n a).mulVec v 1 = Real.sin a * v 0 + Real.cos a * v 1 := by
  have h1 : (Fin.succ 0 : Fin (n + 2)) = 1 := rfl
  simp only [Matrix.mulVec, dotProduct, Fin.sum_univ_succ, turnZ, h1]
  simp [Fin.ext_iff]

theorem turnZ_rest (n : Nat) (a : ℝ) (v : PathVec n) (i : Fin n) :
    (turnZ n a).mulVec v i.succ.succ = v i.succ.succ := by
  have h1 : (Fin.succ 0 : Fin (n + 2)) = 1 := rfl
  simp only [Matrix.mulVec, dotProduct, Fin.sum_univ_succ, turnZ, h1]
  simp [Fin.ext_iff]
  rw [Finset.sum_eq_single i]
  · simp
  · intro b _ hb
    rw [if_neg (fun h => hb (Fin.ext h.symm))]
  · simp

theorem sameTrack_iff {n : Nat} {l : List (TrackPoint n)} {a : ℝ} {t : PathVec n} (h : SameTrack l a t) :
    ∀ p ∈ l, p.map = (turnZ n a).mulVec p.enu + t := by
  intro p hp
  obtain ⟨h0, h1, h2⟩ := h p hp
  funext i
  refine Fin.cases ?_ (fun i => Fin.cases ?_ (fun i => ?_) i) i
  · rw [Pi.add_apply, turnZ_zero, h0]
  · have e : (Fin.succ 0 : Fin (n + 2)) = 1 := rfl
    rw [e, Pi.add_apply, turnZ_one, h1]
  · rw [Pi.add_apply, turnZ_rest, h2]

/-- Angles of a full turn are known by cosine and sine. -/
theorem angle_unique {x y : ℝ} (hx : 0 ≤ x) (hx' : x < 2 * Real.pi) (hy : 0 ≤ y) (hy' : y < 2 * Real.pi)
    (hc : Real.cos x = Real.cos y) (hs : Real.sin x = Real.sin y) : x = y := by
  have h := Real.Angle.cos_sin_inj hc hs
  rw [Real.Angle.angle_eq_iff_two_pi_dvd_sub] at h
  obtain ⟨k, hk⟩ := h
  have hpi := Real.pi_pos
  have h1 : (-1 : ℝ) < k := by
    by_contra hn
    push Not at hn
    nlinarith
  have h2 : (k : ℝ) < 1 := by
    by_contra hn
    push Not at hn
    nlinarith
  have hk0 : k = 0 := by
    have h1' : (-1 : ℤ) < k := by exact_mod_cast h1
    have h2' : k < (1 : ℤ) := by exact_mod_cast h2
    omega
  rw [hk0] at hk
  simp at hk
  linarith

theorem yawDiff_range {n : Nat} (m e : PathVec n) : 0 ≤ yawDiff m e ∧ yawDiff m e < 2 * Real.pi := by
  have h1 := Complex.neg_pi_lt_arg ⟨m 0, m 1⟩
  have h2 := Complex.arg_le_pi ⟨m 0, m 1⟩
  have h3 := Complex.neg_pi_lt_arg ⟨e 0, e 1⟩
  have h4 := Complex.arg_le_pi ⟨e 0, e 1⟩
  unfold yawDiff atan2
  split
  · constructor <;> linarith
  · constructor <;> linarith

theorem yawDiff_trig {n : Nat} (m e : PathVec n) :
    Real.cos (yawDiff m e) = Real.cos (atan2 (m 1) (m 0) - atan2 (e 1) (e 0)) ∧
    Real.sin (yawDiff m e) = Real.sin (atan2 (m 1) (m 0) - atan2 (e 1) (e 0)) := by
  unfold yawDiff
  split
  · rw [mul_comm Real.pi 2, Real.cos_add_two_pi, Real.sin_add_two_pi]
    exact ⟨rfl, rfl⟩
  · exact ⟨rfl, rfl⟩

/-- The angle between two directions that differ by a turn. -/
theorem yawDiff_turn {n : Nat} {m e : PathVec n} {a : ℝ} (h0 : m 0 = Real.cos a * e 0 - Real.sin a * e 1)
    (h1 : m 1 = Real.sin a * e 0 + Real.cos a * e 1) (hm : 0 < m 0 ^ 2 + m 1 ^ 2) :
    Real.cos (yawDiff m e) = Real.cos a ∧ Real.sin (yawDiff m e) = Real.sin a := by
  have hcs := Real.sin_sq_add_cos_sq a
  have he : e 0 ^ 2 + e 1 ^ 2 = m 0 ^ 2 + m 1 ^ 2 := by
    rw [h0, h1]
    linear_combination (-(e 0 ^ 2 + e 1 ^ 2)) * hcs
  have hr : 0 < Real.sqrt (m 0 ^ 2 + m 1 ^ 2) := Real.sqrt_pos.2 hm
  have hr2 : Real.sqrt (m 0 ^ 2 + m 1 ^ 2) ^ 2 = m 0 ^ 2 + m 1 ^ 2 := Real.sq_sqrt hm.le
  set r := Real.sqrt (m 0 ^ 2 + m 1 ^ 2) with hrd
  obtain ⟨hc, hs⟩ := yawDiff_trig m e
  rw [hc, hs, Real.cos_sub, Real.sin_sub, cos_atan2 hr hr2.symm, sin_atan2 hr hr2.symm,
    cos_atan2 hr (he.trans hr2.symm), sin_atan2 hr (he.trans hr2.symm)]
  constructor
  · field_simp
    rw [hr2, ← he, h0, h1]
    ring
  · field_simp
    rw [hr2, ← he, h0, h1]
    ring

/-- The loop when all angles used are the same. -/
theorem yawLoop_same {n : Nat} (d : ℝ) (ps : List (TrackPoint n × TrackPoint n)) (num : Nat) (sum : ℝ)
    (h : ∀ p ∈ ps, 5 ≤ Real.sqrt ((p.2.map - p.1.map) 0 ^ 2 + (p.2.map - p.1.map) 1 ^ 2) →
      yawDiff (p.2.map - p.1.map) (p.2.enu - p.1.enu) = d) :
    ∃ k, yawLoop ps num sum = .ok (num + k, sum + k * d) ∧
      ((∃ p ∈ ps, 5 ≤ Real.sqrt ((p.2.map - p.1.map) 0 ^ 2 + (p.2.map - p.1.map) 1 ^ 2)) → 0 < k) := by
  induction ps generalizing num sum with
  | nil => exact ⟨0, by simp [yawLoop], by rintro ⟨p, hp, _⟩; cases hp⟩
  | cons p ps ih =>
    by_cases hc : Real.sqrt ((p.2.map - p.1.map) 0 ^ 2 + (p.2.map - p.1.map) 1 ^ 2) < 5
    · obtain ⟨k, hk, hp⟩ := ih num sum (fun q hq => h q (List.mem_cons_of_mem _ hq))
      refine ⟨k, ?_, ?_⟩
      · unfold yawLoop
        dsimp only
        rw [if_pos hc]
        exact hk
      · rintro ⟨q, hq, hd⟩
        rcases List.mem_cons.1 hq with rfl | hq
        · exact absurd hd (not_le.2 hc)
        · exact hp ⟨q, hq, hd⟩
    · have hd := h p (List.mem_cons_self ..) (not_lt.1 hc)
      obtain ⟨k, hk, _⟩ := ih (num + 1) (sum + d) (fun q hq => h q (List.mem_cons_of_mem _ hq))
      refine ⟨k + 1, ?_, fun _ => Nat.succ_pos _⟩
      unfold yawLoop
      dsimp only
      rw [if_neg hc, Outcome.check_pos, Outcome.bind_ok, hd, hk]
      · rw [show num + 1 + k = num + (k + 1) by omega, show sum + d + k * d = sum + (k + 1 : ℕ) * d by push_cast; ring]
      · obtain ⟨a1, a2⟩ := yawDiff_range (p.2.map - p.1.map) (p.2.enu - p.1.enu)
        exact ⟨a1, by linarith⟩

/-- The loop always ends well. -/
theorem yawLoop_ok {n : Nat} (ps : List (TrackPoint n × TrackPoint n)) (num : Nat) (sum : ℝ) :
    ∃ r, yawLoop ps num sum = .ok r := by
  induction ps generalizing num sum with
  | nil => exact ⟨_, rfl⟩
  | cons p ps ih =>
    unfold yawLoop
    dsimp only
    split
    · exact ih _ _
    · rw [Outcome.check_pos, Outcome.bind_ok]
      · exact ih _ _
      · obtain ⟨a1, a2⟩ := yawDiff_range (p.2.map - p.1.map) (p.2.enu - p.1.enu)
        exact ⟨a1, by linarith⟩

theorem halfPairs_mem {n : Nat} {l : List (TrackPoint n)} {p : TrackPoint n × TrackPoint n} (h : p ∈ halfPairs l) :
    p.1 ∈ l ∧ p.2 ∈ l :=
  ⟨List.mem_of_mem_take (List.of_mem_zip h).1, List.mem_of_mem_drop (List.of_mem_zip h).2⟩

theorem halfPairs_length {n : Nat} (l : List (TrackPoint n)) : (halfPairs l).length = l.length / 2 := by
  unfold halfPairs
  simp
  omega

theorem halfPairs_get {n : Nat} {l : List (TrackPoint n)} {i : Nat} {p q : TrackPoint n} (hp : l[i]? = some p)
    (hq : l[l.length / 2 + i]? = some q) (hi : i < l.length / 2) : (p, q) ∈ halfPairs l := by
  unfold halfPairs
  apply List.mem_of_getElem? (i := i)
  rw [List.getElem?_zip_eq_some]
  exact ⟨by rw [List.getElem?_take, if_pos hi]; exact hp, by rw [List.getElem?_drop]; exact hq⟩

theorem averageShift_same {n : Nat} {rot : PathMat n} {t : PathVec n} (ps : List (TrackPoint n × TrackPoint n))
    (h : ∀ p ∈ ps, p.1.map = rot.mulVec p.1.enu + t ∧ p.2.map = rot.mulVec p.2.enu + t) (hne : ps ≠ []) :
    averageShift rot ps = t := by
  have hs : ∀ l : List (TrackPoint n × TrackPoint n), (∀ p ∈ l, p ∈ ps) →
      (l.map fun p => (1 / 2 : ℝ) • (p.2.map + p.1.map) - (1 / 2 : ℝ) • rot.mulVec (p.2.enu + p.1.enu)).sum =
        (l.length : ℝ) • t := by
    intro l
    induction l with
    | nil => intro _; simp
    | cons p l ih =>
      intro hl
      rw [List.map_cons, List.sum_cons, ih (fun q hq => hl q (List.mem_cons_of_mem _ hq))]
      obtain ⟨h1, h2⟩ := h p (hl p (List.mem_cons_self ..))
      rw [h1, h2, Matrix.mulVec_add, List.length_cons]
      push_cast
      module
  unfold averageShift
  rw [hs ps (fun _ h => h), smul_smul, one_div, inv_mul_cancel₀, one_smul]
  have : 0 < ps.length := List.length_pos_iff.2 hne
  positivity

theorem turnZ_congr (n : Nat) {a b : ℝ} (hc : Real.cos a = Real.cos b) (hs : Real.sin a = Real.sin b) :
    turnZ n a = turnZ n b := by
  funext i j
  simp only [turnZ, hc, hs]

/-- The first estimate is right when both tracks are the same. -/
theorem firstEstimate_exact {n : Nat} {l : List (TrackPoint n)} {a : ℝ} {t : PathVec n} (h : SameTrack l a t)
    (hl : LongTrack l) : firstEstimate l = .ok (some (turnZ n a, t)) := by
  have hm := sameTrack_iff h
  obtain ⟨i, p, q, hp, hq, hi, hd⟩ := hl
  have hne : l ≠ [] := by rintro rfl; simp at hp
  have hpq := halfPairs_get hp hq hi
  have turn : ∀ u ∈ halfPairs l, 5 ≤ Real.sqrt ((u.2.map - u.1.map) 0 ^ 2 + (u.2.map - u.1.map) 1 ^ 2) →
      Real.cos (yawDiff (u.2.map - u.1.map) (u.2.enu - u.1.enu)) = Real.cos a ∧
      Real.sin (yawDiff (u.2.map - u.1.map) (u.2.enu - u.1.enu)) = Real.sin a := by
    intro u hu hf
    obtain ⟨h1, h2⟩ := halfPairs_mem hu
    obtain ⟨a0, a1, _⟩ := h u.1 h1
    obtain ⟨b0, b1, _⟩ := h u.2 h2
    apply yawDiff_turn
    · simp only [Pi.sub_apply, a0, b0]; ring
    · simp only [Pi.sub_apply, a1, b1]; ring
    · by_contra hn
      rw [Real.sqrt_eq_zero_of_nonpos (not_lt.1 hn)] at hf
      norm_num at hf
  have hfar : 5 ≤ Real.sqrt ((q.map - p.map) 0 ^ 2 + (q.map - p.map) 1 ^ 2) := by
    apply Real.le_sqrt_of_sq_le
    simp only [Pi.sub_apply]
    linarith
  have hr := yawDiff_range (q.map - p.map) (q.enu - p.enu)
  obtain ⟨k, hk, hkp⟩ := yawLoop_same (yawDiff (q.map - p.map) (q.enu - p.enu)) (halfPairs l) 0 0 (by
    intro u hu hf
    have hr' := yawDiff_range (u.2.map - u.1.map) (u.2.enu - u.1.enu)
    have t1 := turn u hu hf
    have t2 := turn _ hpq hfar
    exact angle_unique hr'.1 hr'.2 hr.1 hr.2 (t1.1.trans t2.1.symm) (t1.2.trans t2.2.symm))
  have hk0 : 0 < k := hkp ⟨_, hpq, hfar⟩
  have hkr : (0 : ℝ) < k := by exact_mod_cast hk0
  unfold firstEstimate
  rw [if_neg hne, hk, Outcome.bind_ok]
  dsimp only
  have hang : (0 + (k : ℝ) * yawDiff (q.map - p.map) (q.enu - p.enu)) / ((0 + k : ℕ) : ℝ) =
      yawDiff (q.map - p.map) (q.enu - p.enu) := by
    push_cast
    field_simp
    ring
  have htr := turnZ_congr n (turn _ hpq hfar).1 (turn _ hpq hfar).2
  dsimp only at htr
  rw [if_pos (show 0 < 0 + k by omega), hang, htr, averageShift_same (t := t)]
  · rfl
  · intro u hu
    obtain ⟨h1, h2⟩ := halfPairs_mem hu
    exact ⟨hm _ h1, hm _ h2⟩
  · exact List.ne_nil_of_mem hpq

theorem turnZ_two (a : ℝ) : turnZ 0 a = plainTurn a := by
  unfold plainTurn
  ext i j
  fin_cases i <;> fin_cases j <;> simp [turnZ]

theorem turnZ_three (a : ℝ) : turnZ 1 a = rotZ a := by
  unfold rotZ
  ext i j
  fin_cases i <;> fin_cases j <;> simp [turnZ]

theorem plainTurn_mul (a b : ℝ) : plainTurn a * plainTurn b = plainTurn (a + b) := by
  unfold plainTurn
  rw [Real.cos_add, Real.sin_add]
  ext i j
  fin_cases i <;> fin_cases j <;> simp [Matrix.mul_apply, Fin.sum_univ_two] <;> ring

theorem plainTurn_zero : plainTurn 0 = 1 := by
  unfold plainTurn
  ext i j
  fin_cases i <;> fin_cases j <;> simp

theorem plainTurn_inv (a : ℝ) : (plainTurn a)⁻¹ = plainTurn (-a) := by
  apply Matrix.inv_eq_right_inv
  rw [plainTurn_mul, add_neg_cancel, plainTurn_zero]

/-- The result takes the map positions back. -/
theorem moveBack_exact {n : Nat} {rot inv : PathMat n} {t m e : PathVec n} (hi : inv * rot = 1)
    (h : m = rot.mulVec e + t) : (moveBack rot t).rot.mulVec m + (moveBack rot t).trans = e := by
  have hr : rot⁻¹ = inv := Matrix.inv_eq_left_inv hi
  simp only [moveBack, hr]
  rw [h, Matrix.mulVec_add, Matrix.mulVec_mulVec, hi, Matrix.one_mulVec]
  abel

/-- The iterations end at once where the equations are solved. -/
theorem pathIterate_zero {solve : List ((Fin 3 → ℝ) × ℝ) → Fin 3 → ℝ} {l : List (TrackPoint 0)} {fuel : Nat}
    {rot : PathMat 0} {trans : PathVec 0} (h : solve (l.map (pathRow rot trans)) = 0) :
    pathIterate solve l (fuel + 1) rot trans = (rot, trans) := by
  have hv : (![(0 : Fin 3 → ℝ) 1, (0 : Fin 3 → ℝ) 2] : PathVec 0) = 0 := by
    funext i; fin_cases i <;> rfl
  unfold pathIterate
  dsimp only
  rw [h]
  simp only [Pi.zero_apply] at hv ⊢
  rw [plainTurn_zero, hv, if_pos]
  · rw [one_mul, Matrix.one_mulVec, add_zero]
  · constructor <;> norm_num

theorem pathIterate_turn (solve : List ((Fin 3 → ℝ) × ℝ) → Fin 3 → ℝ) (l : List (TrackPoint 0)) (fuel : Nat) (a : ℝ)
    (trans : PathVec 0) : ∃ b, (pathIterate solve l fuel (plainTurn a) trans).1 = plainTurn b := by
  induction fuel generalizing a trans with
  | zero => exact ⟨a, rfl⟩
  | succ f ih =>
    unfold pathIterate
    dsimp only
    rw [plainTurn_mul]
    split
    · exact ⟨_, rfl⟩
    · exact ih _ _

end Verif
