import Verif.Spec.FrameFree
import Verif.Props.Standing
import Verif.Props.Euler
import Mathlib.Data.List.MinMax
/-! C136: matching does not depend on the frame in which the map is kept. -/
namespace Verif
open Spec Matrix

/-! ### one step -/

/-- A pair in a turned frame. -/
def turnPair (R : Mat3) (e : IcpPair) : IcpPair := { e with p := R *ᵥ e.p, q := R *ᵥ e.q, n := R *ᵥ e.n }

theorem rot_dot {R : Mat3} (h : IsRot3 R) (a b : Fin 3 → ℝ) : (R *ᵥ a) ⬝ᵥ (R *ᵥ b) = a ⬝ᵥ b := by
  rw [dotProduct_mulVec, vecMul_mulVec, h.1, vecMul_one]

theorem rot_cross {R : Mat3} (h : IsRot3 R) (a b : Fin 3 → ℝ) : crossProduct (R *ᵥ a) (R *ᵥ b) = R *ᵥ crossProduct a b := by
  have q := rotEq h
  have q' : R 0 0 = R 1 1 * R 2 2 - R 1 2 * R 2 1 ∧ R 1 0 = R 0 2 * R 2 1 - R 0 1 * R 2 2 ∧
      R 2 0 = R 0 1 * R 1 2 - R 0 2 * R 1 1 := by
    have h3 : R * R.transpose = 1 := mul_eq_one_comm.1 h.1
    have hadj : R.transpose = R.adjugate := by
      have : R.adjugate * R = 1 := by rw [Matrix.adjugate_mul, h.2, one_smul]
      calc R.transpose = (R.adjugate * R) * R.transpose := by rw [this, one_mul]
        _ = R.adjugate * (R * R.transpose) := by rw [Matrix.mul_assoc]
        _ = R.adjugate := by rw [h3, Matrix.mul_one]
    rw [Matrix.adjugate_fin_three] at hadj
    have g : ∀ i j, R.transpose i j = _ := fun i j => congrFun (congrFun hadj i) j
    have g00 := g 0 0
    have g01 := g 0 1
    have g02 := g 0 2
    simp [Matrix.transpose_apply] at g00 g01 g02
    refine ⟨by linarith, by linarith, by linarith⟩
  obtain ⟨k00, k10, k20⟩ := q'
  funext i
  fin_cases i
  · simp [crossProduct, Matrix.mulVec, dotProduct, Fin.sum_univ_three]
    linear_combination (-(a 1 * b 2 - a 2 * b 1)) * k00 - (a 2 * b 0 - a 0 * b 2) * q.k01 - (a 0 * b 1 - a 1 * b 0) * q.k02
  · simp [crossProduct, Matrix.mulVec, dotProduct, Fin.sum_univ_three]
    linear_combination (-(a 1 * b 2 - a 2 * b 1)) * k10 - (a 2 * b 0 - a 0 * b 2) * q.k11 - (a 0 * b 1 - a 1 * b 0) * q.k12
  · simp [crossProduct, Matrix.mulVec, dotProduct, Fin.sum_univ_three]
    linear_combination (-(a 1 * b 2 - a 2 * b 1)) * k20 - (a 2 * b 0 - a 0 * b 2) * q.k21 - (a 0 * b 1 - a 1 * b 0) * q.k22

theorem cost_turned {R : Mat3} (h : IsRot3 R) (comp : Bool) (l : List IcpPair) (r t : Fin 3 → ℝ) :
    planeCost comp (l.map (turnPair R)) (R *ᵥ r) (R *ᵥ t) = planeCost comp l r t := by
  unfold planeCost
  rw [List.map_map]
  congr 1
  refine List.map_congr_left fun e _ => ?_
  simp only [Function.comp_def, turnPair]
  congr 2
  generalize (if comp = true then e.f else 1) = φ
  have : (fun i => (R *ᵥ e.p) i + φ * smallMotion (R *ᵥ r) (R *ᵥ t) (R *ᵥ e.p) i - (R *ᵥ e.q) i) =
      R *ᵥ (fun i => e.p i + φ * smallMotion r t e.p i - e.q i) := by
    have e1 : (fun i => e.p i + φ * smallMotion r t e.p i - e.q i) =
        e.p + φ • (crossProduct r e.p + t) - e.q := by
      funext i
      simp [smallMotion]
      ring
    rw [e1, mulVec_sub, mulVec_add, mulVec_smul, mulVec_add, ← rot_cross h]
    funext i
    simp [smallMotion]
    ring
  rw [this, rot_dot h]

theorem rot_sq {R : Mat3} (h : IsRot3 R) (a : Fin 3 → ℝ) : ∑ i, (R *ᵥ a) i ^ 2 = ∑ i, a i ^ 2 := by
  rw [sq_dot, sq_dot, rot_dot h]

/-- The midpoint of two motions costs at most the mean. -/
theorem cost_mid (comp : Bool) (l : List IcpPair) (hw : ∀ e ∈ l, 0 ≤ e.w) (r t r' t' : Fin 3 → ℝ) :
    planeCost comp l (fun i => (r i + r' i) / 2) (fun i => (t i + t' i) / 2) ≤ (planeCost comp l r t + planeCost comp l r' t') / 2 := by
  unfold planeCost
  induction l with
  | nil => simp
  | cons e l ih =>
    have ih' := ih fun x hx => hw x (by simp [hx])
    have he := hw e (by simp)
    simp only [List.map_cons, List.sum_cons]
    have hx : e.n ⬝ᵥ (fun i => e.p i + (if comp = true then e.f else 1) *
          smallMotion (fun i => (r i + r' i) / 2) (fun i => (t i + t' i) / 2) e.p i - e.q i) =
        (e.n ⬝ᵥ (fun i => e.p i + (if comp = true then e.f else 1) * smallMotion r t e.p i - e.q i) +
        e.n ⬝ᵥ (fun i => e.p i + (if comp = true then e.f else 1) * smallMotion r' t' e.p i - e.q i)) / 2 := by
      generalize (if comp = true then e.f else 1) = φ
      simp [dotProduct, Fin.sum_univ_three, smallMotion, crossProduct]
      ring
    rw [hx]
    generalize e.n ⬝ᵥ (fun i => e.p i + (if comp = true then e.f else 1) * smallMotion r t e.p i - e.q i) = x
    generalize e.n ⬝ᵥ (fun i => e.p i + (if comp = true then e.f else 1) * smallMotion r' t' e.p i - e.q i) = y
    have : e.w * ((x + y) / 2) ^ 2 ≤ (e.w * x ^ 2 + e.w * y ^ 2) / 2 := by nlinarith [mul_nonneg he (sq_nonneg (x - y))]
    linarith

/-- The shortest of the best motions is one motion. -/
theorem least_unique (comp : Bool) (l : List IcpPair) (hw : ∀ e ∈ l, 0 ≤ e.w) (r t r' t' : Fin 3 → ℝ)
    (h1 : ∀ a b, planeCost comp l r t ≤ planeCost comp l a b) (h1' : ∀ a b, planeCost comp l r' t' ≤ planeCost comp l a b)
    (h2 : ∀ a b, (∀ c d, planeCost comp l a b ≤ planeCost comp l c d) → ∑ i, r i ^ 2 + ∑ i, t i ^ 2 ≤ ∑ i, a i ^ 2 + ∑ i, b i ^ 2)
    (h2' : ∀ a b, (∀ c d, planeCost comp l a b ≤ planeCost comp l c d) → ∑ i, r' i ^ 2 + ∑ i, t' i ^ 2 ≤ ∑ i, a i ^ 2 + ∑ i, b i ^ 2) :
    r = r' ∧ t = t' := by
  have hm := cost_mid comp l hw r t r' t'
  have hbest : ∀ c d, planeCost comp l (fun i => (r i + r' i) / 2) (fun i => (t i + t' i) / 2) ≤ planeCost comp l c d := by
    intro c d
    linarith [h1 c d, h1' c d]
  have a := h2 _ _ hbest
  have b := h2' _ _ hbest
  have c := h2 _ _ h1'
  have d := h2' _ _ h1
  simp only [Fin.sum_univ_three] at a b c d
  have key : (r 0 - r' 0) ^ 2 + (r 1 - r' 1) ^ 2 + (r 2 - r' 2) ^ 2 + (t 0 - t' 0) ^ 2 + (t 1 - t' 1) ^ 2 + (t 2 - t' 2) ^ 2 ≤ 0 := by
    nlinarith
  have z : ∀ x y : ℝ, (x - y) ^ 2 ≤ 0 → x = y := fun x y hxy => by
    have : (x - y) ^ 2 = 0 := le_antisymm hxy (sq_nonneg _)
    have := pow_eq_zero_iff two_ne_zero |>.1 this
    linarith
  have n0 := sq_nonneg (r 0 - r' 0)
  have n1 := sq_nonneg (r 1 - r' 1)
  have n2 := sq_nonneg (r 2 - r' 2)
  have n3 := sq_nonneg (t 0 - t' 0)
  have n4 := sq_nonneg (t 1 - t' 1)
  have n5 := sq_nonneg (t 2 - t' 2)
  constructor
  · funext i
    fin_cases i
    · exact z (r 0) (r' 0) (by linarith)
    · exact z (r 1) (r' 1) (by linarith)
    · exact z (r 2) (r' 2) (by linarith)
  · funext i
    fin_cases i
    · exact z (t 0) (t' 0) (by linarith)
    · exact z (t 1) (t' 1) (by linarith)
    · exact z (t 2) (t' 2) (by linarith)

/-- Turning about a turned axis. -/
theorem angleAxis_turned {R : Mat3} (h : IsRot3 R) (a : ℝ) (u : Fin 3 → ℝ) : angleAxis a (R *ᵥ u) = R * angleAxis a u * Rᵀ := by
  have hRRt : R * Rᵀ = 1 := mul_eq_one_comm.1 h.1
  -- apply to a vector
  have act : ∀ (w p : Fin 3 → ℝ), angleAxis a w *ᵥ p =
      ((1 - Real.cos a) * (w ⬝ᵥ p)) • w + Real.cos a • p + Real.sin a • crossProduct w p := by
    intro w p
    funext i
    fin_cases i <;> simp [angleAxis, crossProduct, Matrix.mulVec, dotProduct, Fin.sum_univ_three] <;> ring
  apply Matrix.mulVec_injective
  funext p
  have hp : p = R *ᵥ (Rᵀ *ᵥ p) := by rw [mulVec_mulVec, hRRt, one_mulVec]
  rw [← mulVec_mulVec, ← mulVec_mulVec, act, act]
  generalize Rᵀ *ᵥ p = w at hp
  subst hp
  rw [rot_dot h, rot_cross h, mulVec_add, mulVec_add, mulVec_smul, mulVec_smul, mulVec_smul]

theorem icpMotion_parts (a b : Fin 3 → ℝ) : icpMotion ![a 0, a 1, a 2, b 0, b 1, b 2] =
    (if norm3 a = 0 then 1 else angleAxis (norm3 a) (fun i => a i / norm3 a), b) := by
  have e3 : ∀ a : Fin 3 → ℝ, a = ![a 0, a 1, a 2] := by
    intro a
    funext i
    fin_cases i <;> rfl
  obtain ⟨x, hx⟩ : ∃ x, x = ![a 0, a 1, a 2] := ⟨_, rfl⟩
  obtain ⟨y, hy⟩ : ∃ y, y = ![b 0, b 1, b 2] := ⟨_, rfl⟩
  have h : icpMotion ![a 0, a 1, a 2, b 0, b 1, b 2] =
      (if norm3 x = 0 then 1 else angleAxis (norm3 x) (fun i => x i / norm3 x), y) := by
    subst hx hy
    rfl
  rw [h, hx, hy, ← e3 a, ← e3 b]

theorem motion_turned {R : Mat3} (h : IsRot3 R) (r t : Fin 3 → ℝ) :
    icpMotion ![(R *ᵥ r) 0, (R *ᵥ r) 1, (R *ᵥ r) 2, (R *ᵥ t) 0, (R *ᵥ t) 1, (R *ᵥ t) 2] =
      (R * (icpMotion ![r 0, r 1, r 2, t 0, t 1, t 2]).1 * Rᵀ, R *ᵥ (icpMotion ![r 0, r 1, r 2, t 0, t 1, t 2]).2) := by
  have en : ∀ a : Fin 3 → ℝ, norm3 a = Real.sqrt (∑ i, a i ^ 2) := by
    intro a
    unfold norm3
    rw [Fin.sum_univ_three]
  have e4 : norm3 (R *ᵥ r) = norm3 r := by rw [en, en, rot_sq h]
  rw [icpMotion_parts, icpMotion_parts, e4]
  refine Prod.ext ?_ rfl
  dsimp only
  split
  · rw [mul_one]
    exact (mul_eq_one_comm.1 h.1).symm
  · have : (fun i => (R *ᵥ r) i / norm3 r) = R *ᵥ (fun i => r i / norm3 r) := by
      have e5 : (fun i => r i / norm3 r) = (norm3 r)⁻¹ • r := by
        funext i
        simp [div_eq_inv_mul]
      rw [e5, mulVec_smul]
      funext i
      simp [div_eq_inv_mul]
    rw [this, angleAxis_turned h]

theorem step_turned {R : Mat3} (h : IsRot3 R) (L : LinLib) (hL : LibOk L) (comp : Bool) (l : List IcpPair) (hw : ∀ e ∈ l, 0 ≤ e.w) :
    planeStep L comp (l.map (turnPair R)) = (R * (planeStep L comp l).1 * Rᵀ, R *ᵥ (planeStep L comp l).2) := by
  have hw' : ∀ e ∈ l.map (turnPair R), 0 ≤ e.w := by
    intro e he
    obtain ⟨x, hx, rfl⟩ := List.mem_map.1 he
    exact hw x hx
  have hRRt : R * Rᵀ = 1 := mul_eq_one_comm.1 h.1
  have back : ∀ a : Fin 3 → ℝ, R *ᵥ (Rᵀ *ᵥ a) = a := fun a => by rw [mulVec_mulVec, hRRt, one_mulVec]
  have back' : ∀ a : Fin 3 → ℝ, Rᵀ *ᵥ (R *ᵥ a) = a := fun a => by rw [mulVec_mulVec, h.1, one_mulVec]
  have hcost : ∀ a b, planeCost comp (l.map (turnPair R)) a b = planeCost comp l (Rᵀ *ᵥ a) (Rᵀ *ᵥ b) := fun a b => by
    rw [← cost_turned h comp l, back, back]
  obtain ⟨r, t, h1, h2, h3⟩ := C109_step L hL comp l hw
  obtain ⟨r', t', h1', h2', h3'⟩ := C109_step L hL comp (l.map (turnPair R)) hw'
  have hsq : ∀ a : Fin 3 → ℝ, ∑ i, (Rᵀ *ᵥ a) i ^ 2 = ∑ i, a i ^ 2 := fun a => by
    rw [← rot_sq h (Rᵀ *ᵥ a), back]
  obtain ⟨e1, e2⟩ := least_unique comp (l.map (turnPair R)) hw' r' t' (R *ᵥ r) (R *ᵥ t) h1'
    (fun a b => by rw [cost_turned h, hcost]; exact h1 _ _) h2'
    (fun a b hab => by
      rw [rot_sq h, rot_sq h, ← hsq a, ← hsq b]
      refine h2 _ _ fun c d => ?_
      rw [← hcost]
      have := hab (R *ᵥ c) (R *ᵥ d)
      rwa [cost_turned h] at this)
  rw [h3', h3, e1, e2, motion_turned h]

/-! ### selection and motions -/

theorem icpKept_map {P P' : Type} (f : P → P') : ∀ (ps : List P) (ms : List IcpMatch) (ws : List Bool),
    icpKept (ps.map f) ms ws = (icpKept ps ms ws).map (Prod.map f id)
  | [], _, _ => by simp [icpKept]
  | _ :: _, [], _ => by simp [icpKept]
  | _ :: _, _ :: _, [] => by simp [icpKept]
  | p :: ps, m :: ms, w :: ws => by
    simp only [List.map_cons, icpKept, List.map_append, icpKept_map f ps ms ws]
    congr 1
    split <;> rfl

theorem icpFetch_map {P P' Q Q' : Type} (f : P → P') (g : Q → Q') (tgt : List Q) : ∀ l : List (P × IcpMatch),
    icpFetch (tgt.map g) (l.map (Prod.map f id)) =
      match icpFetch tgt l with
      | .ok r => .ok (r.map (Prod.map f g))
      | .abort => .abort
      | .ub => .ub
  | [] => rfl
  | (p, m) :: l => by
    have ih := icpFetch_map f g tgt l
    simp only [List.map_cons, Prod.map, id, icpFetch, List.getElem?_map]
    cases tgt[m.id]? with
    | none => rfl
    | some t =>
      simp only [Option.map_some]
      rw [ih]
      cases icpFetch tgt l <;> rfl

theorem icpSelect_map {P P' Q Q' : Type} (f : P → P') (g : Q → Q') (ratio : Rat) (src : List P) (tgt : List Q) (ms : List IcpMatch) :
    icpSelect ratio (src.map f) (tgt.map g) ms =
      match icpSelect ratio src tgt ms with
      | .ok r => .ok (r.1, r.2.map (Prod.map f g))
      | .abort => .abort
      | .ub => .ub := by
  unfold icpSelect
  cases distQuantile ratio ms with
  | abort => rfl
  | ub => rfl
  | ok limit =>
    simp only [Outcome.bind_ok, List.length_map]
    by_cases h1 : (icpWeights limit ms).length = src.length
    · rw [Outcome.check_pos h1]
      simp only [Outcome.bind_ok, errorElements, List.length_map]
      by_cases h2 : 0 < ms.length
      · rw [Outcome.check_pos h2]
        simp only [Outcome.bind_ok]
        by_cases h3 : ms.length = src.length
        · rw [Outcome.check_pos h3]
          simp only [Outcome.bind_ok]
          by_cases h4 : 0 < (icpWeights limit ms).countP id
          · rw [Outcome.check_pos h4]
            simp only [Outcome.bind_ok]
            rw [icpKept_map, List.length_map]
            by_cases h5 : (icpKept src ms (icpWeights limit ms)).length = (icpWeights limit ms).countP id
            · rw [Outcome.check_pos h5]
              simp only [Outcome.bind_ok]
              rw [icpFetch_map]
              cases icpFetch tgt (icpKept src ms (icpWeights limit ms)) <;> rfl
            · rw [Outcome.check_neg h5]; rfl
          · rw [Outcome.check_neg h4]; rfl
        · rw [Outcome.check_neg h3]; rfl
      · rw [Outcome.check_neg h2]; rfl
    · rw [Outcome.check_neg h1]; rfl

theorem turn_bij {R : Mat3} (h : IsRot3 R) (v : Fin 3 → ℝ) : Function.Bijective (icpMove (R, v)) := by
  have hRRt : R * Rᵀ = 1 := mul_eq_one_comm.1 h.1
  constructor
  · intro a b hab
    have : R *ᵥ a = R *ᵥ b := by
      funext i
      have := congrFun hab i
      simpa [icpMove] using this
    calc a = Rᵀ *ᵥ (R *ᵥ a) := by rw [mulVec_mulVec, h.1, one_mulVec]
      _ = Rᵀ *ᵥ (R *ᵥ b) := by rw [this]
      _ = b := by rw [mulVec_mulVec, h.1, one_mulVec]
  · intro b
    refine ⟨Rᵀ *ᵥ (b - v), ?_⟩
    funext i
    simp [icpMove, mulVec_mulVec, hRRt]

theorem turn_apply {R : Mat3} (h : IsRot3 R) (v p : Fin 3 → ℝ) : motionOf (R, v) p = R *ᵥ p + v := by
  rw [motionOf_apply _ (turn_bij h v)]
  rfl

theorem conj_motion {R : Mat3} (h : IsRot3 R) (M : Mat3 × (Fin 3 → ℝ)) :
    motionOf (R * M.1 * Rᵀ, R *ᵥ M.2) = motionOf (R, 0) * motionOf M * (motionOf (R, 0))⁻¹ := by
  have hRRt : R * Rᵀ = 1 := mul_eq_one_comm.1 h.1
  have hinv : ∀ p, (motionOf (R, 0))⁻¹ p = Rᵀ *ᵥ p := by
    intro p
    rw [Equiv.Perm.inv_eq_iff_eq, turn_apply h, mulVec_mulVec, hRRt, one_mulVec, add_zero]
  have hmove : ∀ p, icpMove (R * M.1 * Rᵀ, R *ᵥ M.2) p = R *ᵥ icpMove M (Rᵀ *ᵥ p) := by
    intro p
    have : icpMove M (Rᵀ *ᵥ p) = M.1 *ᵥ (Rᵀ *ᵥ p) + M.2 := rfl
    rw [this, mulVec_add, mulVec_mulVec, mulVec_mulVec]
    rfl
  by_cases hb : Function.Bijective (icpMove M)
  · have hb' : Function.Bijective (icpMove (R * M.1 * Rᵀ, R *ᵥ M.2)) := by
      have : icpMove (R * M.1 * Rᵀ, R *ᵥ M.2) = (motionOf (R, 0)) ∘ icpMove M ∘ ((motionOf (R, 0))⁻¹ : Motion3) := by
        funext p
        rw [hmove, Function.comp_apply, Function.comp_apply, hinv, turn_apply h, add_zero]
      rw [this]
      exact (motionOf (R, 0)).bijective.comp (hb.comp (Equiv.bijective _))
    ext1 p
    rw [motionOf_apply _ hb', hmove, Equiv.Perm.mul_apply, Equiv.Perm.mul_apply, hinv, motionOf_apply _ hb, turn_apply h, add_zero]
  · have hb' : ¬ Function.Bijective (icpMove (R * M.1 * Rᵀ, R *ᵥ M.2)) := by
      intro hc
      apply hb
      have : icpMove M = ((motionOf (R, 0))⁻¹ : Motion3) ∘ icpMove (R * M.1 * Rᵀ, R *ᵥ M.2) ∘ (motionOf (R, 0)) := by
        funext p
        rw [Function.comp_apply, Function.comp_apply, hmove, hinv, turn_apply h, add_zero, mulVec_mulVec, mulVec_mulVec, h.1,
          one_mulVec, one_mulVec]
      rw [this]
      exact (Equiv.bijective _).comp (hc.comp (Equiv.bijective _))
    unfold motionOf
    rw [dif_neg hb', dif_neg hb, mul_one, mul_inv_cancel]

/-! ### iterations -/

/-- The same motion in the turned frame. -/
noncomputable def conjBy (R : Mat3) (T : Motion3) : Motion3 := motionOf (R, 0) * T * (motionOf (R, 0))⁻¹

theorem increment_turned {R : Mat3} (h : IsRot3 R) (s : IcpSetup) (hL : LibOk s.lib) (hs : SeesNoFrame s R)
    (tgt : List ((Fin 3 → ℝ) × (Fin 3 → ℝ))) (src : List ((Fin 3 → ℝ) × ℝ)) (start T : Motion3) :
    icpIncrement s (tgt.map (Prod.map R.mulVec R.mulVec)) src (motionOf (R, 0) * start) (conjBy R T) =
      match icpIncrement s tgt src start T with
      | .ok M => .ok (conjBy R M)
      | .abort => .abort
      | .ub => .ub := by
  unfold icpIncrement
  have hpts : (src.map fun p => ((if s.comp = true then s.share p.2 (conjBy R T) else conjBy R T) ((motionOf (R, 0) * start) p.1), p.2)) =
      (src.map fun p => ((if s.comp = true then s.share p.2 T else T) (start p.1), p.2)).map (Prod.map R.mulVec id) := by
    rw [List.map_map]
    refine List.map_congr_left fun p _ => ?_
    simp only [Function.comp_def, Prod.map, id]
    refine Prod.ext ?_ rfl
    dsimp only
    have hc : (if s.comp = true then s.share p.2 (conjBy R T) else conjBy R T) =
        conjBy R (if s.comp = true then s.share p.2 T else T) := by
      split
      · exact hs.share p.2 T
      · rfl
    rw [hc]
    unfold conjBy
    rw [Equiv.Perm.mul_apply, Equiv.Perm.mul_apply, Equiv.Perm.mul_apply, ← Equiv.Perm.mul_apply (motionOf (R, 0))⁻¹, inv_mul_cancel,
      Equiv.Perm.one_apply, turn_apply h, add_zero]
  dsimp only
  rw [hpts]
  generalize (src.map fun p => ((if s.comp = true then s.share p.2 T else T) (start p.1), p.2)) = pts
  have hms : (pts.map (Prod.map R.mulVec id)).map (fun p => s.search ((tgt.map (Prod.map R.mulVec R.mulVec)).map Prod.fst) p.1) =
      pts.map (fun p => s.search (tgt.map Prod.fst) p.1) := by
    rw [List.map_map]
    refine List.map_congr_left fun p _ => ?_
    have e : (tgt.map (Prod.map R.mulVec R.mulVec)).map Prod.fst = (tgt.map Prod.fst).map R.mulVec := by
      rw [List.map_map, List.map_map]
      rfl
    simp only [Function.comp_def, Prod.map]
    have := hs.search (tgt.map Prod.fst) p.1
    rw [← e] at this
    exact this
  rw [hms, icpSelect_map]
  cases icpSelect s.ratio pts tgt (pts.map fun p => s.search (tgt.map Prod.fst) p.1) with
  | abort => rfl
  | ub => rfl
  | ok r =>
    simp only [bind, Outcome.bind, pure]
    congr 1
    have hl : (r.2.map (Prod.map (Prod.map R.mulVec id) (Prod.map R.mulVec R.mulVec))).map
        (fun e => ({ p := e.1.1, q := e.2.1, n := e.2.2, w := 1, f := e.1.2 } : IcpPair)) =
        (r.2.map (fun e => ({ p := e.1.1, q := e.2.1, n := e.2.2, w := 1, f := e.1.2 } : IcpPair))).map (turnPair R) := by
      rw [List.map_map, List.map_map]
      rfl
    rw [hl, step_turned h s.lib hL s.comp _ (by
      intro e he
      obtain ⟨x, _, rfl⟩ := List.mem_map.1 he
      exact zero_le_one), conj_motion h]
    rfl

theorem conjBy_mul (R : Mat3) (a b : Motion3) : conjBy R (a * b) = conjBy R a * conjBy R b := by
  unfold conjBy
  group

theorem loop_turned {R : Mat3} (inc inc' : Motion3 → Outcome Motion3) (conv : List Motion3 → Bool)
    (hc : ∀ h : List Motion3, conv (h.map (conjBy R)) = conv h)
    (hi : ∀ T, inc' (conjBy R T) = match inc T with | .ok M => .ok (conjBy R M) | .abort => .abort | .ub => .ub) (maxIt : Int) :
    ∀ (fuel : Nat) (T : Motion3) (hist : List Motion3) (it : Int),
      icpLoop inc' conv maxIt fuel (conjBy R T) (hist.map (conjBy R)) it =
        match icpLoop inc conv maxIt fuel T hist it with
        | some (.ok r) => some (.ok (conjBy R r.1, r.2.map (conjBy R)))
        | some .abort => some .abort
        | some .ub => some .ub
        | none => none := by
  intro fuel
  induction fuel with
  | zero => intros; rfl
  | succ fuel ih =>
    intro T hist it
    rw [icpLoop, icpLoop, hi]
    cases inc T with
    | abort => rfl
    | ub => rfl
    | ok M =>
      dsimp only
      rw [← conjBy_mul, show hist.map (conjBy R) ++ [conjBy R (M * T)] = (hist ++ [M * T]).map (conjBy R) by simp, hc]
      split
      · rfl
      · exact ih _ _ _

theorem mean_moved {R : Mat3} (v : Fin 3 → ℝ) (l : List (Fin 3 → ℝ)) (hl : l ≠ []) :
    groupMean (l.map fun p => fun i => R.mulVec p i + v i) = fun i => R.mulVec (groupMean l) i + v i := by
  have hn : (l.length : ℝ) ≠ 0 := by
    have : l.length ≠ 0 := by simpa using hl
    exact_mod_cast this
  have hw : ∀ l : List (Fin 3 → ℝ), waveB (l.map fun p => fun i => R.mulVec p i + v i) =
      fun i => R.mulVec (waveB l) i + l.length * v i := by
    intro l
    induction l with
    | nil => funext i; simp [waveB, Matrix.mulVec, dotProduct]
    | cons p l ih =>
      funext i
      have h1 := congrFun ih i
      simp only [waveB, List.map_cons, List.sum_cons, List.map_map, Function.comp_def, List.length_cons] at h1 ⊢
      rw [h1]
      have hc : ∀ k, waveB (p :: l) k = p k + waveB l k := fun k => by simp [waveB]
      simp only [Matrix.mulVec, dotProduct, Fin.sum_univ_three, hc]
      push_cast
      ring
  funext i
  unfold groupMean
  rw [hw, List.length_map]
  simp only [Matrix.mulVec, dotProduct, Fin.sum_univ_three]
  field_simp

/-- C136: keep the map in another frame, turned by `R` and moved by `v`, and give the prediction in that frame: the match is
the same match in that frame, after the same number of iterations, and it stops with the same error if it stops with one.
For every cloud, search, share of outliers, solver, limit of iterations and test of convergence, as long as the search and the
test look at distances and angles only. -/
theorem C136_frame {R : Mat3} (h : IsRot3 R) (v : Fin 3 → ℝ) (s : IcpSetup) (hL : LibOk s.lib) (hs : SeesNoFrame s R)
    (tgt : List ((Fin 3 → ℝ) × (Fin 3 → ℝ))) (ht : tgt ≠ []) (src : List ((Fin 3 → ℝ) × ℝ)) (guess : Motion3) (fuel : Nat) :
    fastAlign s (inFrame R v tgt) src (motionOf (R, v) * guess) fuel =
      match fastAlign s tgt src guess fuel with
      | some (.ok r) => some (.ok (motionOf (R, v) * r.1, r.2.map fun T => motionOf (R, 0) * T * (motionOf (R, 0))⁻¹))
      | some .abort => some .abort
      | some .ub => some .ub
      | none => none := by
  have hfst : (inFrame R v tgt).map Prod.fst = (tgt.map Prod.fst).map fun p => fun i => R.mulVec p i + v i := by
    unfold inFrame
    rw [List.map_map, List.map_map]
    rfl
  have hmean : groupMean ((inFrame R v tgt).map Prod.fst) = fun i => R.mulVec (groupMean (tgt.map Prod.fst)) i + v i := by
    rw [hfst, mean_moved v _ (by simpa using ht)]
  have haround : aroundMean (inFrame R v tgt) = (aroundMean tgt).map (Prod.map R.mulVec R.mulVec) := by
    unfold aroundMean
    rw [hmean]
    generalize groupMean (tgt.map Prod.fst) = m
    unfold inFrame
    rw [List.map_map, List.map_map]
    refine List.map_congr_left fun t _ => ?_
    refine Prod.ext ?_ rfl
    funext i
    simp only [Function.comp_def, Prod.map, Matrix.mulVec, dotProduct, Fin.sum_univ_three]
    ring
  unfold fastAlign
  rw [haround, hmean]
  generalize groupMean (tgt.map Prod.fst) = m
  generalize aroundMean tgt = tc
  have hshift : shiftMotion (fun i => R.mulVec m i + v i) * motionOf (R, 0) = motionOf (R, v) * shiftMotion m := by
    ext1 p
    rw [Equiv.Perm.mul_apply, Equiv.Perm.mul_apply, shiftMotion_apply, shiftMotion_apply, turn_apply h, turn_apply h]
    funext i
    simp only [Pi.add_apply, Pi.zero_apply, Matrix.mulVec, dotProduct, Fin.sum_univ_three]
    ring
  have hstart : (shiftMotion (fun i => R.mulVec m i + v i))⁻¹ * (motionOf (R, v) * guess) =
      motionOf (R, 0) * ((shiftMotion m)⁻¹ * guess) := by
    have : (shiftMotion (fun i => R.mulVec m i + v i))⁻¹ * motionOf (R, v) = motionOf (R, 0) * (shiftMotion m)⁻¹ := by
      rw [inv_mul_eq_iff_eq_mul, ← mul_assoc, hshift, mul_assoc, mul_inv_cancel, mul_one]
    rw [← mul_assoc, this, mul_assoc]
  unfold icpAlign
  dsimp only
  rw [hstart]
  generalize (shiftMotion m)⁻¹ * guess = start
  have h1 : conjBy R 1 = 1 := by unfold conjBy; group
  have hloop := loop_turned (R := R) (icpIncrement s tc src start)
    (icpIncrement s (tc.map (Prod.map R.mulVec R.mulVec)) src (motionOf (R, 0) * start)) s.conv hs.conv
    (fun T => increment_turned h s hL hs tc src start T) s.maxIt fuel 1 [1] 0
  rw [List.map_cons, List.map_nil, h1] at hloop
  rw [hloop]
  cases icpLoop (icpIncrement s tc src start) s.conv s.maxIt fuel 1 [1] 0 with
  | none => rfl
  | some o =>
    cases o with
    | abort => rfl
    | ub => rfl
    | ok r =>
      obtain ⟨T, hist⟩ := r
      dsimp only
      have : shiftMotion (fun i => R.mulVec m i + v i) * conjBy R T * (motionOf (R, 0) * start) =
          motionOf (R, v) * (shiftMotion m * T * start) := by
        unfold conjBy
        rw [← mul_assoc (motionOf (R, v)), ← mul_assoc (motionOf (R, v)), ← hshift]
        group
      rw [this]
      rfl

/-! ### the normals -/

theorem sum_turned (R : Mat3) (l : List (Fin 3 → ℝ)) (i j : Fin 3) :
    (l.map fun p => R.mulVec p i * R.mulVec p j).sum = ∑ a, ∑ b, R i a * R j b * (l.map fun p => p a * p b).sum := by
  induction l with
  | nil => simp
  | cons p l ih =>
    simp only [List.map_cons, List.sum_cons, ih]
    simp only [Matrix.mulVec, dotProduct, Fin.sum_univ_three]
    ring

theorem wave_turned (R : Mat3) (l : List (Fin 3 → ℝ)) : waveM (l.map R.mulVec) = R * waveM l * Rᵀ ∧
    waveB (l.map R.mulVec) = R *ᵥ waveB l := by
  constructor
  · ext i j
    have := sum_turned R l i j
    simp only [waveM, List.map_map, Function.comp_def, Matrix.mul_apply, Matrix.transpose_apply, Fin.sum_univ_three] at this ⊢
    rw [this]
    ring
  · induction l with
    | nil => funext i; simp [waveB, Matrix.mulVec, dotProduct]
    | cons p l ih =>
      funext i
      have h1 := congrFun ih i
      have hc : ∀ k, waveB (p :: l) k = p k + waveB l k := fun k => by simp [waveB]
      simp only [waveB, List.map_cons, List.sum_cons, List.map_map, Function.comp_def] at h1 ⊢
      rw [h1]
      simp only [Matrix.mulVec, dotProduct, Fin.sum_univ_three, hc]
      ring

theorem cov_turned (R : Mat3) (l : List (Fin 3 → ℝ)) (hl : l ≠ []) : groupCov (l.map R.mulVec) = R * groupCov l * Rᵀ := by
  have hm : groupMean (l.map R.mulVec) = R *ᵥ groupMean l := by
    have := mean_moved (R := R) 0 l hl
    simpa using this
  have e : groupCov (l.map R.mulVec) = waveM ((l.map fun p => fun i => p i - groupMean l i).map R.mulVec) := by
    ext i j
    simp only [groupCov, waveM, hm, List.map_map, Function.comp_def]
    congr 1
    refine List.map_congr_left fun p _ => ?_
    simp only [Matrix.mulVec, dotProduct, Fin.sum_univ_three]
    ring
  rw [e, (wave_turned R _).1]
  congr 2
  ext i j
  simp only [groupCov, waveM, List.map_map, Function.comp_def]

/-- C136, the normals: in a turned frame a patch has the turned mean and the turned normal, and it is accepted or left out as
before. (In a moved frame it has another normal: C133_moved_fails.) -/
theorem C136_normals_partial {R : Mat3} (h : IsRot3 R) (l : List (Fin 3 → ℝ)) (hl : l ≠ []) :
    realEstimator.mean (l.map R.mulVec) = R *ᵥ realEstimator.mean l ∧
    realEstimator.rankOk (l.map R.mulVec) = realEstimator.rankOk l ∧
    realEstimator.normal (l.map R.mulVec) = (realEstimator.normal l).map R.mulVec := by
  have hRRt : R * Rᵀ = 1 := mul_eq_one_comm.1 h.1
  have hdet : IsUnit R.det := by rw [h.2]; exact isUnit_one
  have hdet' : IsUnit Rᵀ.det := by rw [Matrix.det_transpose]; exact hdet
  refine ⟨?_, ?_, ?_⟩
  · have := mean_moved (R := R) 0 l hl
    simpa [realEstimator] using this
  · show (!decide ((groupCov (l.map R.mulVec)).rank + 1 < 3)) = !decide ((groupCov l).rank + 1 < 3)
    rw [cov_turned R l hl, Matrix.rank_mul_eq_left_of_isUnit_det _ _ hdet', Matrix.rank_mul_eq_right_of_isUnit_det _ _ hdet]
  · show groupNormal (l.map R.mulVec) = (groupNormal l).map R.mulVec
    unfold groupNormal
    rw [(wave_turned R l).1, (wave_turned R l).2]
    have hd : (R * waveM l * Rᵀ).det = (waveM l).det := by
      rw [Matrix.det_mul, Matrix.det_mul, Matrix.det_transpose, h.2]
      ring
    rw [hd]
    split
    · rfl
    · rename_i hne
      have hu : IsUnit (waveM l).det := isUnit_iff_ne_zero.2 hne
      have hinv : (R * waveM l * Rᵀ)⁻¹ = R * (waveM l)⁻¹ * Rᵀ := by
        apply Matrix.inv_eq_right_inv
        calc R * waveM l * Rᵀ * (R * (waveM l)⁻¹ * Rᵀ) = R * waveM l * (Rᵀ * R) * (waveM l)⁻¹ * Rᵀ := by
              simp only [Matrix.mul_assoc]
          _ = R * (waveM l * (waveM l)⁻¹) * Rᵀ := by rw [h.1, Matrix.mul_one]; simp only [Matrix.mul_assoc]
          _ = 1 := by rw [Matrix.mul_nonsing_inv _ hu, Matrix.mul_one, hRRt]
      rw [hinv, mulVec_mulVec, Matrix.mul_assoc, h.1, Matrix.mul_one, ← mulVec_mulVec]
      simp only [Option.map_some]
      congr 1
      generalize (waveM l)⁻¹ *ᵥ waveB l = n
      unfold unitNormal
      dsimp only
      rw [rot_sq h]
      split
      · generalize Real.sqrt (∑ i, n i ^ 2) = z
        have e5 : (fun i => n i / z) = z⁻¹ • n := by
          funext i
          simp [div_eq_inv_mul]
        rw [e5, mulVec_smul]
        funext i
        simp [div_eq_inv_mul]
      · rfl

/-- C136 fails for frames that are moved: the normal of a patch that is not flat changes when the origin is moved by a metre,
and with it the plane that the match goes by. -/
theorem C136_moved_fails : ¬ ∀ (v : Fin 3 → ℝ) (l : List (Fin 3 → ℝ)),
    realEstimator.normal (l.map fun p => fun i => p i + v i) = realEstimator.normal l := by
  intro h
  obtain ⟨h0, n, h1, h2, -⟩ := C133_moved_fails
  have e : (postPatch 0).map (fun p => fun i => p i + (![1, 0, 0] : Fin 3 → ℝ) i) = postPatch 1 := by
    unfold postPatch
    simp only [List.map_cons, List.map_nil, List.cons.injEq, and_true]
    refine ⟨?_, ?_, ?_, ?_, ?_⟩ <;> (funext i; fin_cases i <;> simp)
  have := h ![1, 0, 0] (postPatch 0)
  rw [e, h0, h1, Option.some.injEq] at this
  rw [this] at h2
  exact h2 rfl

/-! ### a search that looks at distances -/

/-- The nearest target point, the first of several, with its squared distance rounded down. -/
noncomputable def nearestSearch (ts : List (Fin 3 → ℝ)) (p : Fin 3 → ℝ) : IcpMatch :=
  match (ts.map fun t => (fun i => t i - p i) ⬝ᵥ (fun i => t i - p i)).zipIdx.argmin Prod.fst with
  | some d => ⟨some ⌊d.1⌋, d.2⟩
  | none => ⟨none, 0⟩

theorem nearest_turned {R : Mat3} (h : IsRot3 R) (ts : List (Fin 3 → ℝ)) (p : Fin 3 → ℝ) :
    nearestSearch (ts.map R.mulVec) (R.mulVec p) = nearestSearch ts p := by
  unfold nearestSearch
  have : ((ts.map R.mulVec).map fun t => (fun i => t i - R.mulVec p i) ⬝ᵥ (fun i => t i - R.mulVec p i)) =
      ts.map fun t => (fun i => t i - p i) ⬝ᵥ (fun i => t i - p i) := by
    rw [List.map_map]
    refine List.map_congr_left fun t _ => ?_
    have e : (fun i => R.mulVec t i - R.mulVec p i) = R *ᵥ (fun i => t i - p i) := by
      have : (fun i => t i - p i) = t - p := rfl
      rw [this, mulVec_sub]
      rfl
    simp only [Function.comp_def]
    rw [e, rot_dot h]
  rw [this]

/-- A setting that sees no frame: nearest points, no compensation, ten iterations. -/
example (L : LinLib) {R : Mat3} (h : IsRot3 R) : SeesNoFrame
    { lib := L, search := nearestSearch, ratio := 7 / 10, comp := false, share := fun _ T => T, conv := fun h => decide (10 < h.length),
      maxIt := 100 } R :=
  ⟨fun ts p => nearest_turned h ts p, fun _ _ => rfl, fun h => by simp⟩

/-- A turn about z is a change of frame. -/
example : IsRot3 (rotZ 1) := rotZ_rotation 1
end Verif
