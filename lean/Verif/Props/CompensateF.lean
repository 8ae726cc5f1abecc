import Verif.Proofs.CompensateF
namespace Verif
open Verif.Spec
noncomputable section

/-- C127: with the rounding of `double`s and `float`s, a compensated point is where the ideal motion puts it — the part
`factor` of the turn about the same axis and of the way — up to the last place of a `float`, the error `d` of the given
rotation and 4 parts in 10^12.  This holds for turns however small. -/
theorem C127_point {o : TrigOps} (ho : IeeeTrig o) {R : Mat3} (hR : IsRot3 R) {θ : ℝ} (h : TurnAngle 1 R θ) (hθ : θ ≤ Real.pi / 2)
    {delta : Rigid ℝ} {d : ℝ} (hd : ∀ i j, |delta.rot i j - R i j| ≤ d) (d1 : d ≤ 1 / 10 ^ 6) {p : InnerPoint ℝ}
    (f0 : 0 ≤ p.factor) (f1 : p.factor ≤ 1) {A B : ℝ} (hx : |p.x| ≤ B) (hy : |p.y| ≤ B) (hz : |p.z| ≤ B) (B1 : 1 ≤ B) (B2 : B ≤ 2 ^ 40)
    (hT : ∀ i, |delta.trans i| ≤ A) (A1 : 1 ≤ A) (A2 : A ≤ 2 ^ 40) :
    ∃ (q : InnerPoint ℝ) (S : Mat3), compensateF o delta p = .ok q ∧ q.intensity = p.intensity ∧ q.factor = p.factor ∧
      IsRot3 S ∧ TurnAngle 1 S (p.factor * θ) ∧ TurnAngle S R ((1 - p.factor) * θ) ∧
      ∀ k : Fin 3, |![q.x, q.y, q.z] k - placeAfter S (fun i => p.factor * delta.trans i) p k| ≤
        1 / 2 ^ 24 * |placeAfter S (fun i => p.factor * delta.trans i) p k| + (1360 * d + 4 / 10 ^ 12) * B + 4 / 10 ^ 15 * A := by
  have ep := eta_pos
  have el := eta_le
  have d0 : 0 ≤ d := (abs_nonneg _).trans (hd 0 0)
  obtain ⟨a1, a2, a3⟩ := ideal_turn hR h hθ f0 f1
  have near := slerpF_near ho hR h hθ hd d1 f0 f1
  have m := toMatF_near ho (ideal_unit hR h hθ p.factor) (by linarith : (0:ℝ) ≤ 50 * d + 460 * eta) (by linarith) near
  obtain ⟨M, hM⟩ : ∃ M, M = toMatF o (slerpQuatF o (quatOfMatF o 1) (quatOfMatF o delta.rot) p.factor) := ⟨_, rfl⟩
  obtain ⟨S, hS⟩ : ∃ S, S = (idealQuat R p.factor (θ / 2)).toMat := ⟨_, rfl⟩
  rw [← hM, ← hS] at m
  rw [← hS] at a1 a2 a3
  let v : Fin 3 → ℝ := fun i => o.f64 (o.f64 (o.f64 (o.f64 (M i 0 * p.x) + o.f64 (M i 1 * p.y)) + o.f64 (M i 2 * p.z)) +
    o.f64 (0 + o.f64 (o.f64 (delta.trans i - 0) * p.factor)))
  have hv : ∀ i, |v i - placeAfter S (fun i => p.factor * delta.trans i) p i| ≤ (1230 * d + 12000 * eta) * B + 12 * (eta * A) := by
    intro i
    have := row_near ho (r := S i) (r' := M i) (v := fun _ => v i) (δ := 41 / 5 * (50 * d + 460 * eta) + 30 * eta)
      (rot_entry_le a1 i) (by linarith) (m i) hx hy hz B1 B2 (hT i) A1 A2 f0 f1 rfl
    refine this.trans (le_of_sub_nonneg ?_)
    have : (1230 * d + 12000 * eta) * B + 12 * (eta * A) -
      (3 * ((41 / 5 * (50 * d + 460 * eta) + 30 * eta) * B) + 20 * (eta * B) + 12 * (eta * A)) = 574 * (eta * B) := by ring
    rw [this]
    positivity
  have pl : ∀ i, |placeAfter S (fun i => p.factor * delta.trans i) p i| ≤ 3 * B + A := by
    intro i
    unfold placeAfter
    have b1 : ∀ j c, |c| ≤ B → |S i j * c| ≤ B := fun j c hc => by
      rw [abs_mul]
      nlinarith [rot_entry_le a1 i j, abs_nonneg (S i j), abs_nonneg c]
    have b4 : |p.factor * delta.trans i| ≤ A := by
      rw [abs_mul, abs_of_nonneg f0]
      nlinarith [abs_nonneg (delta.trans i), hT i]
    have c1 := abs_add_le (S i 0 * p.x + S i 1 * p.y + S i 2 * p.z) (p.factor * delta.trans i)
    have c2 := abs_add_le (S i 0 * p.x + S i 1 * p.y) (S i 2 * p.z)
    have c3 := abs_add_le (S i 0 * p.x) (S i 1 * p.y)
    linarith [b1 0 p.x hx, b1 1 p.y hy, b1 2 p.z hz]
  have fin : ∀ i, |o.f32 (v i) - placeAfter S (fun i => p.factor * delta.trans i) p i| ≤
      1 / 2 ^ 24 * |placeAfter S (fun i => p.factor * delta.trans i) p i| + (1360 * d + 4 / 10 ^ 12) * B + 4 / 10 ^ 15 * A := by
    intro i
    have eB : eta * B ≤ 1 / 4 * (1 / 10 ^ 15) * B := by gcongr
    have eA : eta * A ≤ 1 / 4 * (1 / 10 ^ 15) * A := by gcongr
    have dB : d * B ≤ 1 / 10 ^ 6 * B := by gcongr
    have dB0 : 0 ≤ d * B := by positivity
    have g := near32 ho (hv i) (by
      have := abs_near (hv i) (pl i)
      norm_num at A2 B2 ⊢
      linarith)
    have t : (1 : ℝ) / 2 ^ 150 ≤ 1 / 10 ^ 16 * A := by
      have : (1 : ℝ) / 2 ^ 150 ≤ 1 / 10 ^ 16 := by norm_num
      linarith
    linarith
  refine ⟨{ x := o.f32 (v 0), y := o.f32 (v 1), z := o.f32 (v 2), intensity := p.intensity, factor := p.factor }, S, ?_, rfl, rfl, a1, a2, a3, ?_⟩
  · have hc : (0 ≤ p.factor ∧ p.factor ≤ 1) := ⟨f0, f1⟩
    simp only [compensateF, interpolateF, Outcome.check, hc, Rigid.id, ← hM]
    rfl
  · intro k
    fin_cases k
    · exact fin 0
    · exact fin 1
    · exact fin 2

/-- C127: a fraction outside [0, 1] ends the program. -/
theorem C127_refused (o : TrigOps) (delta : Rigid ℝ) (p : InnerPoint ℝ) (h : p.factor < 0 ∨ 1 < p.factor) :
    compensateF o delta p = .abort := by
  have hc : ¬ (0 ≤ p.factor ∧ p.factor ≤ 1) := by
    rintro ⟨h0, h1⟩
    rcases h with h | h <;> linarith
  simp only [compensateF, interpolateF, Outcome.check, hc]
  rfl

/-- C127: the numbers of a scanner with a range of 200 metres on a vehicle that moves at most 20 metres during a scan: no
coordinate is off by more than 20 micrometres. -/
theorem C127_everyday {o : TrigOps} (ho : IeeeTrig o) {R : Mat3} (hR : IsRot3 R) {θ : ℝ} (h : TurnAngle 1 R θ) (hθ : θ ≤ Real.pi / 2)
    {delta : Rigid ℝ} (hd : ∀ i j, |delta.rot i j - R i j| ≤ 1 / 10 ^ 11) (hT : lenSq delta.trans ≤ 20 ^ 2)
    (raw : List (InnerPoint ℝ)) (hf : ∀ p ∈ raw, 0 ≤ p.factor ∧ p.factor ≤ 1) (hp : ∀ p ∈ raw, lenSq ![p.x, p.y, p.z] ≤ 200 ^ 2) :
    ∃ out, compensateAllF o delta raw = .ok out ∧ out.length = raw.length ∧
      ∀ (i : Nat) (p : InnerPoint ℝ), raw[i]? = some p → ∃ (q : InnerPoint ℝ) (S : Mat3), out[i]? = some q ∧
        q.intensity = p.intensity ∧ q.factor = p.factor ∧
        IsRot3 S ∧ TurnAngle 1 S (p.factor * θ) ∧ TurnAngle S R ((1 - p.factor) * θ) ∧
        ∀ k : Fin 3, |![q.x, q.y, q.z] k - placeAfter S (fun i => p.factor * delta.trans i) p k| ≤ 20 / 10 ^ 6 := by
  have comp : ∀ (v : Fin 3 → ℝ) (B : ℝ), 0 ≤ B → lenSq v ≤ B ^ 2 → ∀ i, |v i| ≤ B := by
    intro v B hB hl i
    apply abs_le_of_sq_le_sq _ hB
    unfold lenSq at hl
    fin_cases i <;> simp <;> nlinarith [sq_nonneg (v 0), sq_nonneg (v 1), sq_nonneg (v 2)]
  induction raw with
  | nil => exact ⟨[], rfl, rfl, fun i p hi => by simp at hi⟩
  | cons p ps ih =>
    obtain ⟨out, e1, e2, e3⟩ := ih (fun q hq => hf q (List.mem_cons_of_mem _ hq)) (fun q hq => hp q (List.mem_cons_of_mem _ hq))
    obtain ⟨f0, f1⟩ := hf p List.mem_cons_self
    have hl := hp p List.mem_cons_self
    have pc := comp _ 200 (by norm_num) hl
    obtain ⟨q, S, g1, g2, g3, g4, g5, g6, g7⟩ := C127_point ho hR h hθ hd (by norm_num) f0 f1 (B := 200) (A := 20)
      (pc 0) (pc 1) (pc 2) (by norm_num) (by norm_num) (comp _ 20 (by norm_num) hT) (by norm_num) (by norm_num)
    refine ⟨q :: out, ?_, by simp [e2], ?_⟩
    · simp only [compensateAllF, g1, e1]
      rfl
    · intro i r hr
      cases i with
      | succ i => exact e3 i r (by simpa using hr)
      | zero =>
        obtain rfl : p = r := by simpa using hr
        refine ⟨q, S, by simp, g2, g3, g4, g5, g6, fun k => (g7 k).trans ?_⟩
        have rowlen : S k 0 ^ 2 + S k 1 ^ 2 + S k 2 ^ 2 = 1 := by
          have e := mul_eq_one_comm.1 g4.1
          have e := congrFun (congrFun e k) k
          rw [Matrix.mul_apply, Matrix.one_apply_eq, Fin.sum_univ_three] at e
          simp only [Matrix.transpose_apply] at e
          linarith [pow_two (S k 0), pow_two (S k 1), pow_two (S k 2)]
        have r1 : |S k 0 * p.x + S k 1 * p.y + S k 2 * p.z| ≤ 200 := by
          apply abs_le_of_sq_le_sq _ (by norm_num)
          have l : p.x ^ 2 + p.y ^ 2 + p.z ^ 2 ≤ 200 ^ 2 := hl
          have : (S k 0 * p.x + S k 1 * p.y + S k 2 * p.z) ^ 2 ≤ (S k 0 ^ 2 + S k 1 ^ 2 + S k 2 ^ 2) * (p.x ^ 2 + p.y ^ 2 + p.z ^ 2) := by
            nlinarith [sq_nonneg (S k 0 * p.y - S k 1 * p.x), sq_nonneg (S k 0 * p.z - S k 2 * p.x), sq_nonneg (S k 1 * p.z - S k 2 * p.y)]
          rw [rowlen, one_mul] at this
          linarith
        have r2 : |p.factor * delta.trans k| ≤ 20 := by
          rw [abs_mul, abs_of_nonneg f0]
          nlinarith [abs_nonneg (delta.trans k), comp _ 20 (by norm_num) hT k]
        have r3 : |placeAfter S (fun i => p.factor * delta.trans i) p k| ≤ 220 :=
          (abs_add_le _ _).trans (by linarith)
        norm_num
        linarith

/-- There are operations as required, a turn by 0.1 and a cloud with points. -/
example : ∃ (o : TrigOps) (R : Mat3) (θ : ℝ) (delta : Rigid ℝ), IeeeTrig o ∧ IsRot3 R ∧ TurnAngle 1 R θ ∧ 0 < θ ∧ θ ≤ Real.pi / 2 ∧
    (∀ i j, |delta.rot i j - R i j| ≤ 1 / 10 ^ 11) ∧ lenSq delta.trans ≤ 20 ^ 2 ∧ delta.trans 0 ≠ 0 ∧
    lenSq ![(100 : ℝ), 20, 3] ≤ 200 ^ 2 := by
  have hpi := Real.pi_gt_three
  refine ⟨nearestTrig, rotZ (1 / 10), 1 / 10, ⟨rotZ (1 / 10), ![1, 0, 0]⟩, nearest_trig, ?_, ⟨by norm_num, by linarith, ?_⟩,
    by norm_num, by linarith, fun i j => by simp, ?_, by simp, by simp [lenSq]; norm_num⟩
  · have := Real.sin_sq_add_cos_sq (1 / 10)
    constructor
    · apply mat3_ext <;> simp [rotZ, Matrix.mul_apply, Fin.sum_univ_three] <;> nlinarith
    · simp [rotZ, Matrix.det_fin_three]
      nlinarith
  · simp [rotZ, Matrix.trace_fin_three]
    ring
  · simp [lenSq]

end
end Verif
