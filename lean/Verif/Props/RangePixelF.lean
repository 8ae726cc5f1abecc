import Verif.Proofs.RangePixelF
import Verif.Props.RangePixel
/-! Property theorems C126 (range image with the rounding of the machine). -/
namespace Verif
open Spec

/-- C126: with the rounding of the machine a point still comes into the pixel of its direction, if the direction is
four millionths of a radian or more from the borders of the pixel. -/
theorem C126_pixel (o : FloatOps) (h : Ieee o) (c : ImageCfg) (hc : Sized c) (p : InnerPoint ℝ) (hq : UsualPoint (fromSensor c p))
    (r ε φ : ℝ) (hs : SeenAt (fromSensor c p) r ε φ) (hfar : (1 + 1 / 1000000) / 100 ≤ r * Real.cos ε) (i j : Int)
    (hi : WellInRow c (4 / 1000000) ε i) (hj : WellInCol c (4 / 1000000) φ j) : imagePixelF o c p = .ok (some (i, j)) :=
  pixelF_in h hc hq hs hfar hi hj

/-- C126: points nearer than a centimetre to the axis, above the field, or more than a row below it come into no
pixel. -/
theorem C126_outside (o : FloatOps) (h : Ieee o) (c : ImageCfg) (hc : Sized c) (p : InnerPoint ℝ) (hq : UsualPoint (fromSensor c p))
    (r ε φ : ℝ) (hs : SeenAt (fromSensor c p) r ε φ)
    (hout : r * Real.cos ε ≤ (1 - 1 / 1000000) / 100 ∨ c.top / 180 * Real.pi + 4 / 1000000 ≤ ε ∨
      ε + 4 / 1000000 ≤ (c.btm - (c.top - c.btm) / c.rows) / 180 * Real.pi) : imagePixelF o c p = .ok none :=
  pixelF_out h hc hq hs hout

/-- C126: no point makes the conversion to an integer overflow. -/
theorem C126_defined (o : FloatOps) (h : Ieee o) (c : ImageCfg) (hc : Sized c) (p : InnerPoint ℝ) (hq : UsualPoint (fromSensor c p))
    (r ε φ : ℝ) (hs : SeenAt (fromSensor c p) r ε φ) : ∃ q, imagePixelF o c p = .ok q ∧
      ∀ i j, q = some (i, j) → 0 ≤ i ∧ i < c.rows ∧ 0 ≤ j ∧ j < c.cols := by
  obtain ⟨X, hrow, -⟩ := rowF_ok h hc (p := p) hq hs
  unfold imagePixelF
  dsimp only
  split
  · exact ⟨none, rfl, fun _ _ g => by cases g⟩
  · rw [hrow]
    simp only [Outcome.bind_ok, Outcome.pure_eq]
    generalize (if c.cols ≤ imageColF o c (shiftF o c p) then imageColF o c (shiftF o c p) - c.cols else imageColF o c (shiftF o c p)) = m
    split
    · exact ⟨none, rfl, fun _ _ g => by cases g⟩
    · split
      · exact ⟨none, rfl, fun _ _ g => by cases g⟩
      · refine ⟨_, rfl, fun i j g => ?_⟩
        simp only [Option.some.injEq, Prod.mk.injEq] at g
        omega

/-- C126: away from the borders the rounding of the machine changes nothing. -/
theorem C126_same (o : FloatOps) (h : Ieee o) (c : ImageCfg) (hc : Sized c) (p : InnerPoint ℝ) (hq : UsualPoint (fromSensor c p))
    (r ε φ : ℝ) (hs : SeenAt (fromSensor c p) r ε φ) (hfar : (1 + 1 / 1000000) / 100 ≤ r * Real.cos ε) (i j : Int)
    (hi : WellInRow c (4 / 1000000) ε i) (hj : WellInCol c (4 / 1000000) φ j) : imagePixel c p = imagePixelF o c p := by
  rw [C126_pixel o h c hc p hq r ε φ hs hfar i j hi hj]
  have hp := Real.pi_lt_d2
  have hp3 := Real.pi_gt_three
  have hv := vRes_ge hc
  have hfit : Real.pi / 2 + |c.btm| / 180 * Real.pi ≤ 2147483647 * c.vRes := by
    have : |c.btm| / 180 ≤ 1 / 2 := by linarith [hc.btm]
    nlinarith [abs_nonneg c.btm]
  obtain ⟨q, hq', hpix⟩ := C107_pixel c hc.rows.1 hc.cols.1 (by linarith [hc.view]) hfit p r ε φ hs
  rw [hq', (hpix i j).2]
  refine ⟨by linarith, .inl ⟨hi.1.1, hi.1.2.1, by linarith [hi.1.2.2.1], by linarith [hi.2.2.2.2]⟩, hj.1, hj.2.1, ?_⟩
  rcases hj.2.2 with ⟨a, b⟩ | ⟨a, b⟩
  · exact .inl ⟨by linarith, by linarith⟩
  · exact .inr ⟨a, by linarith⟩

/-- Rounding to nearest keeps the promise, the default image is of a size one may ask for, and a point ten metres
ahead and half a row above the horizon is well in its pixel. -/
example : Ieee nearestOps ∧ Sized defaultImage ∧
    ∃ (p : InnerPoint ℝ) (r ε φ : ℝ), UsualPoint (fromSensor defaultImage p) ∧ SeenAt (fromSensor defaultImage p) r ε φ ∧
      (1 + 1 / 1000000) / 100 ≤ r * Real.cos ε ∧ WellInRow defaultImage (4 / 1000000) ε 13 ∧
      WellInCol defaultImage (4 / 1000000) φ 0 ∧ imagePixelF nearestOps defaultImage p = .ok (some (13, 0)) := by
  have hp := Real.pi_lt_d2
  have hp3 := Real.pi_gt_three
  have hs : SeenAt (fromSensor defaultImage ⟨10, 0, 0, 0, 0⟩) 10 0 0 :=
    ⟨by norm_num, ⟨by linarith, by linarith⟩, ⟨le_rfl, by linarith⟩, by simp [fromSensor, defaultImage],
      by simp [fromSensor, defaultImage], by simp [fromSensor, defaultImage]⟩
  have hc : Sized defaultImage := by
    refine ⟨by decide, by decide, ?_, ?_, ?_⟩ <;> simp only [defaultImage] <;> norm_num [abs_le]
  have hq : UsualPoint (fromSensor defaultImage ⟨10, 0, 0, 0, 0⟩) := by
    refine ⟨.inr ?_, .inl ?_, .inl ?_⟩ <;> simp [fromSensor, defaultImage]
    norm_num
  have hf : (1 + 1 / 1000000) / 100 ≤ (10 : ℝ) * Real.cos 0 := by
    rw [Real.cos_zero]
    norm_num
  have hi : WellInRow defaultImage (4 / 1000000) 0 13 := by
    refine ⟨⟨by decide, by decide, ?_, ?_⟩, ⟨by decide, by decide, ?_, ?_⟩⟩ <;> simp only [defaultImage] <;> push_cast <;> nlinarith
  have hj : WellInCol defaultImage (4 / 1000000) 0 0 := by
    refine ⟨le_rfl, by decide, .inl ⟨?_, ?_⟩⟩ <;> simp only [defaultImage] <;> push_cast <;> nlinarith
  exact ⟨nearest_ieee, hc, _, _, _, _, hq, hs, hf, hi, hj, C126_pixel _ nearest_ieee _ hc _ hq _ _ _ hs hf _ _ hi hj⟩

end Verif
