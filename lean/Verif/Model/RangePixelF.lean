import Verif.Model.RangePixel
/-
The pixel of a point with the arithmetic of `float`s and `double`s.

Models `pre_processors/filter_range_image.cc` 88-126 with every rounding.  How numbers are rounded and what the C
library gives for an arc tangent are parameters; how far they may be off is a hypothesis (`Spec.Ieee`).
-/
namespace Verif
noncomputable section

/-- Rounding to `float` and to `double`, and `std::atan2` of two `float`s. -/
structure FloatOps where
  f32 : ℝ → ℝ
  f64 : ℝ → ℝ
  at2 : ℝ → ℝ → ℝ

/-- `M_PI`. -/
def FloatOps.pi (o : FloatOps) : ℝ := o.f64 Real.pi

/-- `image_horizontal_res` (filter_range_image.cc:89-90). -/
def hResF (o : FloatOps) (c : ImageCfg) : ℝ := o.f32 (o.f64 (o.pi * 2 / o.f32 c.cols))

/-- `image_vertical_res` (filter_range_image.cc:91-93). -/
def vResF (o : FloatOps) (c : ImageCfg) : ℝ :=
  o.f32 (o.f64 (o.f32 (o.f32 (o.f32 (c.top - c.btm) / o.f32 c.rows) / 180) * o.pi))

/-- filter_range_image.cc:103-105. -/
def shiftF (o : FloatOps) (c : ImageCfg) (p : InnerPoint ℝ) : InnerPoint ℝ :=
  { p with x := o.f32 (p.x + c.ox), y := o.f32 (p.y + c.oy), z := o.f32 (p.z + c.oz) }

/-- `distance_in_xy` (106). -/
def flatF (o : FloatOps) (q : InnerPoint ℝ) : ℝ :=
  o.f32 (Real.sqrt (o.f32 (o.f32 (q.x * q.x) + o.f32 (q.y * q.y))))

/-- filter_range_image.cc:111-112. -/
def imageRowF (o : FloatOps) (c : ImageCfg) (q : InnerPoint ℝ) : Outcome Int :=
  if vResF o c = 0 then .ub
  else
    let k := realTrunc (o.f64 (o.f64 (o.at2 q.z (flatF o q) - o.f64 (o.f32 (c.btm / 180) * o.pi)) / vResF o c))
    if -2147483648 ≤ k ∧ k ≤ 2147483647 then .ok k else .ub

/-- filter_range_image.cc:117-121. -/
def imageColF (o : FloatOps) (c : ImageCfg) (q : InnerPoint ℝ) : Int :=
  let a := o.at2 q.y q.x
  realLround (o.f32 ((if a < 0 then o.f32 (o.f64 (a + o.pi * 2)) else a) / hResF o c))

/-- filter_range_image.cc:103-126 : the pixel of a point; `none` makes it an outlier. -/
def imagePixelF (o : FloatOps) (c : ImageCfg) (p : InnerPoint ℝ) : Outcome (Option (Int × Int)) :=
  let q := shiftF o c p
  if flatF o q < o.f32 (1 / 100) then .ok none
  else do
    let row ← imageRowF o c q
    if row < 0 ∨ c.rows ≤ row then return none
    let col := if c.cols ≤ imageColF o c q then imageColF o c q - c.cols else imageColF o c q
    if col < 0 ∨ c.cols ≤ col then return none
    return some (row, col)

end
end Verif
