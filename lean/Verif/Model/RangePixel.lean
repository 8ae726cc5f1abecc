import Verif.Model.DepthCluster
import Verif.Model.Euler
import Verif.Model.Outcome
/-
The geometry of the range image: which pixel a point belongs to, the angle test of the depth clusters, and the
picture that is written.

Models `pre_processors/filter_range_image.cc` 88-128, 254-256, 288-303 and 175-242 and instantiates the range image
of Model/Filters and the clusters of Model/DepthCluster.  Numbers are real: what the rounding of `float`s changes is
the subject of Model/RangePixelF.  The library that encodes the picture is left out; what
it is given are the pixels row by row.
-/
namespace Verif
noncomputable section

/-- The parameters of the filter (filter_range_image.h:78-86): angles in degrees, shift, size of the image. -/
structure ImageCfg where
  top : ℝ
  btm : ℝ
  ox : ℝ
  oy : ℝ
  oz : ℝ
  rows : Int
  cols : Int

/-- `image_horizontal_res` (filter_range_image.cc:89-90). -/
def ImageCfg.hRes (c : ImageCfg) : ℝ := Real.pi * 2 / c.cols

/-- `image_vertical_res` (filter_range_image.cc:91-93). -/
def ImageCfg.vRes (c : ImageCfg) : ℝ := (c.top - c.btm) / c.rows / 180 * Real.pi

/-- filter_range_image.cc:103-105. -/
def ImageCfg.shift (c : ImageCfg) (p : InnerPoint ℝ) : InnerPoint ℝ :=
  { p with x := p.x + c.ox, y := p.y + c.oy, z := p.z + c.oz }

/-- `distance_in_xy` (106). -/
def flatDist (p : InnerPoint ℝ) : ℝ := Real.sqrt (p.x * p.x + p.y * p.y)

/-- Conversion of a number to an integer type: the fraction is dropped. -/
def realTrunc (v : ℝ) : Int := if 0 ≤ v then ⌊v⌋ else ⌈v⌉

/-- `std::lround`: halves go away from zero. -/
def realLround (v : ℝ) : Int := if 0 ≤ v then ⌊v + 1 / 2⌋ else ⌈v - 1 / 2⌉

/-- filter_range_image.cc:111-112; a quotient that is infinite or does not fit into an `int` is undefined. -/
def imageRow (c : ImageCfg) (q : InnerPoint ℝ) : Outcome Int :=
  if c.vRes = 0 then .ub
  else
    let k := realTrunc ((atan2 q.z (flatDist q) - c.btm / 180 * Real.pi) / c.vRes)
    if -2147483648 ≤ k ∧ k ≤ 2147483647 then .ok k else .ub

/-- filter_range_image.cc:117-121 (the quotient is at most the number of columns, an `int`). -/
def imageCol (c : ImageCfg) (q : InnerPoint ℝ) : Int :=
  let a := atan2 q.y q.x
  realLround ((if a < 0 then a + Real.pi * 2 else a) / c.hRes)

/-- filter_range_image.cc:103-126 : the pixel of a point; `none` makes it an outlier. -/
def imagePixel (c : ImageCfg) (p : InnerPoint ℝ) : Outcome (Option (Int × Int)) :=
  let q := c.shift p
  if flatDist q < 1 / 100 then .ok none
  else do
    let row ← imageRow c q
    if row < 0 ∨ c.rows ≤ row then return none
    let col := if c.cols ≤ imageCol c q then imageCol c q - c.cols else imageCol c q
    if col < 0 ∨ c.cols ≤ col then return none
    return some (row, col)

/-- The results for Model/Filters (filter_range_image.cc:103-131); a row that is undefined counts as 0 there. -/
def imageGeom (c : ImageCfg) : ImageGeom ℝ where
  xyDist p := flatDist (c.shift p)
  row p := match imageRow c (c.shift p) with
    | .ok r => r
    | _ => 0
  col p := imageCol c (c.shift p)
  range p := Real.sqrt ((c.shift p).x * (c.shift p).x + (c.shift p).y * (c.shift p).y + (c.shift p).z * (c.shift p).z)
  rangePos p := by
    refine Real.sqrt_le_sqrt ?_
    have := mul_self_nonneg (c.shift p).z
    linarith

open Classical in
/-- The angle test of the depth clusters (filter_range_image.cc:254-256, 288-303; filter_range_image.h:93). -/
def imageDepth (c : ImageCfg) : DepthCfg ℝ where
  rows := c.rows
  cols := c.cols
  tiny := 1 / 1000000
  sep horizontal d1 d2 :=
    let alpha := if horizontal then c.hRes else c.vRes
    decide (10 / 180 * Real.pi < atan2 (d2 * Real.sin alpha) (d1 - d2 * Real.cos alpha))

/-- The three bytes of a pixel. -/
structure Rgb where
  r : Nat
  g : Nat
  b : Nat
  deriving DecidableEq, Repr

/-- filter_range_image.cc:208-227 : one pixel of the row buffer; `old` is what the buffer holds (`none`: never
written since `malloc`).  The quotient of zeros is converted when both are zero, which is undefined. -/
def pngPixel (max : ℝ) (colorful : Bool) (m : ℝ) (old : Option Rgb) : Outcome (Option Rgb) :=
  if max < m then .ok old
  else if max = 0 then .ub
  else
    let v := (realTrunc (m / max * 255)).toNat
    if colorful ∧ m < 1 / 1000000 then .ok (some ⟨0, 255, 0⟩) else .ok (some ⟨v, v, v⟩)

/-- filter_range_image.cc:207-228 : one row, over the buffer of the row before. -/
def pngRow (max : ℝ) (colorful : Bool) : List ℝ → List (Option Rgb) → Outcome (List (Option Rgb))
  | m :: ms, o :: os => do
    let v ← pngPixel max colorful m o
    let vs ← pngRow max colorful ms os
    return v :: vs
  | _, _ => .ok []

/-- filter_range_image.cc:206-230 : all rows, the buffer is used again and again. -/
def pngRows (max : ℝ) (colorful : Bool) : List (List ℝ) → List (Option Rgb) → Outcome (List (List (Option Rgb)))
  | [], _ => .ok []
  | ms :: rest, buf => do
    let r ← pngRow max colorful ms buf
    let rs ← pngRows max colorful rest r
    return r :: rs

/-- filter_range_image.cc:175-242 `ToPng` with a file that can be written and an image that is not empty:
the pixels handed to the encoder.  `image` are the rows of `matrix_image_`, all of the length `width`. -/
def toPng (max : ℝ) (colorful : Bool) (width : Nat) (image : List (List ℝ)) : Outcome (List (List (Option Rgb))) := do
  Outcome.check (0 < image.length ∧ 0 < width)
  pngRows max colorful image (List.replicate width none)

end
end Verif
