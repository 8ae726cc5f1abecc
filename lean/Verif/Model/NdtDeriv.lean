import Mathlib.Analysis.SpecialFunctions.Trigonometric.Basic
import Mathlib.Analysis.SpecialFunctions.Exp
import Mathlib.Analysis.SpecialFunctions.Log.Basic
import Mathlib.LinearAlgebra.Matrix.Notation
/-! The score of the normal distributions transform and its derivatives.

Models `registrators/pclomp/ndt_omp_impl.hpp` 87-93 and 152-545: the constants of the score, the
derivatives of a transformed point with respect to the six parameters of the pose, the contribution of
one point and one cell, and their sum over all points by several threads. Arithmetic is over the real
numbers (the code mixes `float` and `double`; values that are not numbers do not occur). -/
namespace Verif
noncomputable section

/-- Six numbers: translation, then the angles about x, y and z (`Eigen::Matrix<double, 6, 1> p`). -/
abbrev NdtPose := Fin 6 → ℝ

/-- `gauss_c1`, `gauss_c2`, then `gauss_d1_`, `gauss_d2_` (lines 87-93). -/
def gaussC1 (outlier : ℝ) : ℝ := 10 * (1 - outlier)
def gaussC2 (outlier resolution : ℝ) : ℝ := outlier / resolution ^ 3
def gaussD3 (outlier resolution : ℝ) : ℝ := -Real.log (gaussC2 outlier resolution)
def gaussD1 (outlier resolution : ℝ) : ℝ :=
  -Real.log (gaussC1 outlier + gaussC2 outlier resolution) - gaussD3 outlier resolution
def gaussD2 (outlier resolution : ℝ) : ℝ :=
  -2 * Real.log ((-Real.log (gaussC1 outlier * Real.exp (-0.5) + gaussC2 outlier resolution) -
    gaussD3 outlier resolution) / gaussD1 outlier resolution)

/-- Sines and cosines of the three angles. -/
structure NdtTrig where
  cx : ℝ
  sx : ℝ
  cy : ℝ
  sy : ℝ
  cz : ℝ
  sz : ℝ

/-- Cosine and sine of an angle, "simplified for near 0 angles" (lines 292-325). -/
def nearCos (a : ℝ) : ℝ := if |a| < 10e-5 then 1 else Real.cos a
def nearSin (a : ℝ) : ℝ := if |a| < 10e-5 then 0 else Real.sin a

def ndtTrig (p : NdtPose) : NdtTrig :=
  ⟨nearCos (p 3), nearSin (p 3), nearCos (p 4), nearSin (p 4), nearCos (p 5), nearSin (p 5)⟩

/-- `j_ang` (lines 337-345). -/
def jAng (t : NdtTrig) : Fin 8 → Fin 3 → ℝ :=
  ![![-t.sx * t.sz + t.cx * t.sy * t.cz, -t.sx * t.cz - t.cx * t.sy * t.sz, -t.cx * t.cy],
    ![t.cx * t.sz + t.sx * t.sy * t.cz, t.cx * t.cz - t.sx * t.sy * t.sz, -t.sx * t.cy],
    ![-t.sy * t.cz, t.sy * t.sz, t.cy],
    ![t.sx * t.cy * t.cz, -t.sx * t.cy * t.sz, t.sx * t.sy],
    ![-t.cx * t.cy * t.cz, t.cx * t.cy * t.sz, -t.cx * t.sy],
    ![-t.cy * t.sz, -t.cy * t.cz, 0],
    ![t.cx * t.cz - t.sx * t.sy * t.sz, -t.cx * t.sz - t.sx * t.sy * t.cz, 0],
    ![t.sx * t.cz + t.cx * t.sy * t.sz, t.cx * t.sy * t.cz - t.sx * t.sz, 0]]

/-- `h_ang` (lines 370-393). -/
def hAng (t : NdtTrig) : Fin 15 → Fin 3 → ℝ :=
  ![![-t.cx * t.sz - t.sx * t.sy * t.cz, -t.cx * t.cz + t.sx * t.sy * t.sz, t.sx * t.cy],
    ![-t.sx * t.sz + t.cx * t.sy * t.cz, -t.cx * t.sy * t.sz - t.sx * t.cz, -t.cx * t.cy],
    ![t.cx * t.cy * t.cz, -t.cx * t.cy * t.sz, t.cx * t.sy],
    ![t.sx * t.cy * t.cz, -t.sx * t.cy * t.sz, t.sx * t.sy],
    ![-t.sx * t.cz - t.cx * t.sy * t.sz, t.sx * t.sz - t.cx * t.sy * t.cz, 0],
    ![t.cx * t.cz - t.sx * t.sy * t.sz, -t.sx * t.sy * t.cz - t.cx * t.sz, 0],
    ![-t.cy * t.cz, t.cy * t.sz, t.sy],
    ![-t.sx * t.sy * t.cz, t.sx * t.sy * t.sz, t.sx * t.cy],
    ![t.cx * t.sy * t.cz, -t.cx * t.sy * t.sz, -t.cx * t.cy],
    ![t.sy * t.sz, t.sy * t.cz, 0],
    ![-t.sx * t.cy * t.sz, -t.sx * t.cy * t.cz, 0],
    ![t.cx * t.cy * t.sz, t.cx * t.cy * t.cz, 0],
    ![-t.cy * t.cz, t.cy * t.sz, 0],
    ![-t.cx * t.sz - t.sx * t.sy * t.cz, -t.cx * t.cz + t.sx * t.sy * t.sz, 0],
    ![-t.sx * t.sz + t.cx * t.sy * t.cz, -t.cx * t.sy * t.sz - t.sx * t.cz, 0]]

/-- Dot product of three numbers. -/
def dot3 (a b : Fin 3 → ℝ) : ℝ := a 0 * b 0 + a 1 * b 1 + a 2 * b 2

/-- `point_gradient_` (lines 214-216 and 401-416): column `i` is the derivative of the transformed
point with respect to parameter `i`. -/
def pointGradient (t : NdtTrig) (x : Fin 3 → ℝ) (i : Fin 6) : Fin 3 → ℝ :=
  let j := fun k => dot3 (jAng t k) x
  (![![1, 0, 0], ![0, 1, 0], ![0, 0, 1], ![0, j 0, j 1], ![j 2, j 3, j 4], ![j 5, j 6, j 7]] : Fin 6 → Fin 3 → ℝ) i

/-- `point_hessian_` (lines 217 and 418-442): block `i`, column `k`. -/
def pointHessian (t : NdtTrig) (x : Fin 3 → ℝ) (i k : Fin 6) : Fin 3 → ℝ :=
  let h := fun k => dot3 (hAng t k) x
  let a : Fin 3 → ℝ := ![0, h 0, h 1]
  let b : Fin 3 → ℝ := ![0, h 2, h 3]
  let c : Fin 3 → ℝ := ![0, h 4, h 5]
  let d : Fin 3 → ℝ := ![h 6, h 7, h 8]
  let e : Fin 3 → ℝ := ![h 9, h 10, h 11]
  let f : Fin 3 → ℝ := ![h 12, h 13, h 14]
  (![![0, 0, 0, 0, 0, 0], ![0, 0, 0, 0, 0, 0], ![0, 0, 0, 0, 0, 0],
     ![0, 0, 0, a, b, c], ![0, 0, 0, b, d, e], ![0, 0, 0, c, e, f]] : Fin 6 → Fin 6 → Fin 3 → ℝ) i k

/-- A row times a matrix (`x_trans4 * c_inv4`), and a matrix times a column. -/
def rowMat (x : Fin 3 → ℝ) (C : Fin 3 → Fin 3 → ℝ) : Fin 3 → ℝ := fun j => x 0 * C 0 j + x 1 * C 1 j + x 2 * C 2 j
def matCol (C : Fin 3 → Fin 3 → ℝ) (x : Fin 3 → ℝ) : Fin 3 → ℝ := fun i => C i 0 * x 0 + C i 1 * x 1 + C i 2 * x 2

/-- Score, gradient and Hessian. -/
abbrev NdtSum := ℝ × (Fin 6 → ℝ) × (Fin 6 → Fin 6 → ℝ)

/-- `updateDerivatives` (lines 492-545): the contribution of one cell to the score, the gradient and the
Hessian; nothing if the value is out of range. -/
def pairSum (d1 d2 : ℝ) (y : Fin 3 → ℝ) (C : Fin 3 → Fin 3 → ℝ) (G : Fin 6 → Fin 3 → ℝ) (H : Fin 6 → Fin 6 → Fin 3 → ℝ) :
    NdtSum :=
  let e := Real.exp (-d2 * dot3 y (rowMat y C) * 0.5)
  let inc := -d1 * e
  let e2 := d2 * e
  if e2 > 1 ∨ e2 < 0 then 0
  else
    let f := e2 * d1
    let xg := fun i => dot3 y (matCol C (G i))
    (inc, fun i => f * xg i,
      fun i j => f * (-d2 * xg i * xg j + dot3 (rowMat y C) (H i j) + dot3 (G j) (matCol C (G i))))

/-- A cell: mean and inverse covariance. -/
structure NdtCell where
  mean : Fin 3 → ℝ
  icov : Fin 3 → Fin 3 → ℝ

/-- A point of the source cloud and the cells found near its transformed place. -/
structure NdtItem where
  x : Fin 3 → ℝ
  cells : List NdtCell

/-- The transformed point (lines 811-818): `Translation * AngleAxis X * AngleAxis Y * AngleAxis Z`. -/
def ndtTransform (p : NdtPose) (x : Fin 3 → ℝ) : Fin 3 → ℝ :=
  let cx := Real.cos (p 3)
  let sx := Real.sin (p 3)
  let cy := Real.cos (p 4)
  let sy := Real.sin (p 4)
  let cz := Real.cos (p 5)
  let sz := Real.sin (p 5)
  -- about z, then y, then x
  let a : Fin 3 → ℝ := ![cz * x 0 - sz * x 1, sz * x 0 + cz * x 1, x 2]
  let b : Fin 3 → ℝ := ![cy * a 0 + sy * a 2, a 1, -sy * a 0 + cy * a 2]
  ![b 0 + p 0, cx * b 1 - sx * b 2 + p 1, sx * b 1 + cx * b 2 + p 2]

/-- One point: the loop over its cells (lines 237-257). -/
def itemSum (d1 d2 : ℝ) (p : NdtPose) (it : NdtItem) : NdtSum :=
  (it.cells.map fun c => pairSum d1 d2 (fun k => ndtTransform p it.x k - c.mean k) c.icov
    (pointGradient (ndtTrig p) it.x) (pointHessian (ndtTrig p) it.x)).sum

/-- `computeDerivatives` (lines 152-272) with `n` threads: `schedule` lists the points in the order in
which they are worked on, each with its thread; every thread adds to its own sums, which are added up
at the end. -/
def computeDerivatives (d1 d2 : ℝ) (n : Nat) (p : NdtPose) (schedule : List (Fin n × NdtItem)) : NdtSum :=
  let sums := schedule.foldl
    (fun (acc : Fin n → NdtSum) e => Function.update acc e.1 (acc e.1 + itemSum d1 d2 p e.2)) (fun _ => 0)
  (List.ofFn sums).sum

end
end Verif
