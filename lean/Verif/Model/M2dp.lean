import Verif.Model.Outcome
import Verif.Model.Geom
import Mathlib.Data.Nat.Sqrt
import Mathlib.Analysis.Real.Sqrt
/-
descriptor/m2dp.{h,cc}: the place descriptor of a cloud and the score of two descriptors.

Numbers are exact.  Parameters of the model: the PCA projection, the two axes of each view (made
from sines and cosines), the angular bin (`atan2`) and the singular value decomposition.
Not modelled: NaN coordinates (such points are dropped by the comparison in line 59), overflow of
`int32_t`, float rounding.
-/
namespace Verif

/-- m2dp.h:45-46, 66-70: the parameters. -/
structure M2dpParams where
  r : Rat
  maxDistance : Rat
  t : Nat
  p : Nat
  q : Nat

/-- m2dp.h:64-70: the state kept between calls; `l` is uninitialised (`none`) at first. -/
structure M2dpState where
  inner : List (Vec3 Rat)
  l : Option Nat

def M2dpState.fresh : M2dpState := ⟨[], none⟩

/-- m2dp.cc:32-35 without the square root. -/
def m2dpSqLength (a : Vec3 Rat) : Rat := a.x * a.x + a.y * a.y + a.z * a.z

/-- m2dp.cc:58-59: `d <= max_distance_`. -/
def m2dpNear (maxDistance : Rat) (a : Vec3 Rat) : Bool :=
  decide (0 ≤ maxDistance) && decide (m2dpSqLength a ≤ maxDistance * maxDistance)

/-- `ceil(sqrt(x))` of a rational `x ≥ 0`: the least natural number whose square is at least `x`. -/
def ceilSqrt (x : Rat) : Nat :=
  if Nat.sqrt ⌈x⌉.toNat * Nat.sqrt ⌈x⌉.toNat = ⌈x⌉.toNat then Nat.sqrt ⌈x⌉.toNat
  else Nat.sqrt ⌈x⌉.toNat + 1

/-- m2dp.cc:45-70.  `projected` is the cloud after the PCA projection.  For `r < 1e-6` the function
returns early; for a negative distance the conversion of NaN to `int` is undefined behaviour. -/
def m2dpPreProcess (c : M2dpParams) (st : M2dpState) (projected : List (Vec3 Rat)) :
    Outcome M2dpState :=
  if c.r < 1 / 1000000 then
    .ok { st with inner := st.inner ++ projected.filter (m2dpNear c.maxDistance) }
  else if c.maxDistance < 0 then .ub
  else
    .ok { inner := st.inner ++ projected.filter (m2dpNear c.maxDistance)
          l := some (ceilSqrt (c.maxDistance / c.r)) }

/-- m2dp.cc:79-81: the x axis of a view with normal `m`; `norm()` of a number is its absolute
value. -/
def m2dpAxisX (m : Vec3 Rat) : Vec3 Rat := ⟨1 - |m.x| * m.x, 0 - |m.x| * m.y, 0 - |m.x| * m.z⟩

/-- m2dp.cc:82: the y axis, `m.cross(projected_x_axis)`. -/
def m2dpAxisY (m : Vec3 Rat) : Vec3 Rat :=
  let a := m2dpAxisX m
  ⟨m.y * a.z - m.z * a.y, m.z * a.x - m.x * a.z, m.x * a.y - m.y * a.x⟩

/-- m2dp.cc:100-101: the projected point, `norm()` of a number being its absolute value. -/
def m2dpCoord (axis p : Vec3 Rat) : Rat := |p.x * axis.x + p.y * axis.y + p.z * axis.z|

/-- m2dp.cc:104: `floor(sqrt(length / r))`, where `length` is the square root of `u²+v²`: the
largest `k` with `k⁴ r² ≤ u²+v²`. -/
def m2dpRing (r u v : Rat) : Nat := Nat.sqrt (Nat.sqrt ⌊(u * u + v * v) / (r * r)⌋.toNat)

/-- m2dp.cc:104-113: the bin of a point; both numbers are cut off at the last ring and sector. -/
def m2dpIndex (l t : Nat) (r : Rat) (ang : Rat → Rat → Nat) (ax ay p : Vec3 Rat) : Int :=
  let u := m2dpCoord ax p
  let v := m2dpCoord ay p
  let li : Int := m2dpRing r u v
  let li := if li > (l : Int) - 1 then (l : Int) - 1 else li
  let ti : Int := ang u v
  let ti := if ti > (t : Int) - 1 then (t : Int) - 1 else ti
  li * t + ti

/-- m2dp.cc:116: `row[index]++`; an index outside the row is undefined behaviour. -/
def m2dpCount (row : List Nat) (index : Int) : Outcome (List Nat) :=
  if 0 ≤ index ∧ index < row.length then .ok (row.modify index.toNat (· + 1)) else .ub

/-- m2dp.cc:98-117, the loop over the points. -/
def m2dpCountAll (index : Vec3 Rat → Int) : List (Vec3 Rat) → List Nat → Outcome (List Nat)
  | [], row => .ok row
  | p :: rest, row => do
    let row ← m2dpCount row (index p)
    m2dpCountAll index rest row

/-- m2dp.cc:72-120: the histogram of one view; reading `l_` before it is set is undefined. -/
def m2dpView (c : M2dpParams) (ang : Rat → Rat → Nat) (ax ay : Vec3 Rat) (st : M2dpState) :
    Outcome (List Nat) :=
  match st.l with
  | none => .ub
  | some l => m2dpCountAll (m2dpIndex l c.t c.r ang ax ay) st.inner (List.replicate (l * c.t) 0)

/-- The rows of the matrix for a list of views. -/
def m2dpViews (c : M2dpParams) (ang : Rat → Rat → Nat) (st : M2dpState) :
    List (Vec3 Rat × Vec3 Rat) → Outcome (List (List Nat))
  | [] => .ok []
  | a :: rest => do
    let row ← m2dpView c ang a.1 a.2 st
    let rows ← m2dpViews c ang st rest
    return row :: rows

/-- m2dp.cc:131-138: the views in the order of the rows, `p * q_ + q`. -/
def m2dpAxes (c : M2dpParams) (axes : Nat → Nat → Vec3 Rat × Vec3 Rat) :
    List (Vec3 Rat × Vec3 Rat) :=
  (List.range c.p).flatMap fun i => (List.range c.q).map fun j => axes i j

/-- m2dp.cc:122-149.  Result: the new state and, unless the cloud is empty, the matrix and the
descriptor.  `svd` gives the first columns of `U` and `V`. -/
def m2dpSetInput (c : M2dpParams) (pca : List (Vec3 Rat) → List (Vec3 Rat))
    (axes : Nat → Nat → Vec3 Rat × Vec3 Rat) (ang : Rat → Rat → Nat)
    (svd : List (List Nat) → List Rat × List Rat) (st : M2dpState) (cloud : List (Vec3 Rat)) :
    Outcome (M2dpState × Option (List (List Nat) × List Rat)) :=
  if cloud.isEmpty then .ok (st, none)
  else do
    let st ← m2dpPreProcess c st (pca cloud)
    let rows ← m2dpViews c ang st (m2dpAxes c axes)
    return (st, some (rows, (svd rows).1 ++ (svd rows).2))

/-- Eigen's `dot`. -/
def ratDot (a b : List Rat) : Rat := (List.zipWith (· * ·) a b).sum

/-- The result of comparing two descriptors: the error value −1, not a number, or a score. -/
inductive M2dpScore
  | mismatch
  | nan
  | score (v : ℝ)

/-- m2dp.cc:151-169.  The denominator is the square root of a product; if it is zero the quotient is
not finite (`nan`; proved: the numerator is zero as well).  Exact arithmetic instead of `float`. -/
noncomputable def m2dpMatch (P Q : List Rat) : M2dpScore :=
  if P.length ≠ Q.length ∨ P.length < 10 then .mismatch
  else
    let N : Rat := P.length
    let num := N * ratDot P Q - P.sum * Q.sum
    let den := (N * ratDot P P - P.sum ^ 2) * (N * ratDot Q Q - Q.sum ^ 2)
    if den = 0 then .nan else .score |(num : ℝ) / Real.sqrt (den : ℝ)|

end Verif
