import Verif.Model.Slerp
/-
Motion compensation of one point with the arithmetic of `double`s and `float`s.

Models `builder/map_builder.cc` 240-255 and `common/math.h` 198-211 with every rounding, including Eigen's conversion
of a matrix to a quaternion, its `slerp` and the conversion back.  Rounding, arc cosine and sine are parameters; how
far they may be off is a hypothesis (`Spec.IeeeTrig`).
-/
namespace Verif
noncomputable section

/-- Rounding to `float` and to `double`, and `acos` and `sin` of `double`s. -/
structure TrigOps where
  f32 : ℝ → ℝ
  f64 : ℝ → ℝ
  acos : ℝ → ℝ
  sin : ℝ → ℝ

/-- The quaternion of a matrix (Eigen), see `quatOfMat`. -/
def quatOfMatF (o : TrigOps) (m : Mat3) : Quat :=
  let t := o.f64 (o.f64 (m 0 0 + m 1 1) + m 2 2)
  if t > 0 then
    let s := o.f64 (Real.sqrt (o.f64 (t + 1)))
    let f := o.f64 (1 / 2 / s)
    ⟨o.f64 (1 / 2 * s), o.f64 (o.f64 (m 2 1 - m 1 2) * f), o.f64 (o.f64 (m 0 2 - m 2 0) * f), o.f64 (o.f64 (m 1 0 - m 0 1) * f)⟩
  else
    let i : Fin 3 := if m 1 1 > m 0 0 then 1 else 0
    let i : Fin 3 := if m 2 2 > m i i then 2 else i
    let j := i + 1
    let k := j + 1
    let s := o.f64 (Real.sqrt (o.f64 (o.f64 (o.f64 (m i i - m j j) - m k k) + 1)))
    let f := o.f64 (1 / 2 / s)
    let c : Fin 3 → ℝ := fun a => if a = i then o.f64 (1 / 2 * s) else o.f64 (o.f64 (m a i + m i a) * f)
    ⟨o.f64 (o.f64 (m k j - m j k) * f), c 0, c 1, c 2⟩

/-- Eigen's `QuaternionBase::dot`. -/
def dotF (o : TrigOps) (a b : Quat) : ℝ :=
  o.f64 (o.f64 (o.f64 (o.f64 (a.x * b.x) + o.f64 (a.y * b.y)) + o.f64 (a.z * b.z)) + o.f64 (a.w * b.w))

/-- One of the two factors in Eigen's `slerp`. -/
def slerpScaleF (o : TrigOps) (d t : ℝ) : ℝ :=
  if d ≥ 1 - 1 / 2 ^ 52 then t else o.f64 (o.sin (o.f64 (t * o.acos d)) / o.sin (o.acos d))

/-- Eigen's `QuaternionBase::slerp`, see `eigenSlerp`. -/
def slerpQuatF (o : TrigOps) (a b : Quat) (t : ℝ) : Quat :=
  let d := dotF o a b
  let k0 := slerpScaleF o |d| (o.f64 (1 - t))
  let k := slerpScaleF o |d| t
  let k1 := if d < 0 then -k else k
  ⟨o.f64 (o.f64 (k0 * a.w) + o.f64 (k1 * b.w)), o.f64 (o.f64 (k0 * a.x) + o.f64 (k1 * b.x)),
    o.f64 (o.f64 (k0 * a.y) + o.f64 (k1 * b.y)), o.f64 (o.f64 (k0 * a.z) + o.f64 (k1 * b.z))⟩

/-- Eigen's `toRotationMatrix`, see `Quat.toMat`. -/
def toMatF (o : TrigOps) (q : Quat) : Mat3 :=
  let p := fun a b => o.f64 (o.f64 (2 * a) * b)
  !![o.f64 (1 - o.f64 (p q.y q.y + p q.z q.z)), o.f64 (p q.y q.x - p q.z q.w), o.f64 (p q.z q.x + p q.y q.w);
     o.f64 (p q.y q.x + p q.z q.w), o.f64 (1 - o.f64 (p q.x q.x + p q.z q.z)), o.f64 (p q.z q.y - p q.x q.w);
     o.f64 (p q.z q.x - p q.y q.w), o.f64 (p q.z q.y + p q.x q.w), o.f64 (1 - o.f64 (p q.x q.x + p q.y q.y))]

/-- common/math.h:198-211 `InterpolateTransform<double>`. -/
def interpolateF (o : TrigOps) (t1 t2 : Rigid ℝ) (factor : ℝ) : Outcome (Rigid ℝ) := do
  Outcome.check (0 ≤ factor ∧ factor ≤ 1)
  return { rot := toMatF o (slerpQuatF o (quatOfMatF o t1.rot) (quatOfMatF o t2.rot) factor)
           trans := fun i => o.f64 (t1.trans i + o.f64 (o.f64 (t2.trans i - t1.trans i) * factor)) }

/-- map_builder.cc:240-255, the body of the loop for one point. -/
def compensateF (o : TrigOps) (delta : Rigid ℝ) (p : InnerPoint ℝ) : Outcome (InnerPoint ℝ) := do
  let t ← interpolateF o Rigid.id delta p.factor
  let v : Fin 3 → ℝ := fun i =>
    o.f64 (o.f64 (o.f64 (o.f64 (t.rot i 0 * p.x) + o.f64 (t.rot i 1 * p.y)) + o.f64 (t.rot i 2 * p.z)) + t.trans i)
  return { x := o.f32 (v 0), y := o.f32 (v 1), z := o.f32 (v 2), intensity := p.intensity, factor := p.factor }

/-- map_builder.cc:232-257 `MotionCompensation`, the points of the output cloud. -/
def compensateAllF (o : TrigOps) (delta : Rigid ℝ) : List (InnerPoint ℝ) → Outcome (List (InnerPoint ℝ))
  | [] => .ok []
  | p :: ps => do
    let q ← compensateF o delta p
    let qs ← compensateAllF o delta ps
    return q :: qs

end
end Verif
