import Verif.Model.NdtDeriv
import Mathlib.Analysis.Real.Sqrt
/-! The loop of the normal distributions transform and its step length.

Models `registrators/pclomp/ndt_omp_impl.hpp` 79-172 (`computeTransformation`) and 633-915
(`updateIntervalMT`, `trialValueSelectionMT`, `computeStepLengthMT`). Score, gradient and Hessian of a
pose are a parameter (C66 says what they are), and so are the solution of the linear system
(`Eigen::JacobiSVD`, `none` if it contains a value that is not a number) and the matrix of a pose. Arithmetic
is over the real numbers; a division by zero gives zero, where the code gets an infinite value or one
that is not a number: this can only happen inside `trialValueSelectionMT`. -/
namespace Verif
noncomputable section

/-- What the loop calls. -/
structure NdtEnv (T : Type) where
  /-- `computeDerivatives` for the source cloud moved by a pose -/
  eval : NdtPose → NdtSum
  /-- `sv.solve (-score_gradient)` -/
  solve : NdtSum → Option NdtPose
  /-- `Translation * AngleAxis X * AngleAxis Y * AngleAxis Z` -/
  matrix : NdtPose → T

/-- `a.dot (b)` and `a.norm ()` for six numbers. -/
def dot6 (a b : NdtPose) : ℝ := ∑ i, a i * b i
def norm6 (a : NdtPose) : ℝ := Real.sqrt (∑ i, a i ^ 2)

/-- `auxilaryFunction_PsiMT` and `auxilaryFunction_dPsiMT` (ndt_omp.h 425-442). -/
def psiMT (a fa f0 g0 mu : ℝ) : ℝ := fa - f0 - mu * g0 * a
def dPsiMT (ga g0 mu : ℝ) : ℝ := ga - mu * g0

/-- The interval and the values at its ends. -/
structure MtInterval where
  al : ℝ
  fl : ℝ
  gl : ℝ
  au : ℝ
  fu : ℝ
  gu : ℝ

/-- `updateIntervalMT` (lines 633-672): the new interval, and whether the search is over. -/
def updateIntervalMT (v : MtInterval) (at_ ft gt : ℝ) : MtInterval × Bool :=
  if ft > v.fl then ({ v with au := at_, fu := ft, gu := gt }, false)
  else if gt * (v.al - at_) > 0 then ({ v with al := at_, fl := ft, gl := gt }, false)
  else if gt * (v.al - at_) < 0 then (⟨at_, ft, gt, v.al, v.fl, v.gl⟩, false)
  else (v, true)

/-- Minimiser of the cubic through two points with given slopes (lines 683-688). A division by zero is `inf` or `NaN` in the code and 0
here; the theorems on it (C142) keep away from it. -/
def cubicMin (a0 f0 g0 a1 f1 g1 : ℝ) : ℝ :=
  let z := 3 * (f1 - f0) / (a1 - a0) - g1 - g0
  let w := Real.sqrt (z * z - g1 * g0)
  a0 + (a1 - a0) * (w - g0 - z) / (g1 - g0 + 2 * w)

/-- `trialValueSelectionMT` (lines 675-757). -/
def trialValueMT (v : MtInterval) (at_ ft gt : ℝ) : ℝ :=
  if ft > v.fl then
    let ac := cubicMin v.al v.fl v.gl at_ ft gt
    let aq := v.al - 0.5 * (v.al - at_) * v.gl / (v.gl - (v.fl - ft) / (v.al - at_))
    if |ac - v.al| < |aq - v.al| then ac else 0.5 * (aq + ac)
  else if gt * v.gl < 0 then
    let ac := cubicMin v.al v.fl v.gl at_ ft gt
    let as_ := v.al - (v.al - at_) / (v.gl - gt) * v.gl
    if |ac - at_| ≥ |as_ - at_| then ac else as_
  else if |gt| ≤ |v.gl| then
    let ac := cubicMin v.al v.fl v.gl at_ ft gt
    let as_ := v.al - (v.al - at_) / (v.gl - gt) * v.gl
    let next := if |ac - at_| < |as_ - at_| then ac else as_
    if at_ > v.al then min (at_ + 0.66 * (v.au - at_)) next else max (at_ + 0.66 * (v.au - at_)) next
  else cubicMin v.au v.fu v.gu at_ ft gt

/-- The variables of the search. `cur` is the score, the gradient and the Hessian (the code leaves the
Hessian of an earlier trial in place and recomputes it after the search, lines 908-909), `fin` is
`final_transformation_`. -/
structure MtState (T : Type) where
  v : MtInterval
  a : ℝ
  isOpen : Bool
  phi : ℝ
  dphi : ℝ
  psi : ℝ
  dpsi : ℝ
  cur : NdtSum
  fin : T

/-- Evaluate a trial (lines 808-830 and 850-873). -/
def mtTrial {T : Type} (env : NdtEnv T) (x dir : NdtPose) (phi0 dphi0 : ℝ) (v : MtInterval) (isOpen : Bool) (a : ℝ) : MtState T :=
  let xt := x + a • dir
  let cur := env.eval xt
  let phi := -cur.1
  let dphi := -dot6 cur.2.1 dir
  ⟨v, a, isOpen, phi, dphi, psiMT a phi phi0 dphi0 1e-4, dPsiMT dphi dphi0 1e-4, cur, env.matrix xt⟩

/-- `std::max (std::min (a, step_max), step_min)`. -/
def clampStep (stepMax stepMin a : ℝ) : ℝ := max (min a stepMax) stepMin

open Classical in
/-- The `while` of the search (lines 833-904); `n` is the number of trials left. -/
def mtSearch {T : Type} (env : NdtEnv T) (x dir : NdtPose) (phi0 dphi0 stepMax stepMin : ℝ) :
    Nat → Bool → MtState T → MtState T
  | 0, _, s => s
  | n + 1, over, s =>
    if over then s
    else if s.psi ≤ 0 ∧ s.dphi ≤ -0.9 * dphi0 then s
    else
      let a := clampStep stepMax stepMin (if s.isOpen then trialValueMT s.v s.a s.psi s.dpsi else trialValueMT s.v s.a s.phi s.dphi)
      let t := mtTrial env x dir phi0 dphi0 s.v s.isOpen a
      let closes := s.isOpen && decide (t.psi ≤ 0 ∧ t.dpsi ≥ 0)
      let v := if closes then
          ⟨t.v.al, t.v.fl + phi0 - 1e-4 * dphi0 * t.v.al, t.v.gl + 1e-4 * dphi0,
           t.v.au, t.v.fu + phi0 - 1e-4 * dphi0 * t.v.au, t.v.gu + 1e-4 * dphi0⟩
        else t.v
      let isOpen := s.isOpen && !closes
      let u := if isOpen then updateIntervalMT v a t.psi t.dpsi else updateIntervalMT v a t.phi t.dphi
      mtSearch env x dir phi0 dphi0 stepMax stepMin n u.2 { t with v := u.1, isOpen := isOpen }

/-- What a step changes. -/
structure NdtStep (T : Type) where
  len : ℝ
  dir : NdtPose
  cur : NdtSum
  fin : T

open Classical in
/-- `computeStepLengthMT` (lines 760-915). -/
def stepLengthMT {T : Type} (env : NdtEnv T) (x dir : NdtPose) (init stepMax stepMin : ℝ) (cur : NdtSum) (fin : T) : NdtStep T :=
  let phi0 := -cur.1
  let d0 := -dot6 cur.2.1 dir
  if d0 = 0 then ⟨0, dir, cur, fin⟩
  else
    -- reverse the direction unless the score rises along it
    let dphi0 := if d0 ≥ 0 then d0 * -1 else d0
    let dir := if d0 ≥ 0 then (-1 : ℝ) • dir else dir
    let f := psiMT 0 phi0 phi0 dphi0 1e-4
    let g := dPsiMT dphi0 dphi0 1e-4
    let s := mtTrial env x dir phi0 dphi0 ⟨0, f, g, 0, f, g⟩ true (clampStep stepMax stepMin init)
    let s := mtSearch env x dir phi0 dphi0 stepMax stepMin 10 (decide (stepMax - stepMin > 0)) s
    ⟨s.a, dir, s.cur, s.fin⟩

/-- The variables of the outer loop. -/
structure NdtState (T : Type) where
  p : NdtPose
  cur : NdtSum
  fin : T
  /-- `nr_iterations_` -/
  rounds : Nat
  converged : Bool

open Classical in
/-- The `while` of `computeTransformation` (lines 121-167); `none` if `fuel` rounds are not enough. -/
def ndtLoop {T : Type} (env : NdtEnv T) (maxIter : Nat) (stepMax eps : ℝ) : Nat → NdtState T → Option (NdtState T)
  | 0, _ => none
  | fuel + 1, s =>
    match env.solve s.cur with
    | none => some { s with converged := false }
    | some delta =>
      if norm6 delta = 0 then some { s with converged := true }
      else
        let st := stepLengthMT env s.p ((norm6 delta)⁻¹ • delta) (norm6 delta) stepMax (eps / 2) s.cur s.fin
        let p := s.p + st.len • st.dir
        if s.rounds > maxIter ∨ (s.rounds ≠ 0 ∧ |st.len| < eps) then
          some ⟨p, st.cur, st.fin, s.rounds + 1, true⟩
        else ndtLoop env maxIter stepMax eps fuel ⟨p, st.cur, st.fin, s.rounds + 1, false⟩

/-- `computeTransformation` (lines 79-172): from the six numbers `p0` of the guess `guess`. -/
def ndtAlign {T : Type} (env : NdtEnv T) (maxIter : Nat) (stepMax eps : ℝ) (guess : T) (p0 : NdtPose) (fuel : Nat) :
    Option (NdtState T) :=
  ndtLoop env maxIter stepMax eps fuel ⟨p0, env.eval p0, guess, 0, false⟩

end
end Verif
