import Verif.Model.Outcome
import Verif.Model.Euler
import Mathlib.LinearAlgebra.Matrix.NonsingularInverse
/-! Generalised ICP.

Models `registrators/pclomp/gicp_omp_impl.hpp` 57-130 (covariances), 133-183 (derivative of the rotation),
253-376 (objective and gradient), 379-513 (the loop), 515-527 (`applyState`). Arithmetic is over the real
numbers (the code mixes `float` and `double`). The search tree, the singular value decomposition and the
BFGS solver are external: what they return is a parameter. -/
namespace Verif
noncomputable section

/-- A `Matrix4f` whose last row is 0 0 0 1: rotation block and last column. -/
structure GicpMat where
  rot : Mat3
  shift : Fin 3 → ℝ

/-- Six numbers: translation, then the angles about x, y and z (`Vector6d x`). -/
abbrev GicpVec := Fin 6 → ℝ

/-- `AngleAxis(x[5], Z) * AngleAxis(x[4], Y) * AngleAxis(x[3], X)` (lines 520-522), written out. -/
def gicpRot (x : GicpVec) : Mat3 :=
  let cf := Real.cos (x 3)
  let sf := Real.sin (x 3)
  let ct := Real.cos (x 4)
  let st := Real.sin (x 4)
  let cp := Real.cos (x 5)
  let sp := Real.sin (x 5)
  !![cp * ct, cp * st * sf - sp * cf, cp * st * cf + sp * sf;
     sp * ct, sp * st * sf + cp * cf, sp * st * cf - cp * sf;
     -st, ct * sf, ct * cf]

/-- `applyState` (lines 515-527). -/
def applyState (t : GicpMat) (x : GicpVec) : GicpMat :=
  ⟨gicpRot x * t.rot, fun k => t.shift k + ![x 0, x 1, x 2] k⟩

/-- `matrix * point`. -/
def GicpMat.act (t : GicpMat) (p : Fin 3 → ℝ) : Fin 3 → ℝ := fun k => t.rot.mulVec p k + t.shift k

/-- One correspondence: the source point, the target point and the matrix `mahalanobis_[i]`. -/
structure GicpPair where
  src : Fin 3 → ℝ
  tgt : Fin 3 → ℝ
  maha : Mat3

/-- `res` and `temp` (lines 268-278, 312-322, 361-364). -/
def gicpRes (base : GicpMat) (x : GicpVec) (c : GicpPair) : Fin 3 → ℝ :=
  fun k => (applyState base x).act c.src k - c.tgt k
def gicpTemp (base : GicpMat) (x : GicpVec) (c : GicpPair) : Fin 3 → ℝ := c.maha.mulVec (gicpRes base x c)

/-- What the threads add up: error, sum of `temp`, sum of `p_src3 * temp'`. -/
abbrev GicpSums := ℝ × (Fin 3 → ℝ) × Mat3

/-- The contribution of one correspondence (lines 264-281, 308-331, 354-372). -/
def gicpTerm (base : GicpMat) (x : GicpVec) (c : GicpPair) : GicpSums :=
  let temp := gicpTemp base x c
  let p3 := base.act c.src
  (dotProduct (gicpRes base x c) temp, temp, fun i j => p3 i * temp j)

/-- `n` threads (lines 261-283, 298-337): `schedule` lists the correspondences in the order in which they
are worked on, each with its thread; each thread has its own sums, which are added up at the end. -/
def gicpThreads (n : Nat) (base : GicpMat) (x : GicpVec) (schedule : List (Fin n × GicpPair)) : GicpSums :=
  let sums := schedule.foldl
    (fun (acc : Fin n → GicpSums) e => Function.update acc e.1 (acc e.1 + gicpTerm base x e.2))
    (fun _ => 0)
  (List.ofFn sums).sum

/-- `matricesInnerProd` (gicp_omp.h 300-310). -/
def innerProd (a b : Mat3) : ℝ := ∑ i, ∑ j, a j i * b i j

/-- `dR_dPhi`, `dR_dTheta`, `dR_dPsi` (lines 147-178). -/
def dRdPhi (x : GicpVec) : Mat3 :=
  let cphi := Real.cos (x 3)
  let sphi := Real.sin (x 3)
  let ctheta := Real.cos (x 4)
  let stheta := Real.sin (x 4)
  let cpsi := Real.cos (x 5)
  let spsi := Real.sin (x 5)
  !![0, sphi * spsi + cphi * cpsi * stheta, cphi * spsi - cpsi * sphi * stheta;
     0, -cpsi * sphi + cphi * spsi * stheta, -cphi * cpsi - sphi * spsi * stheta;
     0, cphi * ctheta, -ctheta * sphi]

def dRdTheta (x : GicpVec) : Mat3 :=
  let cphi := Real.cos (x 3)
  let sphi := Real.sin (x 3)
  let ctheta := Real.cos (x 4)
  let stheta := Real.sin (x 4)
  let cpsi := Real.cos (x 5)
  let spsi := Real.sin (x 5)
  !![-cpsi * stheta, cpsi * ctheta * sphi, cphi * cpsi * ctheta;
     -spsi * stheta, ctheta * sphi * spsi, cphi * ctheta * spsi;
     -ctheta, -sphi * stheta, -cphi * stheta]

def dRdPsi (x : GicpVec) : Mat3 :=
  let cphi := Real.cos (x 3)
  let sphi := Real.sin (x 3)
  let ctheta := Real.cos (x 4)
  let stheta := Real.sin (x 4)
  let cpsi := Real.cos (x 5)
  let spsi := Real.sin (x 5)
  !![-ctheta * spsi, -cphi * cpsi - sphi * spsi * stheta, cpsi * sphi - cphi * spsi * stheta;
     cpsi * ctheta, -cphi * spsi + cpsi * sphi * stheta, sphi * spsi + cphi * cpsi * stheta;
     0, 0, 0]

/-- `operator()` (lines 253-283). -/
def gicpValue (n : Nat) (base : GicpMat) (x : GicpVec) (schedule : List (Fin n × GicpPair)) : ℝ :=
  (gicpThreads n base x schedule).1 / schedule.length

/-- The end of `df` and `fdf` (lines 333-339, 373-376) and `computeRDerivative` (lines 133-183). -/
def gicpFinish (x : GicpVec) (m : ℝ) (s : GicpSums) : GicpVec :=
  let r : Mat3 := fun i j => s.2.2 i j * (2 / m)
  ![s.2.1 0 * (2 / m), s.2.1 1 * (2 / m), s.2.1 2 * (2 / m),
    innerProd (dRdPhi x) r, innerProd (dRdTheta x) r, innerProd (dRdPsi x) r]

/-- `df` (lines 286-340). -/
def gicpDf (n : Nat) (base : GicpMat) (x : GicpVec) (schedule : List (Fin n × GicpPair)) : GicpVec :=
  gicpFinish x schedule.length (gicpThreads n base x schedule)

/-- `fdf` (lines 342-377): one thread. -/
def gicpFdf (base : GicpMat) (x : GicpVec) (l : List GicpPair) : ℝ × GicpVec :=
  let s := l.foldl (fun acc c => acc + gicpTerm base x c) (0 : GicpSums)
  (s.1 / l.length, gicpFinish x l.length s)

/-- `computeCovariances` for one point (lines 113-128), after the decomposition: `u` is `svd.matrixU()`. -/
def gicpCov (eps : ℝ) (u : Mat3) : Mat3 :=
  fun i j => 1 * u i 0 * u j 0 + 1 * u i 1 * u j 1 + eps * u i 2 * u j 2

/-- `computeCovariances` (lines 57-130): a cloud with fewer than `k` points leaves the list as it is
(empty); `svd` is what the decomposition gives for the points near point `i`. -/
def gicpCovs (k : Nat) (eps : ℝ) (svd : Nat → Mat3) (size : Nat) : List Mat3 :=
  if k > size then [] else (List.range size).map fun i => gicpCov eps (svd i)

/-- A cloud with its decompositions. -/
structure GicpCloud where
  points : List (Fin 3 → ℝ)
  svd : Nat → Mat3

/-- The place at which the neighbour of a point is looked for (lines 438-440). -/
def gicpQuery (guess cur : GicpMat) (p : Fin 3 → ℝ) : Fin 3 → ℝ := cur.act (guess.act p)

/-- One pass of the loop over the source points (lines 432-466) in the order of the indices (the threads
may add the correspondences in another order): `near q` is the index of the nearest target point, `none`
if there is none closer than the limit. Reading past the end of a list is undefined. -/
def gicpMatch (tgt : List (Fin 3 → ℝ)) (covS covT : List Mat3) (near : (Fin 3 → ℝ) → Option Nat) (guess cur : GicpMat) :
    List ((Fin 3 → ℝ) × Nat) → Outcome (List GicpPair)
  | [] => .ok []
  | (p, i) :: rest =>
    match near (gicpQuery guess cur p) with
    | none => gicpMatch tgt covS covT near guess cur rest
    | some j =>
      match covS[i]?, covT[j]?, tgt[j]? with
      | some c1, some c2, some q => do
        let r := cur.rot * guess.rot
        let more ← gicpMatch tgt covS covT near guess cur rest
        return ⟨p, q, (r * c1 * r.transpose + c2)⁻¹⟩ :: more
      | _, _, _ => .ub

/-- What the solver does with the correspondences and the current matrix (lines 204-245): `none` is an
exception (no convergence). -/
abbrev GicpSolver := GicpMat → List GicpPair → GicpMat → Option GicpVec

/-- The identity. -/
def GicpMat.one : GicpMat := ⟨1, 0⟩

/-- `estimateRigidTransformationBFGS` (lines 188-249): fewer than four correspondences are an exception;
the state found by the solver becomes a matrix (lines 242-243). -/
def gicpEstimate (solve : GicpSolver) (guess : GicpMat) (pairs : List GicpPair) (cur : GicpMat) : Option GicpMat :=
  if pairs.length < 4 then none else (solve guess pairs cur).map (applyState GicpMat.one)

/-- `previous_transformation_`, `converged_` and the number of estimations. -/
structure GicpRun where
  prev : GicpMat
  converged : Bool
  rounds : Nat

/-- The loop (lines 414-503) from the matrix `cur` on. `done a b` says `delta < 1` (lines 475-489); `left`
is how many rounds may follow this one. -/
def gicpLoop (src tgt : GicpCloud) (covS covT : List Mat3) (near : (Fin 3 → ℝ) → Option Nat) (solve : GicpSolver)
    (done : GicpMat → GicpMat → Bool) (guess : GicpMat) : Nat → GicpMat → Outcome GicpRun
  | left, cur =>
    match gicpMatch tgt.points covS covT near guess cur src.points.zipIdx with
    | .abort => .abort
    | .ub => .ub
    | .ok pairs =>
      match gicpEstimate solve guess pairs cur with
      | none => .ok ⟨cur, false, 1⟩
      | some next =>
        match left with
        | 0 => .ok ⟨next, true, 1⟩
        | left + 1 =>
          if done cur next then .ok ⟨next, true, 1⟩
          else
            match gicpLoop src tgt covS covT near solve done guess left next with
            | .ok r => .ok { r with rounds := r.rounds + 1 }
            | o => o

/-- `final_transformation_` (lines 507-510). -/
def gicpFinal (prev guess : GicpMat) : GicpMat := ⟨prev.rot * guess.rot, fun k => prev.shift k + guess.shift k⟩

/-- `computeTransformation` (lines 379-513): `k` is `k_correspondences_`. -/
def gicpAlign (k : Nat) (eps : ℝ) (maxIter : Nat) (src tgt : GicpCloud) (near : (Fin 3 → ℝ) → Option Nat)
    (solve : GicpSolver) (done : GicpMat → GicpMat → Bool) (guess : GicpMat) : Outcome (GicpMat × GicpRun) :=
  let covT := gicpCovs k eps tgt.svd tgt.points.length
  let covS := gicpCovs k eps src.svd src.points.length
  match gicpLoop src tgt covS covT near solve done guess (maxIter - 1) GicpMat.one with
  | .ok r => .ok (gicpFinal r.prev guess, r)
  | .abort => .abort
  | .ub => .ub

end
end Verif
