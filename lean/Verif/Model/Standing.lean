import Verif.Model.IcpFast
import Verif.Model.LeastNorm
import Verif.Model.NormalEst
import Mathlib.Algebra.Group.End
/-
registrators/icp_fast.cc:455-529 `IcpFast::Align` on points of space: the loop of `IcpFast`, the selection of pairs and the
step of `LeastNorm` put together.

Over the real numbers.  A transform is the bijection of space it describes.  The neighbour search (169-180, libnabo) is a
parameter: the target points and a point give the index of a target point and the squared distance.  `share f T` is the
part `f` of the motion `T` (`ApplyMotionCompensation`, cloud_types.cc:310-321; as written that function reads an
uninitialised matrix, see C95, so theorems about `comp = true` are about what is meant; nothing in the code switches it on).
-/
namespace Verif
noncomputable section

/-- A rigid motion. -/
abbrev Motion3 := Equiv.Perm (Fin 3 → ℝ)

open Classical in
/-- The motion of a rotation matrix and a translation. -/
def motionOf (T : Mat3 × (Fin 3 → ℝ)) : Motion3 :=
  if h : Function.Bijective (icpMove T) then Equiv.ofBijective _ h else 1

/-- Lines 459-460 : `T_target_mean`. -/
def shiftMotion (v : Fin 3 → ℝ) : Motion3 := motionOf (1, v)

/-- What `Align` works with besides the clouds. -/
structure IcpSetup where
  lib : LinLib
  search : List (Fin 3 → ℝ) → (Fin 3 → ℝ) → IcpMatch
  ratio : Rat
  comp : Bool
  share : ℝ → Motion3 → Motion3
  conv : List Motion3 → Bool
  maxIt : Int

/-- Lines 482-514 : one iteration.  `tgt`: points with normals, already centred; `src`: points with factors. -/
def icpIncrement (s : IcpSetup) (tgt : List ((Fin 3 → ℝ) × (Fin 3 → ℝ))) (src : List ((Fin 3 → ℝ) × ℝ)) (start T : Motion3) :
    Outcome Motion3 := do
  let pts := src.map fun p => ((if s.comp then s.share p.2 T else T) (start p.1), p.2)
  let ms := pts.map fun p => s.search (tgt.map Prod.fst) p.1
  let r ← icpSelect s.ratio pts tgt ms
  return motionOf (planeStep s.lib s.comp (r.2.map fun e => { p := e.1.1, q := e.2.1, n := e.2.2, w := 1, f := e.1.2 }))

/-- Lines 457-462 : the target cloud around its mean. -/
def aroundMean (tgt : List ((Fin 3 → ℝ) × (Fin 3 → ℝ))) : List ((Fin 3 → ℝ) × (Fin 3 → ℝ)) :=
  tgt.map fun t => (fun i => t.1 i - groupMean (tgt.map Prod.fst) i, t.2)

/-- Lines 455-529. -/
def fastAlign (s : IcpSetup) (tgt : List ((Fin 3 → ℝ) × (Fin 3 → ℝ))) (src : List ((Fin 3 → ℝ) × ℝ)) (guess : Motion3)
    (fuel : Nat) : Option (Outcome (Motion3 × List Motion3)) :=
  icpAlign (icpIncrement s (aroundMean tgt) src) s.conv s.maxIt (shiftMotion (groupMean (tgt.map Prod.fst))) guess fuel

/-- cloud_types.cc:336-345 : the points of a cloud with their factors, the share of the cloud before them. -/
def scanSource (pts : List (Fin 3 → ℝ)) : List ((Fin 3 → ℝ) × ℝ) :=
  pts.zipIdx.map fun p => (p.1, p.2 / pts.length)

end
end Verif
