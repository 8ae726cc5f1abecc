import Verif.Model.Outcome
import Verif.Model.Filters
import Mathlib.Data.List.Sort
import Mathlib.Algebra.Group.Defs
import Mathlib.Algebra.Order.Ring.Rat
/-
registrators/icp_fast.cc: outlier rejection, the iteration loop and the convergence test.

Distances are exact numbers; `none` is infinity (no neighbour found).  The nearest-neighbour search
(libnabo) and the linear solver are parameters.  `std::nth_element` is its postcondition: the
element at the index of the sorted array.
-/
namespace Verif

/-- One column of `Matches`: squared distance and index of the closest target point. -/
structure IcpMatch where
  dist : Option Rat
  id : Nat

/-- `*std::max_element`. -/
def maxElem : List Rat → Option Rat
  | [] => none
  | x :: l => some (l.foldl max x)

/-- icp_fast.cc:65-90 `Matches::GetDistsQuantile`. -/
def distQuantile (q : Rat) (ms : List IcpMatch) : Outcome Rat := do
  Outcome.check (0 ≤ q ∧ q ≤ 1)
  let values := ms.filterMap IcpMatch.dist
  Outcome.check (values ≠ [])
  if q = 1 then
    match maxElem values with
    | some v => .ok v
    | none => .ub
  else
    match (values.insertionSort (· ≤ ·))[(truncInt (values.length * q)).toNat]? with
    | some v => .ok v
    | none => .ub

/-- icp_fast.cc:497-498: weight 1 for matches within the limit, 0 for the others. -/
def icpWeights (limit : Rat) (ms : List IcpMatch) : List Bool :=
  ms.map fun m => match m.dist with
    | some d => decide (d ≤ limit)
    | none => false

/-- icp_fast.cc:126-140: the points with a finite distance and a non-zero weight. -/
def icpKept {P : Type} : List P → List IcpMatch → List Bool → List (P × IcpMatch)
  | p :: ps, m :: ms, w :: ws =>
    (if m.dist.isSome && w then [(p, m)] else []) ++ icpKept ps ms ws
  | _, _, _ => []

/-- icp_fast.cc:150-161: the target point of each kept match; reading outside is undefined. -/
def icpFetch {P Q : Type} (tgt : List Q) : List (P × IcpMatch) → Outcome (List (P × Q))
  | [] => .ok []
  | (p, m) :: l =>
    match tgt[m.id]? with
    | none => .ub
    | some t => do
      let r ← icpFetch tgt l
      pure ((p, t) :: r)

/-- icp_fast.cc:100-166 `ErrorElements`: the pairs given to the solver. -/
def errorElements {P Q : Type} (src : List P) (tgt : List Q) (ws : List Bool) (ms : List IcpMatch) :
    Outcome (List (P × Q)) := do
  Outcome.check (0 < ms.length)
  Outcome.check (ms.length = src.length)
  let count := ws.countP id
  Outcome.check (0 < count)
  let kept := icpKept src ms ws
  Outcome.check (kept.length = count)
  icpFetch tgt kept

/-- icp_fast.cc:491-507: from the matches of one iteration to the pairs given to the solver. -/
def icpSelect {P Q : Type} (ratio : Rat) (src : List P) (tgt : List Q) (ms : List IcpMatch) :
    Outcome (Rat × List (P × Q)) := do
  let limit ← distQuantile ratio ms
  let ws := icpWeights limit ms
  Outcome.check (ws.length = src.length)
  let ps ← errorElements src tgt ws ms
  pure (limit, ps)

/-- Sum of the distances between consecutive elements. -/
def consecutiveSum {G : Type} (d : G → G → Rat) : List G → Rat
  | a :: b :: l => d a b + consecutiveSum d (b :: l)
  | _ => 0

/-- icp_fast.cc:377-405 `CheckConvergence`; `rd`, `td` are the distances of rotation and translation
of two poses; `hist` holds the poses so far, the newest last. -/
def checkConvergence {G : Type} (rd td : G → G → Rat) (hist : List G) : Bool :=
  if 4 < hist.length then
    let last := hist.drop (hist.length - 5)
    decide (consecutiveSum rd last / 4 < 1 / 1000) && decide (consecutiveSum td last / 4 < 1 / 100)
  else false

/-- icp_fast.cc:480-522: the loop of `IcpFast::Align`.  `inc T` is the increment the solver finds
when the source cloud is moved by `T`.  `none`: the fuel did not suffice. -/
def icpLoop {G : Type} [Mul G] (inc : G → Outcome G) (conv : List G → Bool) (maxIt : Int) :
    Nat → G → List G → Int → Option (Outcome (G × List G))
  | 0, _, _, _ => none
  | fuel + 1, T, hist, iterator =>
    match inc T with
    | .abort => some .abort
    | .ub => some .ub
    | .ok s =>
      let T' := s * T
      let hist' := hist ++ [T']
      let iterator' := iterator + 1
      if conv hist' || decide (maxIt ≤ iterator') then some (.ok (T', hist'))
      else icpLoop inc conv maxIt fuel T' hist' iterator'

/-- icp_fast.cc:455-529 `IcpFast::Align`: result pose and the poses of all iterations.  `mean` is the
translation to the centre of the target cloud. -/
def icpAlign {G : Type} [Group G] (inc : G → G → Outcome G) (conv : List G → Bool) (maxIt : Int)
    (mean guess : G) (fuel : Nat) : Option (Outcome (G × List G)) :=
  let start := mean⁻¹ * guess
  match icpLoop (inc start) conv maxIt fuel 1 [1] 0 with
  | some (.ok (T, hist)) => some (.ok (mean * T * start, hist))
  | some .abort => some .abort
  | some .ub => some .ub
  | none => none

end Verif
