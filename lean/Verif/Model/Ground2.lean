import Verif.Model.Outcome
import Verif.Model.Filters
/-
pre_processors/filter_ground_removal2.cc: ground removal by lines fitted in direction segments.

Coordinates are exact rationals. A point enters as its distance from the sensor axis
(`sqrt(x² + y²)`, line 164), its height and the whole number `rad / delta_alpha` (line 175); the
square root and `atan2` themselves are not modelled. Least squares (lines 28-44 `FitLocalLine`) is a
parameter that maps a list of points to slope and offset. The numbers of bins and segments are taken
to be positive. Segments are fitted and searched in parallel in the code; every segment writes its own
result, so the model goes through them in order.
-/
namespace Verif

/-- filter_ground_removal2.h:43 `Point`: distance and height. -/
structure DZ where
  d : Rat
  z : Rat
  deriving DecidableEq

/-- A cloud point as the filter sees it. -/
structure G2Point where
  range : Rat
  z : Rat
  sector : Int      -- `rad / delta_alpha` cut to a whole number

/-- filter_ground_removal2.h:44-47 `Grid`: the lowest point and the listed points with their index. -/
structure G2Cell where
  low : DZ
  pts : List (Nat × DZ)
  deriving DecidableEq

/-- filter_ground_removal2.h:49-51 `Line`. -/
structure G2Line where
  s : DZ
  e : DZ
  deriving DecidableEq

/-- filter_ground_removal2.cc:73-88, the parameters. -/
structure G2Params where
  rMax : Rat
  rMin : Rat
  bins : Nat
  segs : Nat
  startHeight : Rat
  longThreshold : Rat
  maxLongHeight : Rat
  maxStart : Rat
  maxError : Rat
  maxSlope : Rat
  maxDist : Rat
  searchAngle : Rat

/-- filter_ground_removal2.cc:180-184, 185-189 : clamp an index into `0 .. n-1`. -/
def g2Clamp (i : Int) (n : Nat) : Nat := if (n : Int) ≤ i then n - 1 else i.toNat

/-- filter_ground_removal2.cc:148, 176, 180-184 : the bin of a distance. Dividing by zero and a
quotient that does not fit 32 bits make the conversion undefined. -/
def g2Bin (p : G2Params) (range : Rat) : Outcome Nat :=
  if p.rMax = p.rMin then .ub
  else
    let i := truncInt ((range - p.rMin) / ((p.rMax - p.rMin) / p.bins))
    if i < -2147483648 ∨ 2147483647 < i then .ub else .ok (g2Clamp i p.bins)

/-- filter_ground_removal2.h:105-107 `GridIndex`. -/
def g2Index (p : G2Params) (seg bin : Nat) : Nat := seg * p.bins + bin

/-- filter_ground_removal2.cc:160-195 : the cell of a point. The test at 165,
`range < r_min_ && range > r_max_`, is kept as it is written. -/
def g2Cell (p : G2Params) (q : G2Point) : Outcome (Option Nat) :=
  if q.range < p.rMin ∧ q.range > p.rMax then .ok none
  else do
    let b ← g2Bin p q.range
    return some (g2Index p (g2Clamp q.sector p.segs) b)

/-- filter_ground_removal2.cc:201-210 : put point `i` into its cell. -/
def g2Put (i : Nat) (q : G2Point) (c : G2Cell) : G2Cell :=
  let low := if c.pts.isEmpty ∨ q.z < c.low.z then ⟨q.range, q.z⟩ else c.low
  if q.z ≤ low.z + 1 / 2 then ⟨low, c.pts ++ [(i, ⟨q.range, q.z⟩)]⟩ else ⟨low, c.pts⟩

/-- filter_ground_removal2.cc:138-142 : an untouched cell. -/
def g2Default : G2Cell := ⟨⟨1000000, 1000000⟩, []⟩

/-- filter_ground_removal2.cc:197-211; `grids_.at` throws for an index that is too large. -/
def g2Insert : List (G2Point × Nat) → List (Option Nat) → List G2Cell → Outcome (List G2Cell)
  | q :: qs, some k :: ks, cells =>
    if k < cells.length then g2Insert qs ks (cells.modify k (g2Put q.2 q.1)) else .abort
  | _ :: qs, none :: ks, cells => g2Insert qs ks cells
  | _, _, cells => .ok cells

/-- filter_ground_removal2.cc:127-211 `SetInputCloud`, for a cloud with points. -/
def g2SetInput (p : G2Params) (cloud : List G2Point) : Outcome (List G2Cell) := do
  let ks ← cloud.mapM (g2Cell p)
  g2Insert cloud.zipIdx ks (List.replicate (p.bins * p.segs) g2Default)

/-! ### fitting lines -/

/-- filter_ground_removal2.cc:46-56 `GetMaxError`. -/
def g2MaxError (pts : List DZ) (line : Rat × Rat) : Rat :=
  pts.foldl (fun m q => if m < |line.1 * q.d + line.2 - q.z| then |line.1 * q.d + line.2 - q.z| else m) 0

/-- `points.back()`; the list is never empty. -/
def g2Back (pts : List DZ) : DZ := pts.getLastD ⟨0, 0⟩

/-- filter_ground_removal2.cc:58-70 `LocalLineToLine`. -/
def g2ToLine (line : Rat × Rat) (pts : List DZ) : G2Line :=
  ⟨⟨(pts.headD ⟨0, 0⟩).d, line.1 * (pts.headD ⟨0, 0⟩).d + line.2⟩,
   ⟨(g2Back pts).d, line.1 * (g2Back pts).d + line.2⟩⟩

/-- The local variables of `FitLines`. -/
structure G2Fit where
  pts : List DZ
  line : Rat × Rat
  long : Bool
  height : Rat
  out : List G2Line

/-- filter_ground_removal2.cc:271-274, 283-285 : is the point far from where the line leads? Without
a line of three points the expected height is the largest `float`, and every point is far from it. -/
def g2Far (p : G2Params) (st : G2Fit) (long : Bool) (c : DZ) : Bool :=
  long && (if 2 < st.pts.length then decide (p.maxLongHeight < |st.line.1 * c.d + st.line.2 - c.z|)
    else true)

/-- filter_ground_removal2.cc:287-300 : the line ends before this point. -/
def g2Close (fit : List DZ → Rat × Rat) (st : G2Fit) (line : Rat × Rat) : G2Fit :=
  if 3 ≤ st.pts.length then
    { pts := [g2Back st.pts], line := line, long := false,
      height := (fit st.pts).1 * (g2Back st.pts).d + (fit st.pts).2,
      out := st.out ++ [g2ToLine (fit st.pts) st.pts] }
  else { pts := [g2Back st.pts], line := line, long := false, height := st.height, out := st.out }

/-- filter_ground_removal2.cc:265-311 : one round of the loop at a bin that is not empty, with lowest
point `c`. The flag says that the round is repeated for the same bin (`--i`, line 300). -/
def g2Visit (p : G2Params) (fit : List DZ → Rat × Rat) (st : G2Fit) (c : DZ) : G2Fit × Bool :=
  let long := st.long || decide (p.longThreshold ≤ c.d - (g2Back st.pts).d)
  if 2 ≤ st.pts.length then
    let line := fit (st.pts ++ [c])
    if p.maxError < g2MaxError (st.pts ++ [c]) line ∨ p.maxSlope < |line.1| ∨ g2Far p st long c = true then
      (g2Close fit st line, true)
    else ({ st with pts := st.pts ++ [c], line := line, long := long }, false)
  else if long = false ∧ |(g2Back st.pts).z - st.height| < p.maxStart then
    ({ st with pts := st.pts ++ [c], long := long }, false)
  else ({ st with pts := [c], long := long }, false)

/-- filter_ground_removal2.cc:259-312 : the loop over the remaining bins; `none`: not finished. -/
def g2Loop (p : G2Params) (fit : List DZ → Rat × Rat) : Nat → List G2Cell → G2Fit → Option G2Fit
  | _, [], st => some st
  | 0, _ :: _, _ => none
  | n + 1, c :: rest, st =>
    if c.pts.isEmpty then g2Loop p fit n rest st
    else if (g2Visit p fit st c.low).2 = true then g2Loop p fit n (c :: rest) (g2Visit p fit st c.low).1
    else g2Loop p fit n rest (g2Visit p fit st c.low).1

/-- filter_ground_removal2.cc:313-316 : the line that is open at the end. -/
def g2End (fit : List DZ → Rat × Rat) (st : G2Fit) : List G2Line :=
  if 2 < st.pts.length then st.out ++ [g2ToLine (fit st.pts) st.pts] else st.out

/-- filter_ground_removal2.cc:240-318 `FitLines` for the bins of one segment, with a limit on the
number of rounds. -/
def g2FitLines (p : G2Params) (fit : List DZ → Rat × Rat) (rounds : Nat) (bins : List G2Cell) :
    Option (List G2Line) :=
  match bins.dropWhile (fun c => c.pts.isEmpty) with
  | [] => some []
  | c :: rest =>
    if rest.isEmpty then some []
    else (g2Loop p fit rounds rest
      { pts := [c.low], line := (0, 0), long := false, height := p.startHeight, out := [] }).map (g2End fit)

/-- filter_ground_removal2.cc:262, 246 : the bins of a segment. -/
def g2Bins (p : G2Params) (cells : List G2Cell) (seg : Nat) : List G2Cell :=
  (List.range p.bins).map (fun b => cells.getD (g2Index p seg b) g2Default)

/-! ### finding the ground points -/

/-- filter_ground_removal2.cc:398-414 `VerticalDistanceToSegment`: the distance to the last line that
covers the point, `-1` when there is none. -/
def g2Distance (q : DZ) : List G2Line → Rat → Outcome Rat
  | [], dist => .ok dist
  | l :: ls, dist => do
    Outcome.check (l.s.d < l.e.d)
    if l.s.d - 1 / 10 < q.d ∧ q.d < l.e.d + 1 / 10 then
      g2Distance q ls |q.z - ((q.d - l.s.d) / (l.e.d - l.s.d) * (l.e.z - l.s.z) + l.s.z)|
    else g2Distance q ls dist

/-- filter_ground_removal2.cc:340-346 : the steps to other segments, farthest first. -/
def g2Steps : Nat → List Int
  | 0 => []
  | n + 1 => [((n + 1 : Nat) : Int), -((n + 1 : Nat) : Int)] ++ g2Steps n

/-- filter_ground_removal2.cc:341 : `search_angle_ / 180 * M_PI / (M_PI * 2 / segment_num_)`. -/
def g2MaxStep (p : G2Params) : Nat := (truncInt (p.searchAngle * p.segs / 360)).toNat

/-- filter_ground_removal2.cc:366-371 : the neighbouring segment. -/
def g2Neighbour (p : G2Params) (s : Nat) (i : Int) : Int :=
  if (s : Int) + i < 0 then s + i + p.segs
  else if (p.segs : Int) ≤ s + i then s + i - p.segs else s + i

/-- filter_ground_removal2.cc:365-379. `segments.at` throws for a wrong index; the exception would end
the work on this segment. -/
def g2Search (p : G2Params) (segments : List (List G2Line)) (q : DZ) (s : Nat) :
    List Int → Rat → Outcome Rat
  | [], dist => .ok dist
  | i :: is, _ =>
    if g2Neighbour p s i < 0 then .abort
    else
      match segments[(g2Neighbour p s i).toNat]? with
      | none => .abort
      | some lines => do
        let d ← g2Distance q lines (-1)
        if 0 < d then return d else g2Search p segments q s is d

/-- filter_ground_removal2.cc:358-386 : is this listed point of segment `s` ground? -/
def g2IsGround (p : G2Params) (segments : List (List G2Line)) (s : Nat) (q : DZ) : Outcome Bool :=
  match segments[s]? with
  | none => .abort
  | some lines => do
    let d ← g2Distance q lines (-1)
    let d ← if d < 0 then g2Search p segments q s (g2Steps (g2MaxStep p)) d else .ok d
    return decide (0 < d ∧ d ≤ p.maxDist)

/-- filter_ground_removal2.cc:350-389 : the indices marked in a list of listed points. -/
def g2MarkPoints (p : G2Params) (segments : List (List G2Line)) (s : Nat) :
    List (Nat × DZ) → Outcome (List Nat)
  | [] => .ok []
  | q :: qs => do
    let g ← g2IsGround p segments s q.2
    let r ← g2MarkPoints p segments s qs
    return if g then q.1 :: r else r

/-- filter_ground_removal2.cc:337-396 `ClusterGround`: the indices whose flag is set. -/
def g2MarkAll (p : G2Params) (segments : List (List G2Line)) (cells : List G2Cell) :
    List Nat → Outcome (List Nat)
  | [] => .ok []
  | s :: ss => do
    let a ← g2MarkPoints p segments s ((g2Bins p cells s).flatMap (fun c => c.pts))
    let r ← g2MarkAll p segments cells ss
    return a ++ r

/-- filter_ground_removal2.cc:320-335 `FitSegments`. -/
def g2FitAll (p : G2Params) (fit : List DZ → Rat × Rat) (rounds : Nat) (cells : List G2Cell) :
    Option (List (List G2Line)) :=
  (List.range p.segs).mapM (fun s => g2FitLines p fit rounds (g2Bins p cells s))

/-- filter_ground_removal2.cc:127-238, `SetInputCloud` and `Filter` for a cloud with points: the
indices kept and the indices removed; `none`: line fitting takes more than `rounds` rounds. -/
def g2Run (p : G2Params) (fit : List DZ → Rat × Rat) (rounds : Nat) (cloud : List G2Point) :
    Outcome (Option (List Nat × List Nat)) := do
  let cells ← g2SetInput p cloud
  match g2FitAll p fit rounds cells with
  | none => return none
  | some segments => do
    let marked ← g2MarkAll p segments cells (List.range p.segs)
    return some ((List.range cloud.length).filter (fun i => decide (i ∉ marked)),
      (List.range cloud.length).filter (fun i => decide (i ∈ marked)))

end Verif
