import Verif.Model.Ground2
import Mathlib.Data.List.MinMax
namespace Verif.Spec

/-- Parameters the ground filter can work with. -/
structure G2Sane (p : G2Params) : Prop where
  range : p.rMin < p.rMax
  bins : 1 ≤ p.bins
  segs : 1 ≤ p.segs
  angle : p.searchAngle ≤ 360

/-- The width of a distance bin. -/
def g2Width (p : G2Params) : Rat := (p.rMax - p.rMin) / p.bins

/-- The distance is not so large that its bin number exceeds 32 bits. -/
def InReach (p : G2Params) (q : G2Point) : Prop :=
  -2147483648 ≤ (q.range - p.rMin) / g2Width p ∧ (q.range - p.rMin) / g2Width p < 2147483648

/-- The direction segment of a point; a direction outside the circle is moved to the nearest one. -/
def segOf (p : G2Params) (q : G2Point) : Nat := (max 0 (min q.sector ((p.segs : Int) - 1))).toNat

/-- The distance bin of a point; distances outside the range are moved to the nearest bin. -/
def binOf (p : G2Params) (q : G2Point) : Nat :=
  (max 0 (min ⌊(q.range - p.rMin) / g2Width p⌋ ((p.bins : Int) - 1))).toNat

def dzOf (q : G2Point) : DZ := ⟨q.range, q.z⟩

/-- The lowest point of every bin of a segment that has points, nearest bin first. -/
def lowest (p : G2Params) (cloud : List G2Point) (s : Nat) : List DZ :=
  (List.range p.bins).filterMap (fun b =>
    ((cloud.filter (fun q => segOf p q = s ∧ binOf p q = b)).argmin (fun q => q.z)).map dzOf)

/-- The part of the fitted line between the first and the last of its points. -/
def lineThrough (fit : List DZ → Rat × Rat) (g : List DZ) : G2Line :=
  ⟨⟨(g.headD ⟨0, 0⟩).d, (fit g).1 * (g.headD ⟨0, 0⟩).d + (fit g).2⟩,
   ⟨(g.getLastD ⟨0, 0⟩).d, (fit g).1 * (g.getLastD ⟨0, 0⟩).d + (fit g).2⟩⟩

/-- Points that may carry a ground line: at least three, none farther from the fitted line than
allowed, and the line not too steep. -/
structure Carries (p : G2Params) (fit : List DZ → Rat × Rat) (g : List DZ) : Prop where
  three : 3 ≤ g.length
  near : ∀ q ∈ g, |(fit g).1 * q.d + (fit g).2 - q.z| ≤ p.maxError
  slope : |(fit g).1| ≤ p.maxSlope

/-- Every line begins at about the height where the line before it ended, the first one at about the
height `h`. -/
def StartsLevel (p : G2Params) (fit : List DZ → Rat × Rat) : Rat → List (List DZ) → Prop
  | _, [] => True
  | h, g :: gs => |(g.headD ⟨0, 0⟩).z - h| < p.maxStart ∧ StartsLevel p fit (lineThrough fit g).e.z gs

/-- The ground lines of a segment. -/
def GroundLines (p : G2Params) (fit : List DZ → Rat × Rat) (lows : List DZ) (lines : List G2Line) : Prop :=
  ∃ groups : List (List DZ), lines = groups.map (lineThrough fit) ∧
    (∀ g ∈ groups, g <:+: lows ∧ Carries p fit g) ∧
    StartsLevel p fit p.startHeight groups ∧
    lines.Pairwise (fun a b => a.e.d ≤ b.s.d)

/-- A line reaches over the point (with a margin of 0.1). -/
def Covers (q : DZ) (l : G2Line) : Prop := l.s.d - 1 / 10 < q.d ∧ q.d < l.e.d + 1 / 10

instance (q : DZ) (l : G2Line) : Decidable (Covers q l) := by unfold Covers; infer_instance

/-- The height of a point above or below a line. -/
def offLine (q : DZ) (l : G2Line) : Rat :=
  |q.z - (l.s.z + (l.e.z - l.s.z) * (q.d - l.s.d) / (l.e.d - l.s.d))|

/-- The distance of a point from the ground lines of a segment: the last line over it counts. -/
def groundDist (q : DZ) (lines : List G2Line) : Option Rat :=
  ((lines.filter (fun l => Covers q l)).getLast?).map (offLine q)

/-- The neighbouring segments that are searched, farthest first. -/
def searchOrder (p : G2Params) (s : Nat) : List Nat :=
  ((List.range ⌊p.searchAngle * p.segs / 360⌋.toNat).reverse.flatMap
    (fun (k : Nat) => [((s : Int) + (k + 1)) % p.segs, ((s : Int) - (k + 1)) % p.segs])).map Int.toNat

/-- Off the ground lines, but not farther than allowed. Where the segment of the point has no line
over it, the first neighbouring segment from whose line it is off decides. -/
def OnGround (p : G2Params) (lines : Nat → List G2Line) (q : G2Point) : Prop :=
  match groundDist (dzOf q) (lines (segOf p q)) with
  | some d => 0 < d ∧ d ≤ p.maxDist
  | none => ∃ d, ((searchOrder p (segOf p q)).filterMap (fun s =>
      (groundDist (dzOf q) (lines s)).filter (fun d => decide (0 < d)))).head? = some d ∧ d ≤ p.maxDist

/-- No point of the same segment and bin that came before is more than half a metre lower. -/
def Listed (p : G2Params) (cloud : List G2Point) (i : Nat) : Prop :=
  ∃ q, cloud[i]? = some q ∧ ∀ j r, j < i → cloud[j]? = some r → segOf p r = segOf p q →
    binOf p r = binOf p q → q.z ≤ r.z + 1 / 2

/-- Least squares: the line of smallest squared vertical error. -/
def lsq (g : List DZ) : Rat × Rat :=
  let n : Rat := g.length
  let sx := (g.map (fun q => q.d)).sum
  let sy := (g.map (fun q => q.z)).sum
  let sxx := (g.map (fun q => q.d * q.d)).sum
  let sxy := (g.map (fun q => q.d * q.z)).sum
  let m := (n * sxy - sx * sy) / (n * sxx - sx * sx)
  (m, (sy - m * sx) / n)

end Verif.Spec
