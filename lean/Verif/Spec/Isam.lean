import Verif.Model.Isam
/-! What the optimiser should be given for a sequence of submaps. -/
namespace Verif.Spec
variable {T E : Type}

/-- The GPS observations of a list of frames whose first one has index `k`. -/
def gpsOf : Nat → List (IsamFrame T E) → List (Nat × E)
  | _, [] => []
  | k, f :: fs => (match f.gps with | some e => [(k, e)] | none => []) ++ gpsOf (k + 1) fs

/-- The transforms to the previous frame, first frame excluded. -/
def stepsOf : Nat → List (IsamFrame T E) → List (Nat × T)
  | _, [] => []
  | k, f :: fs => (if k = 0 then [] else [(k, f.fromLast)]) ++ stepsOf (k + 1) fs

/-- Frame `k` is one at which the GPS frame can be solved: it has GPS, enough earlier frames had
GPS, and the vehicle has turned far enough. -/
def IsTrigger (o : IsamOpts) (fs : List (IsamFrame T E)) (k : Nat) : Prop :=
  ∃ f e, fs[k]? = some f ∧ f.gps = some e ∧ 0 ≤ o.initNum ∧
    o.initNum ≤ ((gpsOf 0 (fs.take k)).length : Int) ∧ o.initAngle ≤ f.rotation

/-- An index on the sampling step. -/
def onStep (o : IsamOpts) (i : Nat) : Bool := decide (o.sampleStep ≤ 1 ∨ (i : Int) % o.sampleStep = 0)

/-- The GPS constraints among the optimiser's constraints. -/
def gpsApplied (l : List (IsamFactor T E)) : List (Nat × E) :=
  l.filterMap fun | .gps i e => some (i, e) | _ => none

/-- The constraints between consecutive frames. -/
def stepFactors (l : List (IsamFactor T E)) : List (Nat × T) :=
  l.filterMap fun | .step i t => some (i, t) | _ => none

/-- The loop constraints. -/
def loopFactors (l : List (IsamFactor T E)) : List (Nat × Nat × T) :=
  l.filterMap fun | .loop a b t => some (a, b, t) | _ => none

/-- The anchors. -/
def priorFactors (l : List (IsamFactor T E)) : List (Nat × T) :=
  l.filterMap fun | .prior i p => some (i, p) | _ => none

/-- The constraints that start at frame `i`: the other frame and the transform. -/
def leaving (i : Nat) (l : List (IsamFactor T E)) : List (Nat × T) :=
  l.filterMap fun
    | .step j t => if j = i + 1 then some (j, t) else none
    | .loop a b t => if a = i then some (b, t) else none
    | _ => none

/-- Loop edges join an earlier frame with the newest one, which has index `k` for the first frame. -/
def EdgesValid : Nat → List (IsamFrame T E) → Prop
  | _, [] => True
  | k, f :: fs => (∀ e ∈ f.edges, e.1 < k ∧ e.2.1 = k) ∧ EdgesValid (k + 1) fs

end Verif.Spec
