import Verif.Model.Objective
/-! What the best map for a sequence of submaps is. -/
namespace Verif.Spec
noncomputable section
variable {V E : Type} [NormedAddCommGroup V] [InnerProductSpace ℝ V]

/-- No positions have a smaller sum of errors. -/
def BestMap (fs : List (IsamFactor V E)) (x : Nat → V) : Prop := ∀ y, mapCost fs x ≤ mapCost fs y

/-- The place of submap `i` if each one is put where its match with the one before says. -/
def chained (fs : List (IsamFrame V E)) : Nat → V
  | 0 => match fs.head? with | some f => f.pose | none => 0
  | i + 1 => chained fs i + match fs[i + 1]? with | some f => f.fromLast | none => 0

/-- All edges of the accepted loops. -/
def loopEdges (fs : List (IsamFrame V E)) : List (Nat × Nat × V) := fs.flatMap fun f => f.edges

/-- What a loop edge says is wrong with the chained places. -/
def loopError (fs : List (IsamFrame V E)) (e : Nat × Nat × V) : V :=
  e.2.2 - (chained fs e.2.1 - chained fs e.1)

/-- GPS and odometry are not used. -/
def LidarOnly (o : IsamOpts) : Prop := o.useGps = false ∧ o.useOdom = false

/-- A constraint on poses. -/
def IsPoseFactor {T : Type} : IsamFactor T E → Prop
  | .prior _ _ => True
  | .step _ _ => True
  | .loop _ _ _ => True
  | _ => False

/-- What the constraints between submaps pull submap `i` by: the sum of the errors of those that
arrive at it minus the sum of the errors of those that start at it. -/
def pullAt (l : List (IsamFactor V E)) (x : Nat → V) (i : Nat) : V :=
  (l.map fun
    | .step j t => (if j = i then x j - x (j - 1) - t else 0) -
        (if j - 1 = i then x j - x (j - 1) - t else 0)
    | .loop a b t => (if b = i then x b - x a - t else 0) - (if a = i then x b - x a - t else 0)
    | _ => 0).sum

/-- The constraints the optimiser has been given after these submaps. -/
def GivenTo {T : Type} (o : IsamOpts) (fs : List (IsamFrame T E)) (l : List (IsamFactor T E)) : Prop :=
  ∃ st, isamRun o fs (isamInit T E) = .ok st ∧ st.pendF = [] ∧ st.doneF = l

/-- No shift to the ENU frame and poses have a smaller sum of errors. -/
def BestGpsStart (arm : V) (est : Nat → V) (cached : List (Nat × V)) (c : V) : Prop :=
  ∃ p, ∀ c' p', gpsStartCost arm est cached c p ≤ gpsStartCost arm est cached c' p'

end
end Verif.Spec
