import Verif.Model.JoinMaps
/-! What the optimiser of several trajectories should be given. -/
namespace Verif.Spec
variable {G : Type}

/-- A loaded map: trajectory `n` has index `n + offset`, its submaps are numbered from zero, and the
numbers are small enough for the keys. -/
def Numbered (offset : Nat) (trajs : List (List (JoinSubmap G))) : Prop :=
  offset + trajs.length ≤ 16777216 ∧
  ∀ (n : Nat) (l : List (JoinSubmap G)), trajs[n]? = some l → l.length ≤ 2147483648 ∧
    ∀ (i : Nat) (s : JoinSubmap G), l[i]? = some s → s.id = ⟨((n + offset : Nat) : Int), (i : Int)⟩

/-- Connections lead to submaps of the map (`offset` not yet added). -/
def ConnectionsIn (trajs : List (List (JoinSubmap G))) : Prop :=
  ∀ s ∈ trajs.flatten, ∀ c ∈ s.connected, ∃ (n i : Nat) (l : List (JoinSubmap G)) (s' : JoinSubmap G),
    c = ⟨(n : Int), (i : Int)⟩ ∧ trajs[n]? = some l ∧ l[i]? = some s'

/-- The submap a connection leads to. -/
def submapAt (trajs : List (List (JoinSubmap G))) (c : SubmapId) : Option (JoinSubmap G) :=
  trajs[c.trajectory.toNat]?.bind fun l => l[c.submap.toNat]?

/-- The connections of a map as constraints: start, end, relative pose. -/
def connectionLinks (rel : G → G → G) (trajs : List (List (JoinSubmap G))) :
    List (SubmapId × SubmapId × G) :=
  trajs.flatten.flatMap fun s => s.connected.filterMap fun c =>
    (submapAt trajs c).map fun s' => (s.id, s'.id, rel s.pose s'.pose)

/-- The constraints between submaps among the optimiser's constraints. -/
def linksOf (l : List (JoinFactor G)) : List (UInt64 × UInt64 × G × Bool) :=
  l.filterMap fun | .link a b t p => some (a, b, t, p) | _ => none

/-- The priors of a submap. -/
def priorsOf (k : UInt64) (l : List (JoinFactor G)) : List G :=
  l.filterMap fun | .prior j p => if j = k then some p else none | _ => none

/-- The constraint holds exactly at the poses `x`. -/
def HoldsAt (rel : G → G → G) (x : UInt64 → G) : JoinFactor G → Prop
  | .prior k p => x k = p
  | .link a b t _ => rel (x a) (x b) = t

/-- No places have a smaller sum of errors. -/
def BestJoin {V : Type} [NormedAddCommGroup V] (l : List (JoinFactor V)) (x : UInt64 → V) : Prop :=
  ∀ y, joinCost l x ≤ joinCost l y

/-- The number of loops that end at a submap (a loop from a submap to itself does not occur). -/
def loopsAt (k : UInt64) (l : List (JoinFactor G)) : Nat :=
  ((linksOf l).filter fun e => decide ((e.1 = k ∨ e.2.1 = k) ∧ e.2.2.2 = true)).length

/-- The number of connections that end at a submap. -/
def connectionsAt (k : UInt64) (l : List (JoinFactor G)) : Nat :=
  ((linksOf l).filter fun e => decide ((e.1 = k ∨ e.2.1 = k) ∧ e.2.2.2 = false)).length

/-- What `AddSubmap` and `AddSubmapConnection` may be called with after submaps `ids`: the next submap
of some trajectory, loops with submaps of other trajectories, connections between known submaps. -/
def Acceptable : List SubmapId → List (JoinCall G) → Prop
  | _, [] => True
  | ids, .submap s loops :: r =>
    (0 ≤ s.id.trajectory ∧ s.id.trajectory < 16777216 ∧ s.id.submap < 2147483648 ∧
      s.id.submap = ((ids.filter fun i => decide (i.trajectory = s.id.trajectory)).length : Int)) ∧
    (∀ p ∈ loops, ∃ i, ids[p.1]? = some i ∧ i.trajectory ≠ s.id.trajectory) ∧
    Acceptable (ids ++ [s.id]) r
  | ids, .link a b _ :: r => a ∈ ids ∧ b ∈ ids ∧ Acceptable ids r

/-- The submaps added by calls. -/
def addedBy (calls : List (JoinCall G)) : List (SubmapId × G) :=
  calls.filterMap fun | .submap s _ => some (s.id, s.pose) | _ => none

/-- The constraints between submaps that calls ask for after submaps `ids`: a loop by the place of
its target among the submaps. -/
def askedBy : List SubmapId → List (JoinCall G) → List (SubmapId × SubmapId × G × Bool)
  | _, [] => []
  | ids, .submap s loops :: r =>
    (loops.filterMap fun p => (ids ++ [s.id])[p.1]?.map fun i => (i, s.id, p.2, true)) ++
      askedBy (ids ++ [s.id]) r
  | ids, .link a b t :: r => (a, b, t, false) :: askedBy ids r

/-- The same with keys. -/
def keyed (l : List (SubmapId × SubmapId × G × Bool)) : List (UInt64 × UInt64 × G × Bool) :=
  l.map fun e => (submapKey e.1, submapKey e.2.1, e.2.2)

/-- The submaps added by calls, with all they hold. -/
def submapsBy (calls : List (JoinCall G)) : List (JoinSubmap G) :=
  calls.filterMap fun | .submap s _ => some s | _ => none

/-- The submaps from which a loop leads to `x`. -/
def loopsTo (x : SubmapId) (l : List (SubmapId × SubmapId × G × Bool)) : List SubmapId :=
  l.filterMap fun e => if e.1 = x ∧ e.2.2.2 = true then some e.2.1 else none

end Verif.Spec
