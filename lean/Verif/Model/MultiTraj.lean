import Verif.Model.Outcome
import Verif.Model.Names
/-
Several trajectories in one map: the 64-bit keys of submaps, the text form of a submap's
connections, and writing and loading map packages
(back_end/multi_trajectory/multi_trajectory_optimizer.cc,
builder/multi_trajectory/multi_trajectory_map_builder.cc, builder/trajectory.cc).

These two directories are not part of the build at the pinned commit; the code is modelled as it
is written.  XML is modelled as attribute lists: pugixml's writing and reading of attributes is
taken to give back the same values (numbers are written with 17 digits).
-/
namespace Verif

/-- multi_trajectory_optimizer.cc:40-42: both `int32_t`s are converted to `uint64_t` (modulo
2^64). -/
def submapKey (id : SubmapId) : UInt64 :=
  (UInt64.ofNat (id.trajectory % 18446744073709551616).toNat <<< 32) +
    UInt64.ofNat (id.submap % 18446744073709551616).toNat

/-- multi_trajectory_optimizer.cc:43-46: the first four bytes of the little-endian key. -/
def submapIndexOfKey (k : UInt64) : UInt32 := k.toUInt32

/-- trajectory.cc:50-55. -/
def connectionsStr : List SubmapId → List Char
  | [] => []
  | id :: r => '[' :: decInt id.trajectory ++ ',' :: decInt id.submap ++ ']' :: connectionsStr r

/-- multi_trajectory_map_builder.cc:35-42: `getline` with a delimiter; what follows the last
delimiter is a token only if it is not empty.  `tok` is the token read so far. -/
def splitOn (delim : Char) : List Char → List Char → List (List Char)
  | [], tok => if tok = [] then [] else [tok]
  | c :: r, tok => if c = delim then tok :: splitOn delim r [] else splitOn delim r (tok ++ [c])

/-- `std::string::find(char)`. -/
def strFind (c : Char) : List Char → Option Nat
  | [] => none
  | d :: r => if d = c then some 0 else (strFind c r).map (· + 1)

def isSpaceChar (c : Char) : Bool :=
  c = ' ' || c = '\t' || c = '\n' || c = '\r' || c = Char.ofNat 11 || c = Char.ofNat 12

def isDigitChar (c : Char) : Bool := decide (48 ≤ c.toNat ∧ c.toNat ≤ 57)

/-- The digits at the front of a text. -/
def atoiDigits : List Char → Nat → Nat
  | [], acc => acc
  | c :: r, acc => if isDigitChar c then atoiDigits r (10 * acc + (c.toNat - 48)) else acc

/-- A sign and digits. -/
def signedDigits : List Char → Int
  | [] => 0
  | c :: r =>
    if c = '-' then -(atoiDigits r 0 : Int)
    else if c = '+' then (atoiDigits r 0 : Int)
    else (atoiDigits (c :: r) 0 : Int)

/-- `atoi`: white space, a sign, digits.  A value outside `int` is undefined behaviour. -/
def atoi (s : List Char) : Outcome Int :=
  let v := signedDigits (s.dropWhile isSpaceChar)
  if -2147483648 ≤ v ∧ v ≤ 2147483647 then .ok v else .ub

/-- multi_trajectory_map_builder.cc:287-297: one `[t,s`.  A missing '[' gives position
`npos + 1 = 0`; with a missing ',' (`npos`) the check passes and `npos + 1 = 0` again. -/
def connectionOfToken (s : List Char) : Outcome SubmapId := do
  let first := match strFind '[' s with
    | some i => i + 1
    | none => 0
  match strFind ',' s with
  | some comma => do
    Outcome.check (first ≤ comma)
    let t ← atoi ((s.drop first).take (comma - first))
    let i ← atoi (s.drop (comma + 1))
    return ⟨t, i⟩
  | none => do
    let t ← atoi (s.drop first)
    let i ← atoi s
    return ⟨t, i⟩

/-- The loop of lines 287-298. -/
def connectionsOfTokens : List (List Char) → Outcome (List SubmapId)
  | [] => .ok []
  | t :: r => do
    let id ← connectionOfToken t
    let ids ← connectionsOfTokens r
    return id :: ids

/-- multi_trajectory_map_builder.cc:277-299. -/
def connectionsStrToIds (s : List Char) : Outcome (List SubmapId) :=
  if s = [] then .ok [] else connectionsOfTokens (splitOn ']' s [])

/-! ### Packages -/

/-- A submap as far as a package stores it: its place in the trajectory's plane, the other four
pose numbers (`rest`), its file and its connections. -/
structure TrajSubmap where
  id : SubmapId
  file : List Char
  x : Rat
  y : Rat
  rest : List Rat
  connected : List SubmapId
  deriving DecidableEq

/-- builder/trajectory.h: the id, the ENU offset and the submaps. -/
structure TrajPkg where
  id : Int
  enuX : Rat
  enuY : Rat
  submaps : List TrajSubmap
  deriving DecidableEq

/-- The XML of a submap: number attributes and text attributes. -/
structure XmlSubmap where
  id : Int
  file : List Char
  tx : Rat
  ty : Rat
  rest : List Rat
  connections : List Char

/-- The XML of a trajectory: its number attributes by name and the submaps in it. -/
structure XmlTrajectory where
  attrs : List (List Char × Rat)
  submaps : List XmlSubmap

/-- pugixml's `attribute(name).as_double()`: zero if there is no such attribute. -/
def attrDouble (attrs : List (List Char × Rat)) (name : List Char) : Rat :=
  match attrs.lookup name with
  | some v => v
  | none => 0

/-- trajectory.cc:32-58. -/
def xmlOfTrajectory (t : TrajPkg) : XmlTrajectory where
  attrs := [("id".toList, (t.id : Rat)), ("enu_x".toList, t.enuX), ("enu_y".toList, t.enuY)]
  submaps := t.submaps.map fun s =>
    { id := s.id.submap, file := s.file, tx := s.x, ty := s.y, rest := s.rest
      connections := connectionsStr s.connected }

/-- multi_trajectory_map_builder.cc:178-207: one submap; `ox`, `oy` are the offsets. -/
def loadSubmap (index : Nat) (ox oy : Rat) (x : XmlSubmap) : Outcome TrajSubmap := do
  let c ← connectionsStrToIds x.connections
  return { id := ⟨index, x.id⟩, file := x.file, x := x.tx + ox, y := x.ty + oy, rest := x.rest
           connected := c }

/-- The loop over submaps. -/
def loadSubmaps (index : Nat) (ox oy : Rat) : List XmlSubmap → Outcome (List TrajSubmap)
  | [] => .ok []
  | x :: r => do
    let s ← loadSubmap index ox oy x
    let l ← loadSubmaps index ox oy r
    return s :: l

/-- multi_trajectory_map_builder.cc:160-210: the loop over trajectories.  `index` is
`trajectories->size()`, `base` the reference `base_utm_x_`, `base_utm_y_`; the reference is set by
the first trajectory if `update` is set.  The offset of the loaded trajectory is not set (zero). -/
def loadTrajectories (update : Bool) : Nat → Rat × Rat → List XmlTrajectory →
    Outcome (List TrajPkg × (Rat × Rat))
  | _, base, [] => .ok ([], base)
  | index, base, t :: r => do
    let ux := attrDouble t.attrs "utm_x".toList
    let uy := attrDouble t.attrs "utm_y".toList
    let base := if index = 0 ∧ update = true then (ux, uy) else base
    let s ← loadSubmaps index (ux - base.1) (uy - base.2) t.submaps
    let l ← loadTrajectories update (index + 1) base r
    return ({ id := index, enuX := 0, enuY := 0, submaps := s } :: l.1, l.2)

/-- multi_trajectory_map_builder.cc:93-109: shifting the ids of incremental trajectories. -/
def shiftIds (offset : Nat) (t : TrajPkg) : TrajPkg :=
  { t with
    id := t.id + offset
    submaps := t.submaps.map fun s => { s with id := ⟨s.id.trajectory + offset, s.id.submap⟩ } }

/-- multi_trajectory_map_builder.cc: the builder's trajectories and reference. -/
structure MultiMap where
  base : List TrajPkg
  utm : Rat × Rat

/-- multi_trajectory_map_builder.cc:50-54 (on an empty builder) and 85-138.  Not modelled: loading
the files of the submaps, the optimiser. -/
def loadBase (pkg : List XmlTrajectory) : Outcome MultiMap := do
  let r ← loadTrajectories true 0 (0, 0) pkg
  return ⟨r.1, r.2⟩

/-- multi_trajectory_map_builder.cc:121-124: looking up a connected submap among the incremental
trajectories.  `operator[]` out of range is undefined behaviour, `at` out of range throws. -/
def reconnect (inc : List TrajPkg) (id : SubmapId) : Outcome SubmapId :=
  match (if 0 ≤ id.trajectory then inc[id.trajectory.toNat]? else none) with
  | none => .ub
  | some t =>
    match (if 0 ≤ id.submap then t.submaps[id.submap.toNat]? else none) with
    | none => .abort
    | some s => .ok s.id

/-- The loops of multi_trajectory_map_builder.cc:115-131. -/
def mapOutcome {α β : Type} (f : α → Outcome β) : List α → Outcome (List β)
  | [] => .ok []
  | x :: r => do
    let y ← f x
    let l ← mapOutcome f r
    return y :: l

/-- multi_trajectory_map_builder.cc:116-130: the connections of one submap are replaced by the ids
the connected submaps have now. -/
def reconnectSubmap (inc : List TrajPkg) (s : TrajSubmap) : Outcome TrajSubmap := do
  let c ← mapOutcome (reconnect inc) s.connected
  return { s with connected := c }

/-- multi_trajectory_map_builder.cc:115-131 for one trajectory. -/
def reconnectTrajectory (inc : List TrajPkg) (t : TrajPkg) :
    Outcome TrajPkg := do
  let l ← mapOutcome (reconnectSubmap inc) t.submaps
  return { t with submaps := l }

/-- multi_trajectory_map_builder.cc:85-138: ids, poses and connections; not the optimiser. -/
def loadIncremental (m : MultiMap) (pkg : List XmlTrajectory) : Outcome MultiMap := do
  let r ← loadTrajectories false 0 m.utm pkg
  let inc := r.1.map (shiftIds m.base.length)
  let inc' ← mapOutcome (reconnectTrajectory inc) inc
  return { m with base := m.base ++ inc' }

end Verif
