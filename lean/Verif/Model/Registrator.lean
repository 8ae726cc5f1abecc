import Verif.Model.Outcome
/-
registrators/interface.cc:38-60, icp_fast.cc:421-452, icp_pointmatcher.cc:84-102, ndt.cc:38-45,
ndt_gicp.cc:55-81: how a matcher takes its clouds and which it uses.

A cloud is an identity and what the setters look at.  Alignment itself is not modelled here, only
which clouds it works on.
-/
namespace Verif

/-- A cloud handed to a matcher (`InnerPointCloudData`). -/
structure RegCloud where
  id : Nat
  empty : Bool
  nan : Bool          -- some coordinate is NaN
  normals : Bool      -- the Eigen cloud has normals
  deriving DecidableEq

/-- registrators/interface.cc:139-160: the matchers that can be created. -/
inductive RegKind where
  | ndt
  | ndtGicp
  | icpPM
  | icpFast
  deriving DecidableEq

structure RegState where
  source : Option RegCloud
  target : Option RegCloud

/-- interface.cc:38-48, 50-60 (shared by ndt and ndtGicp). -/
def regSetBase (old new : Option RegCloud) : Option RegCloud :=
  match new with
  | none => none
  | some c => if c.empty then old else some c

/-- icp_pointmatcher.cc:84-92, 94-102: NaN points are dropped by the conversion, the check then
fails. -/
def regSetPM (old new : Option RegCloud) : Outcome (Option RegCloud) :=
  match new with
  | none => .ok old
  | some c => if c.empty then .ok old else if c.nan then .abort else .ok (some c)

/-- `SetInputSource`. -/
def regSetSource (k : RegKind) (st : RegState) (c : Option RegCloud) : Outcome RegState :=
  match k with
  | .ndt | .ndtGicp => .ok { st with source := regSetBase st.source c }
  | .icpPM => do
    let s ← regSetPM st.source c
    pure { st with source := s }
  | .icpFast =>                                    -- icp_fast.cc:421-425
    match c with
    | none => .abort
    | some c => .ok { st with source := some c }

/-- `SetInputTarget`. -/
def regSetTarget (k : RegKind) (st : RegState) (c : Option RegCloud) : Outcome RegState :=
  match k with
  | .ndt | .ndtGicp => .ok { st with target := regSetBase st.target c }
  | .icpPM => do
    let s ← regSetPM st.target c
    pure { st with target := s }
  | .icpFast =>                                    -- icp_fast.cc:427-430
    match c with
    | none => .abort
    | some c => if c.normals then .ok { st with target := some c } else .abort

/-- What `Align` does with the clouds: `ok (some (s, t))`: it works on `s` and `t`; `ok none`: it is
refused (returns false); `ub`: a null pointer is read.  ndt.cc:40-42 tests the pointers; ndt_gicp.cc
does not; icpPM starts with two empty clouds, for which its library throws; icpFast reads null. -/
def regAlign (k : RegKind) (st : RegState) : Outcome (Option (RegCloud × RegCloud)) :=
  match st.source, st.target with
  | some s, some t => .ok (some (s, t))
  | _, _ =>
    match k with
    | .ndt => .ok none
    | .ndtGicp => .ub
    | .icpPM => .abort
    | .icpFast => .ub

inductive RegOp where
  | source (c : Option RegCloud)
  | target (c : Option RegCloud)
  | align

/-- A sequence of calls: the clouds used by each alignment, oldest first. -/
def regRun (k : RegKind) : List RegOp → RegState → Outcome (List (Option (RegCloud × RegCloud)))
  | [], _ => .ok []
  | .source c :: l, st => do
    let st ← regSetSource k st c
    regRun k l st
  | .target c :: l, st => do
    let st ← regSetTarget k st c
    regRun k l st
  | .align :: l, st => do
    let r ← regAlign k st
    let rs ← regRun k l st
    pure (r :: rs)

end Verif
