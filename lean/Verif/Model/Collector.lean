import Verif.Model.Time
import Mathlib.Algebra.Order.Field.Rat
/-
builder/data/data_collector.{h,cc} : accumulation of incoming clouds, and the two queues between
the sensor thread, the pre-processing thread and the scan-matching thread.
-/
namespace Verif

/-- An incoming cloud: `ToLocalTime(cloud->header.stamp)` and its points; points are opaque apart
from the factor written below. -/
structure InCloud (P : Type) where
  stamp : SimpleTime
  points : List P

/-- A cloud handed to pre-processing: stamp and points with their factor. -/
structure OutCloud (P : Type) where
  stamp : SimpleTime
  points : List (P × Rat)

structure AccState (P : Type) where
  acc : List P := []                 -- accumulated_point_cloud_
  count : Nat := 0                   -- accumulated_cloud_count_
  first : SimpleTime := ⟨0, 0⟩       -- first_time_in_accmulated_cloud_
  out : List (OutCloud P) := []      -- cloud_data_before_preprocessing_

/-- data_collector.h:198-204 : copy, stamp, factors `i / size`. -/
def withFactors {P : Type} (stamp : SimpleTime) (pts : List P) : OutCloud P :=
  { stamp := stamp
    points := pts.zipIdx.map (fun p => (p.1, (p.2 : Rat) / (pts.length : Rat))) }

/-- data_collector.h:160-211 `AddSensorData(cloud)`, `num = accumulate_cloud_num` (the comparison at
189 is between unsigned and a positive int). -/
def addCloud {P : Type} (num : Int) (st : AccState P) (c : InCloud P) : AccState P :=
  if num > 1 then
    let st := if st.count = 0 then { st with acc := [], first := c.stamp } else st
    let st := { st with acc := st.acc ++ c.points, count := st.count + 1 }
    if (st.count : Int) < num then st
    else { st with count := 0, out := st.out ++ [withFactors st.first st.acc] }
  else
    let st := { st with acc := c.points, first := c.stamp }
    { st with count := 0, out := st.out ++ [withFactors st.first st.acc] }

def addClouds {P : Type} (num : Int) (cs : List (InCloud P)) : AccState P :=
  cs.foldl (addCloud num) {}

/-! ### the queues

A cloud is an opaque value `C`; `filter` is what the filter chain makes of it.  One step is one
critical section, or one unlocked read of a shared variable.  The producer, the pre-processing
thread and the consumer interleave arbitrarily. -/

/-- Program counter of the pre-processing thread (data_collector.cc:120-156). -/
inductive PrePc (C : Type) where
  | top                       -- 121: about to read the kill flag
  | checkEmpty                -- 125: about to read `empty()`
  | pop                       -- 131: about to lock and pop
  | filtering (c : C)         -- 137: filtering
  | push (c : C)              -- 144: about to lock and push the filtered cloud
  | done                      -- thread ended
  deriving DecidableEq, Repr

/-- Program counter of the consumer (map_builder.cc:269-277). -/
inductive ConsPc where
  | get                       -- 270: about to call GetNewCloud
  | gotNull                   -- 272: got nullptr, about to read end_all_thread_
  | done
  deriving DecidableEq, Repr

structure QState (C : Type) where
  before : List C := []       -- cloud_data_before_preprocessing_
  ready : List C := []        -- cloud_data_
  pre : PrePc C := .top
  cons : ConsPc := .get
  kill : Bool := false        -- kill_cloud_preprocessing_thread_
  endAll : Bool := false      -- end_all_thread_
  added : List C := []        -- ghost: everything added, in order
  delivered : List C := []    -- ghost: everything the consumer received, in order
  deriving DecidableEq, Repr

inductive QStep (C : Type) where
  | add (c : C)               -- sensor thread, data_collector.h:208-210
  | pre                       -- pre-processing thread, next step
  | cons                      -- consumer, next step
  | setEnd                    -- FinishAllComputations, map_builder.cc:717
  | setKill                   -- ~DataCollector, data_collector.cc:53
  deriving DecidableEq, Repr

/-- One step. `none` = undefined behaviour (`front()` of an empty deque). Steps of ended threads do
nothing. -/
def qStep {C : Type} (filter : C → C) (s : QState C) : QStep C → Option (QState C)
  | .add c => some { s with before := s.before ++ [c], added := s.added ++ [c] }
  | .setEnd => some { s with endAll := true }
  | .setKill => some { s with kill := true }
  | .pre =>
    match s.pre with
    | .top => some { s with pre := if s.kill then .done else .checkEmpty }
    | .checkEmpty => some { s with pre := if s.before.isEmpty then .top else .pop }
    | .pop =>
      match s.before with
      | [] => none
      | c :: rest => some { s with before := rest, pre := .filtering c }
    | .filtering c => some { s with pre := .push (filter c) }
    | .push c => some { s with ready := s.ready ++ [c], pre := .top }
    | .done => some s
  | .cons =>
    match s.cons with
    | .get =>
      match s.ready with
      | [] => some { s with cons := .gotNull }
      | c :: rest => some { s with ready := rest, delivered := s.delivered ++ [c] }
    | .gotNull => some { s with cons := if s.endAll then .done else .get }
    | .done => some s

/-- A schedule. -/
def qRun {C : Type} (filter : C → C) : QState C → List (QStep C) → Option (QState C)
  | s, [] => some s
  | s, x :: xs => (qStep filter s x).bind (fun s => qRun filter s xs)

end Verif
