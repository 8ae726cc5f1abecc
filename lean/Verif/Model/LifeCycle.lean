import Mathlib.Data.Rat.Defs
import Mathlib.Algebra.Order.Field.Rat
/-
The life of a `MapBuilder` (builder/map_builder.cc:53-112, 156-170, 715-747, builder/map_builder.h:229-264): the
collector and the two threads it owns, and what the public calls do with them.

Left out: all data.  A configuration that the program rejects is not considered (see C60).
-/
namespace Verif

/-- `scan_match_thread_`: not made, running or not yet joined, joined. -/
inductive ScanThread where
  | none | joinable | joined
  deriving DecidableEq

structure Life where
  /-- `data_collector_` is not null -/
  collector : Bool := false
  scan : ScanThread := .none
  /-- `submap_thread_` is not null (it is reset when it is joined, 744) -/
  sub : Bool := false
  /-- `end_all_thread_` -/
  ending : Bool := false
  /-- the object has been destroyed -/
  gone : Bool := false
  /-- messages that reached the collector -/
  kept : Nat := 0
  deriving DecidableEq

inductive LifeCall where
  /-- `Initialise`; `seen`: the loop 105-107, which looks every 10 ms, finds the new thread running -/
  | init (seen : Bool)
  /-- `InsertPointcloudMsg` (of a cloud that is not skipped) -/
  | cloud
  /-- `FinishAllComputations` -/
  | finish
  /-- `~MapBuilder` -/
  | destroy
  deriving DecidableEq

/-- What a call can do: return, stop the program (`std::terminate`), undefined behaviour, never return. -/
inductive LifeResult where
  | ok (s : Life)
  | abort
  | ub
  | hang
  deriving DecidableEq

/-- 62-112: the new collector, then the threads.  The new thread is stored with `make_unique`; the old
object is destroyed, which stops the program if it is joinable.  `ScanMatchProcessing` sets its running
flag (263), and takes it back when it ends (395), which it does at once if the end flag is set (271-273):
then the loop 105-107 may never see it. -/
def Life.init (s : Life) (seen : Bool) : LifeResult :=
  if s.scan = .joinable then .abort
  else if s.ending && !seen then .hang
  else if s.sub then .abort
  else .ok { s with collector := true, scan := .joinable, sub := true }

/-- 156-170. -/
def Life.cloud (s : Life) : LifeResult :=
  if s.ending then .ok s
  else if s.collector then .ok { s with kept := s.kept + 1 }
  else .ub

/-- 715-747: the collector is asked first (718); a thread that was joined before cannot be joined again
(`std::system_error`, not caught). -/
def Life.finish (s : Life) : LifeResult :=
  if s.collector then
    match s.scan with
    | .none => .ok { s with ending := true, sub := false }
    | .joinable => .ok { s with ending := true, scan := .joined, sub := false }
    | .joined => .abort
  else .ub

/-- 60 and the destructors of the members. -/
def Life.destroy (s : Life) : LifeResult :=
  if s.sub || s.scan = .joinable then .abort else .ok { s with gone := true }

/-- One call. -/
def Life.call (s : Life) (c : LifeCall) : LifeResult :=
  if s.gone then .ub
  else
    match c with
    | .init seen => s.init seen
    | .cloud => s.cloud
    | .finish => s.finish
    | .destroy => s.destroy

/-- A history of calls, one after the other. -/
def Life.run (s : Life) : List LifeCall → LifeResult
  | [] => .ok s
  | c :: cs =>
    match s.call c with
    | .ok s' => s'.run cs
    | r => r

/-- 727-732: the percentage printed behind "Remaining Point Cloud" while the threads end; a quotient of
doubles, `none` stands for not-a-number or infinity. -/
def progressShown (now start : Nat) : Option Rat :=
  if start = 0 then none else some ((1 - (now : Rat) / start) * 100)

end Verif
