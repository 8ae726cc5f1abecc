import Verif.Model.AtomicWrap
import Mathlib.Algebra.BigOperators.Group.Finset.Basic
/-! Counters shared by threads. -/
namespace Verif.Spec

/-- How many increments of counter `c` are among the operations. -/
def increments (c : Nat) (l : List AtomOp) : Nat := l.countP fun o => decide (o = .pre c) || decide (o = .post c)

/-- The operations change counter `c` by increments only. -/
def OnlyCounts (c : Nat) (l : List AtomOp) : Prop := ∀ o ∈ l, (∀ v, o ≠ .set c v) ∧ ∀ s, o ≠ .copy c s

/-- All threads are finished. -/
def AllDone {k n : Nat} (w : AtomWorld k n) : Prop := ∀ i, (w.thr i).rest = []

end Verif.Spec
