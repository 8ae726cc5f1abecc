import Verif.Model.ThreadPool
import Mathlib.Data.List.Perm.Basic
/-! Specification vocabulary for the thread pool. -/
namespace Verif.Spec
variable {τ : Type}

/-- The tasks submitted before destruction began, in order. -/
def acceptedBy : List (PoolEv τ) → List τ
  | [] => []
  | .enqueue t :: es => t :: acceptedBy es
  | .destroy :: _ => []
  | _ :: es => acceptedBy es

/-- The task a call submits. -/
def submitted : PoolEv τ → Option τ
  | .enqueue t => some t
  | _ => none

/-- The tasks submitted after destruction began. -/
def rejectedBy : List (PoolEv τ) → List τ
  | [] => []
  | .destroy :: es => es.filterMap submitted
  | _ :: es => rejectedBy es

/-- The task a worker is executing. -/
def runningTask : Worker τ → Option τ
  | .running t => some t
  | _ => none

/-- The tasks being executed. -/
def runningTasks (p : Pool τ) : List τ := p.workers.filterMap runningTask

end Verif.Spec
