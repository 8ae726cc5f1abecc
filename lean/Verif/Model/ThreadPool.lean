/-
common/simple_thread_pool.h:39-116 : the thread pool, as a transition system over its callers, its
workers and its destruction.

Each critical section (code under `queue_mutex_`) is one step; `notify_one` / `notify_all` happen
after the lock has been released and are steps of their own; a worker that waits on the condition
variable is `asleep` until a notification (or a spurious wake-up).  Tasks are arbitrary values; a
task ends at some later step (an exception thrown by a task is caught by `packaged_task`).
-/
namespace Verif

/-- What a worker is doing. -/
inductive Worker (τ : Type) where
  | check            -- about to take the lock and test the condition (64-67)
  | asleep           -- waiting on the condition variable (66)
  | running (t : τ)  -- executing a task outside the lock (74)
  | exited           -- returned (68)

structure Pool (τ : Type) where
  tasks : List τ
  stop : Bool
  workers : List (Worker τ)
  /-- `notify_one` calls still to come (100) -/
  pending : Nat
  /-- the `notify_all` of the destructor has happened (110) -/
  notifiedAll : Bool
  /-- the destructor has returned (111-113) -/
  joined : Bool
  /-- history: tasks in the order they were started, tasks that ended, callers that got an error -/
  started : List τ
  finished : List τ
  rejected : List τ

/-- Steps. -/
inductive PoolEv (τ : Type) where
  | enqueue (t : τ)     -- 81-99
  | notify (i : Nat)    -- 100, waking worker `i` if it is asleep
  | notifyNobody        -- 100, nobody is waiting
  | destroy             -- 106-109
  | notifyAll           -- 110
  | join                -- 111-113
  | spurious (i : Nat)  -- spurious wake-up
  | look (i : Nat)      -- 64-71
  | finish (i : Nat)    -- the task ends

variable {τ : Type}

/-- 59-62 : a pool with `n` workers, which start by looking for work. -/
def Pool.new (n : Nat) : Pool τ :=
  { tasks := [], stop := false, workers := List.replicate n .check, pending := 0,
    notifiedAll := false, joined := false, started := [], finished := [], rejected := [] }

def Worker.isAsleep : Worker τ → Bool
  | .asleep => true
  | _ => false

def Worker.isExited : Worker τ → Bool
  | .exited => true
  | _ => false

def Worker.wake : Worker τ → Worker τ
  | .asleep => .check
  | w => w

/-- One step; a step that is not possible leaves the pool unchanged. -/
def Pool.step (p : Pool τ) : PoolEv τ → Pool τ
  | .enqueue t =>
    if p.stop then { p with rejected := p.rejected ++ [t] }
    else { p with tasks := p.tasks ++ [t], pending := p.pending + 1 }
  | .notify i =>
    match p.workers[i]?, p.pending with
    | some .asleep, k + 1 => { p with workers := p.workers.set i .check, pending := k }
    | _, _ => p
  | .notifyNobody =>
    if p.workers.any Worker.isAsleep then p else { p with pending := p.pending - 1 }
  | .destroy => { p with stop := true }
  | .notifyAll =>
    if p.stop then { p with workers := p.workers.map Worker.wake, notifiedAll := true } else p
  | .join =>
    if p.notifiedAll && p.workers.all Worker.isExited then { p with joined := true } else p
  | .spurious i =>
    match p.workers[i]? with
    | some .asleep => { p with workers := p.workers.set i .check }
    | _ => p
  | .look i =>
    match p.workers[i]? with
    | some .check =>
      match p.tasks with
      | [] =>
        if p.stop then { p with workers := p.workers.set i .exited }
        else { p with workers := p.workers.set i .asleep }
      | t :: ts =>
        { p with workers := p.workers.set i (.running t), tasks := ts, started := p.started ++ [t] }
    | _ => p
  | .finish i =>
    match p.workers[i]? with
    | some (.running t) =>
      { p with workers := p.workers.set i .check, finished := p.finished ++ [t] }
    | _ => p

/-- A schedule. -/
def Pool.run (p : Pool τ) (es : List (PoolEv τ)) : Pool τ := es.foldl Pool.step p

end Verif
