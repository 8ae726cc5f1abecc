import Mathlib.Data.Fintype.Basic
/-
common/atomic_wrapper.h:40-96 `AtomicWrapper` for integers of `k` bits (`int32_t` and `int8_t` in
builder/multi_resolution_voxel_map.h:81-82), shared by threads; common/example/atomic_wrapper_example.cc.

Each operation of `std::atomic` is one step that no other thread can interrupt, and all threads see the
steps in one order (the default `memory_order_seq_cst`).  Incrementing wraps around (two's complement,
[atomics.types.int]).
-/
namespace Verif

/-- The operations of a thread on the wrappers (which are numbered). -/
inductive AtomOp where
  /-- 62-64 `++a` -/
  | pre (c : Nat)
  /-- 67-69 `a++` -/
  | post (c : Nat)
  /-- 84-87 `a = value` -/
  | set (c : Nat) (v : Int)
  /-- 96-98 `T(a)` -/
  | get (c : Nat)
  /-- 90-93 `a = b`, and 80-81 the copy made by `AtomicWrapper(b)` -/
  | copy (dst src : Nat)
  deriving DecidableEq

/-- A thread: what it has still to do, the value loaded by a copy that is under way, the values it
got. -/
structure AtomThread (k : Nat) where
  rest : List AtomOp
  loaded : Option (BitVec k) := none
  got : List (BitVec k) := []
  deriving DecidableEq

/-- The values of the wrappers and the threads. -/
structure AtomWorld (k n : Nat) where
  mem : Nat → BitVec k
  thr : Fin n → AtomThread k

/-- One step of thread `i`; a copy takes two, a load and a store (line 91). -/
def AtomWorld.step {k n : Nat} (w : AtomWorld k n) (i : Fin n) : AtomWorld k n :=
  match (w.thr i).rest with
  | [] => w
  | .pre c :: r =>
    { mem := Function.update w.mem c (w.mem c + 1)
      thr := Function.update w.thr i { (w.thr i) with rest := r, got := (w.thr i).got ++ [w.mem c + 1] } }
  | .post c :: r =>
    { mem := Function.update w.mem c (w.mem c + 1)
      thr := Function.update w.thr i { (w.thr i) with rest := r, got := (w.thr i).got ++ [w.mem c] } }
  | .set c v :: r =>
    { mem := Function.update w.mem c (BitVec.ofInt k v)
      thr := Function.update w.thr i { (w.thr i) with rest := r } }
  | .get c :: r =>
    { w with thr := Function.update w.thr i { (w.thr i) with rest := r, got := (w.thr i).got ++ [w.mem c] } }
  | .copy d s :: r =>
    match (w.thr i).loaded with
    | none => { w with thr := Function.update w.thr i { (w.thr i) with loaded := some (w.mem s) } }
    | some v =>
      { mem := Function.update w.mem d v
        thr := Function.update w.thr i { (w.thr i) with rest := r, loaded := none } }

/-- A schedule. -/
def AtomWorld.run {k n : Nat} (w : AtomWorld k n) (sched : List (Fin n)) : AtomWorld k n :=
  sched.foldl AtomWorld.step w

/-- Threads about to start. -/
def atomStart {k n : Nat} (mem : Nat → BitVec k) (prog : Fin n → List AtomOp) : AtomWorld k n :=
  ⟨mem, fun i => { rest := prog i }⟩

/-- atomic_wrapper_example.cc:34-41, 43-50: one turn of the loops (the increments of the plain
`std::atomic`, which is another variable, left out). -/
def exampleTurn : List AtomOp := [.pre 0, .post 0]

/-- atomic_wrapper_example.cc:31-51, with `m` turns (1000000 there). -/
def exampleStart (m : Nat) : AtomWorld 32 2 :=
  atomStart (fun _ => 0) fun _ => (List.replicate m exampleTurn).flatten

end Verif
