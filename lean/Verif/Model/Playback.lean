import Verif.Model.Outcome
import Verif.Model.CloudIO
import Mathlib.Data.List.Sort
/-
ros_node/playable_bag.cc, ros_node/kitti_reader.cc and the loops over them in
ros_node/static_mapping_node.cpp.
-/
namespace Verif

/-- A recorded message: its time in nanoseconds and what it carries. -/
structure BagMsg (α : Type) where
  time : Nat
  body : α
  deriving DecidableEq

/-- playable_bag.h, the members used.  `rest` are the messages from `view_iterator_` on. -/
structure Bag (α : Type) where
  buffer : List (BagMsg α)
  rest : List (BagMsg α)
  finished : Bool
  delay : Nat

variable {α : Type}

/-- playable_bag.cc:74-78.  `ros::Time - ros::Duration` throws when the result is negative. -/
def Bag.available (b : Bag α) : Outcome Bool :=
  match b.buffer.head?, b.buffer.getLast? with
  | some f, some l =>
    if l.time < b.delay then .abort else .ok (decide (f.time < l.time - b.delay))
  | _, _ => .ok false

/-- playable_bag.cc:93-100 with 80-91 inlined: the loop reads one message after the other until one
can be handed out or the recording is over. -/
def bagAdvanceLoop (delay : Nat) : List (BagMsg α) → List (BagMsg α) → Outcome (Bag α)
  | buffer, [] => .ok { buffer := buffer, rest := [], finished := true, delay := delay }
  | buffer, m :: r => do
    let b : Bag α := { buffer := buffer ++ [m], rest := r, finished := false, delay := delay }
    let a ← b.available
    if a then return b else bagAdvanceLoop delay (buffer ++ [m]) r

/-- playable_bag.cc:93-96. -/
def Bag.advance (b : Bag α) : Outcome (Bag α) :=
  if b.finished then .ok b else bagAdvanceLoop b.delay b.buffer b.rest

/-- playable_bag.cc:30-49, the constructor. -/
def bagOpen (delay : Nat) (msgs : List (BagMsg α)) : Outcome (Bag α) :=
  Bag.advance { buffer := [], rest := msgs, finished := false, delay := delay }

/-- playable_bag.cc:60-72. -/
def Bag.next (b : Bag α) : Outcome (BagMsg α × Bag α) := do
  let a ← b.available
  Outcome.check (a = true)
  match b.buffer with
  | [] => .ub
  | m :: r => do
    let b' ← Bag.advance { b with buffer := r }
    return (m, b')

/-- static_mapping_node.cpp:396-397: the messages handed out until none is available.  `fuel`
bounds the number of rounds; every round hands out a message, so the number of messages in the
bag is enough (`C46_terminates`). -/
def bagPlay : Nat → Bag α → Outcome (List (BagMsg α))
  | 0, _ => .ok []
  | n + 1, b => do
    let a ← b.available
    if a then do
      let r ← b.next
      let l ← bagPlay n r.2
      return r.1 :: l
    else return []

/-- A whole playback. -/
def bagPlayback (delay : Nat) (msgs : List (BagMsg α)) : Outcome (List (BagMsg α)) := do
  let b ← bagOpen delay msgs
  bagPlay (msgs.length + 1) b

/-! ### KITTI -/

/-- kitti_reader.cc:109-113: one point, with the bit patterns of its floats; `scale` is the
product with 255. -/
structure KittiPoint where
  x : UInt32
  y : UInt32
  z : UInt32
  intensity : UInt32
  deriving Repr, DecidableEq

/-- kitti_reader.cc:95: the number of floats the buffer holds. -/
def kittiLimit : Nat := 1000000

/-- kitti_reader.cc:108-120: point `i` of the buffer. -/
def kittiPoint (scale : UInt32 → UInt32) (data : List UInt8) (i : Nat) : KittiPoint :=
  { x := u32OfBytes ((data.drop (16 * i)).take 4)
    y := u32OfBytes ((data.drop (16 * i + 4)).take 4)
    z := u32OfBytes ((data.drop (16 * i + 8)).take 4)
    intensity := scale (u32OfBytes ((data.drop (16 * i + 12)).take 4)) }

/-- kitti_reader.cc:91-122 on the content of an existing file.  `fread` returns the number of
complete floats, at most the limit. -/
def readKitti (scale : UInt32 → UInt32) (file : List UInt8) : List KittiPoint :=
  let num := min kittiLimit (file.length / 4) / 4
  (List.range num).map (kittiPoint scale file)

/-- kitti_reader.h, the members, with the file system and the bytes allocated and not freed. -/
structure Kitti where
  files : List (List Char)
  index : Nat
  heap : Nat

/-- kitti_reader.cc:124-132: `dir` is what the directory iterator lists, in its order; the names
are sorted lexicographically. -/
def kittiOpen (dir : List (List Char)) : Kitti :=
  { files := dir.insertionSort (fun a b => a ≤ b), index := 0, heap := 0 }

/-- kitti_reader.cc:144-149.  Reading a file that is gone passes a null stream to `fread`.
The buffer of line 96 is never freed. -/
def Kitti.readNext (scale : UInt32 → UInt32) (fs : List Char → Option (List UInt8)) (k : Kitti) :
    Outcome (Option (List KittiPoint) × Kitti) :=
  match k.files[k.index]? with
  | some f =>
    match fs f with
    | none => .ub
    | some c => .ok (some (readKitti scale c),
        { k with index := k.index + 1, heap := k.heap + 4 * kittiLimit })
  | none => .ok (none, k)

/-- static_mapping_node.cpp:431-450: the clouds handed to the map builder; the loop stops at the
first empty cloud.  `fuel` bounds the rounds. -/
def kittiPlay (scale : UInt32 → UInt32) (fs : List Char → Option (List UInt8)) :
    Nat → Kitti → Outcome (List (List KittiPoint))
  | 0, _ => .ok []
  | n + 1, k => do
    let r ← k.readNext scale fs
    match r.1 with
    | none => return []
    | some c =>
      if c = [] then return []
      else do
        let l ← kittiPlay scale fs n r.2
        return c :: l

end Verif
