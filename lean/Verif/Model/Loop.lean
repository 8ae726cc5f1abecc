import Verif.Model.Outcome
import Mathlib.Data.Rat.Defs
import Mathlib.Algebra.Order.Ring.Rat
import Mathlib.Data.List.Sort
/-
back_end/loop_detector.cc:48-280 : which earlier frames are proposed for a loop closure, and the
state machine that decides when a closure is attempted.

All positions are read again whenever a frame is added (54-58), so an event carries the distances of
the new frame to the earlier ones as computed at that moment, the descriptor scores, and which of the
scan matches succeed (`CloseLoop`).  Left out: messages, debug files, and the comparison of edges
(`CheckResult`, see Model/LoopCheck).  Distances are compared as exact numbers; the start value of
the minimum is larger than every distance.
-/
namespace Verif

inductive LoopStatus where
  | noLoop | trying | entering | continuous | leaving
deriving DecidableEq, Repr

/-- loop_detector_options.h:29-40. -/
structure LoopSettings where
  ignore : Int := 15            -- loop_ignore_threshold
  trying : Int := 1             -- trying_detect_loop_count
  num : Int := 4                -- nearest_history_pos_num
  maxXY : Rat := 25             -- max_close_loop_distance
  maxZ : Rat := 1               -- max_close_loop_z_distance
  useDescriptor : Bool := false
  score : Rat := 99 / 100       -- m2dp_match_score

structure LoopState where
  size : Nat                    -- all_frames_.size()
  status : LoopStatus
  count : Int                   -- accumulate_loop_detected_count_
  window : Option (Int × Int)   -- search_window_start_, search_window_end_ (none: -1, -1)

/-- loop_detector.h:97-113; the counter is set to zero before it is read (154). -/
def LoopState.init : LoopState := { size := 0, status := .noLoop, count := 0, window := none }

/-- A new frame: what the detector sees of it. -/
structure LoopFrame where
  detect : Bool                 -- do_loop_detect
  xy : Nat → Rat                -- horizontal distance to frame `i`
  z : Nat → Rat                 -- vertical distance to frame `i`
  descriptor : Nat → Rat        -- descriptor score against frame `i`
  close : Nat → Bool            -- whether the scan match with frame `i` is accepted

structure LoopResult where
  index : Nat                   -- current_frame_index
  status : LoopStatus
  considered : Bool             -- detection was done at all
  pairs : List (Nat × Nat)      -- maybe_close_pair
  attempted : List (Nat × Nat)  -- pairs handed to CloseLoop
  edges : List (Nat × Nat)      -- of these, the accepted ones
deriving DecidableEq

/-- common/math.h:66-75. -/
def clampInt (v lo hi : Int) : Int := if v > hi then hi else if v < lo then lo else v

/-- 80-86: the range of frames that is searched, as half-open interval. -/
def loopRange (s : LoopSettings) (window : Option (Int × Int)) (maxIndex : Int) : Int × Int :=
  match window with
  | some (a, b) =>
    if b ≥ 0 ∧ a ≥ 0 then (clampInt a 0 maxIndex, clampInt b 0 maxIndex)
    else (0, maxIndex - s.ignore)
  | none => (0, maxIndex - s.ignore)

/-- 87-95: the frames of the range that are close enough. -/
def loopNear (s : LoopSettings) (f : LoopFrame) (range : Int × Int) : List Nat :=
  (List.range' range.1.toNat (range.2 - range.1).toNat).filter fun i =>
    decide (f.xy i ≤ s.maxXY) && decide (f.z i ≤ s.maxZ)

/-- 96-99: the first of the nearest ones, with its distance. -/
def loopClosest (f : LoopFrame) : List Nat → Option (Nat × Rat) :=
  List.foldl (fun best i =>
    match best with
    | none => some (i, f.xy i)
    | some (b, d) => if f.xy i < d then some (i, f.xy i) else some (b, d)) none

/-- 102-104. -/
def loopClosestOk (s : LoopSettings) (f : LoopFrame) (near : List Nat) : Option Nat :=
  match loopClosest f near with
  | none => none
  | some (i, d) => if d ≥ s.maxXY * (4 / 10) then none else some i

/-- `v[i]` for the positions in a list; reading outside is undefined. -/
def pickAll (l : List Nat) : List Nat → Outcome (List Nat)
  | [] => .ok []
  | i :: is =>
    match l[i]? with
    | some v => do
      let vs ← pickAll l is
      return v :: vs
    | none => .ub

/-- 129-147: the selection among the matching frames.  Sizes are compared as unsigned numbers, so a
negative `num` counts as very large; 127 `reserve(num + 1)` throws if that is negative. -/
def loopSelect (num : Int) (matched : List Nat) : Outcome (List Nat) :=
  if num < -1 then .abort
  else if matched = [] then .ok []
  else if 0 ≤ num ∧ 2 * num ≤ matched.length then
    if num = 0 then .ub
    else pickAll matched ((List.range num.toNat).map fun i => i * (matched.length / num.toNat))
  else if 0 ≤ num ∧ num < matched.length then .ok (matched.take num.toNat)
  else .ok matched

/-- 148-153. -/
def loopAddClosest (sel : List Nat) : Option Nat → List Nat
  | none => sel
  | some c => if c ∈ sel then sel else sel ++ [c]

/-- 125-153: candidates for a new frame with index `cur`. -/
def loopPairs (s : LoopSettings) (window : Option (Int × Int)) (f : LoopFrame) (cur : Nat) :
    Outcome (List (Nat × Nat)) :=
  let near := loopNear s f (loopRange s window cur)
  let matched := if s.useDescriptor then near.filter fun i => decide (f.descriptor i > s.score)
    else near
  -- 114 CHECK_NE(i, current_index)
  if s.useDescriptor = true ∧ cur ∈ near then .abort
  else do
    let sel ← loopSelect s.num (matched.insertionSort (· ≤ ·))
    let all := if matched = [] then sel else loopAddClosest sel (loopClosestOk s f near)
    return all.map fun i => (i, cur)

/-- 155-206: one transition; `found` is `loop_detection_ == 1`. -/
def loopNext (trying : Int) (st : LoopStatus × Int) (found : Bool) : LoopStatus × Int :=
  match st.1 with
  | .noLoop =>
    if found then (if 1 ≥ trying then .entering else .trying, 1) else (.noLoop, 0)
  | .trying =>
    if found then (if st.2 + 1 ≥ trying then .entering else .trying, st.2 + 1) else (.noLoop, st.2)
  | .entering => if found then (.continuous, st.2) else (.trying, st.2)
  | .continuous => if found then (.continuous, st.2) else (.leaving, 0)
  | .leaving => if found then (.trying, st.2) else (.noLoop, st.2)

/-- 48-271. -/
def addLoopFrame (s : LoopSettings) (st : LoopState) (f : LoopFrame) :
    Outcome (LoopState × LoopResult) :=
  let cur := st.size
  let st1 := { st with size := st.size + 1 }
  -- 65-69; a negative threshold converts to a huge unsigned number
  if f.detect = false ∨ s.ignore < 0 ∨ ((st.size + 1 : Nat) : Int) ≤ s.ignore then
    .ok (st1, ⟨cur, st.status, false, [], [], []⟩)
  else do
    let pairs ← loopPairs s st.window f cur
    let next := loopNext s.trying (st.status, st.count) (!pairs.isEmpty)
    let st2 := { st1 with status := next.1, count := next.2 }
    if next.1 = .continuous then
      -- 213
      Outcome.check (pairs ≠ [])
      return (st2, ⟨cur, st.status, true, pairs, pairs, pairs.filter fun p => f.close p.1⟩)
    else
      return (st2, ⟨cur, st.status, true, pairs, [], []⟩)

inductive LoopEv where
  | frame (f : LoopFrame)
  | window (a b : Int)          -- 273-280 `SetSearchWindow`

/-- A use of the detector: the results of the frames, in order. -/
def runLoop (s : LoopSettings) (st : LoopState) : List LoopEv → Outcome (LoopState × List LoopResult)
  | [] => .ok (st, [])
  | .window a b :: es => do
    Outcome.check (a ≥ 0 ∧ b ≥ 0 ∧ b ≥ a)
    runLoop s { st with window := some (a, b) } es
  | .frame f :: es => do
    let (st1, r) ← addLoopFrame s st f
    let (st2, rs) ← runLoop s st1 es
    return (st2, r :: rs)

end Verif
