import Verif.Model.Outcome
import Mathlib.Algebra.Group.Defs
/-
builder/map_builder.cc:399-563 and 690-713 : the thread that connects the submaps
(`ConnectAllSubmap`), the pair-matching workers (`SubmapPairMatch`) and the part of the submap
thread they interact with.

Each access to shared data is one step: pushing a submap and queueing its pair match, one pair match
setting its transform, setting the done flag, reading the number of submaps, reading the done flag,
reading one "matched" flag, connecting one submap.  Workers may run the queued matches in any order.
Poses are the elements of a group; after adding a submap the optimiser may change the poses of all
submaps added so far (isam_optimizer.cc:104-116), given here by an arbitrary function per step.
Left out: the callbacks that show the map, everything after the loop except the last submap's
`SetMatchedTransformedToNext`.
-/
namespace Verif

inductive ConnPc where
  | head                         -- 454, before reading the number of submaps
  | got (size : Nat)             -- 455 done
  | collect (size i : Nat)       -- 472-477, about to look at submap `i`
  | connect (last : Nat)         -- 483-492, submaps up to `last` are to be connected
  | finished (size : Nat)        -- after 566; `size` is what was last read

structure Conn (G : Type) where
  size : Nat
  done : Bool
  jobs : List Nat                -- queued matches of submap `i+1` against `i`
  matched : Nat → Bool           -- `got_matched_transform_to_next_`
  toNext : Nat → G
  pose : Nat → G
  pc : ConnPc
  fin : Nat                      -- `current_finished_index`
  first : Bool                   -- `first_inserted`
  added : List Nat               -- submaps passed to the optimiser, in order

inductive ConnEv (G : Type) where
  | push (g : G)
  | pairMatch (i : Nat) (t : G)
  | setDone
  | read
  | test
  | collect
  | connect (upd : Nat → G → G)

section
variable {G : Type} [Group G]

def Conn.step (st : Conn G) : ConnEv G → Outcome (Conn G)
  -- 703-709 : append the submap, queue the match with its predecessor
  | .push g =>
    if st.done then .ok st
    else .ok { st with
      size := st.size + 1
      pose := fun k => if k = st.size then g else st.pose k
      jobs := if 0 < st.size then st.jobs ++ [st.size - 1] else st.jobs }
  -- 399-446, submap.cc:197-215
  | .pairMatch i t =>
    if i ∈ st.jobs then do
      Outcome.check (st.matched i = false)
      return { st with
        jobs := st.jobs.erase i
        matched := fun k => if k = i then true else st.matched k
        toNext := fun k => if k = i then t else st.toNext k }
    else .ok st
  -- 711
  | .setDone => .ok { st with done := true }
  -- 455
  | .read =>
    match st.pc with
    | .head => .ok { st with pc := .got st.size }
    | _ => .ok st
  -- 456-470; on leaving the loop 564-566
  | .test =>
    match st.pc with
    | .got s =>
      if s = 0 ∨ s - 1 = st.fin then
        if st.done then
          if st.size = 0 then .ok { st with pc := .finished s }
          else do
            Outcome.check (st.matched (st.size - 1) = false)
            return { st with
              pc := .finished s
              matched := fun k => if k = st.size - 1 then true else st.matched k
              toNext := fun k => if k = st.size - 1 then 1 else st.toNext k }
        else .ok { st with pc := .head }
      else
        .ok { st with
          pc := .collect s st.fin
          first := true
          added := if st.first then st.added else st.added ++ [0] }
    | _ => .ok st
  -- 472-482
  | .collect =>
    match st.pc with
    | .collect s i =>
      if st.matched i = true ∧ i + 1 < s then .ok { st with pc := .collect s (i + 1) }
      else if i = st.fin then .ok { st with pc := .head }
      else .ok { st with pc := .connect i }
    | _ => .ok st
  -- 483-493
  | .connect upd =>
    match st.pc with
    | .connect last =>
      if st.fin < last then
        let j := st.fin + 1
        let p : Nat → G := fun k => if k = j then st.pose st.fin * st.toNext st.fin else st.pose k
        .ok { st with
          fin := j
          added := st.added ++ [j]
          pose := fun k => if k ≤ j then upd k (p k) else p k }
      else .ok { st with pc := .head }
    | _ => .ok st

def Conn.run (st : Conn G) : List (ConnEv G) → Outcome (Conn G)
  | [] => .ok st
  | e :: es => do
    let st' ← st.step e
    st'.run es

def Conn.init : Conn G :=
  { size := 0, done := false, jobs := [], matched := fun _ => false, toNext := fun _ => 1,
    pose := fun _ => 1, pc := .head, fin := 0, first := false, added := [] }

end
end Verif
