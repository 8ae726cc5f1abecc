import Verif.Spec.Races
import Verif.Props.Locks
/-! C77: data shared between threads. -/
namespace Verif
open Spec

/-- The lock that protects a datum. -/
def guardOf : Datum → LockId
  | .frames s => .submap s
  | .next s => .submap s
  | .framePoses s => .submap s
  | .points c => .cloud c
  | .fileName c => .cloud c
  | .guarded m => .plain m

/-- An access to `d` is protected by the locks held. -/
def accOk (d : Datum) (held : List (LockId × LockMode)) : RaceOp → Prop
  | .lock _ => True
  | .read e => e = d → ∃ m, (guardOf d, m) ∈ held
  | .write e => e = d → (guardOf d, LockMode.ex) ∈ held

def heldAfter (held : List (LockId × LockMode)) : RaceOp → List (LockId × LockMode)
  | .lock op => afterOp held op
  | _ => held

/-- All accesses to `d` in a script are protected, and the script ends with the locks `out`. -/
def safeTo (d : Datum) : List (LockId × LockMode) → List RaceOp → List (LockId × LockMode) → Prop
  | held, [], out => held = out
  | held, op :: r, out => accOk d held op ∧ safeTo d (heldAfter held op) r out

theorem safeTo_append {d : Datum} {a b : List RaceOp} {h1 h2 h3 : List (LockId × LockMode)} (ha : safeTo d h1 a h2)
    (hb : safeTo d h2 b h3) : safeTo d h1 (a ++ b) h3 := by
  induction a generalizing h1 with
  | nil =>
    rw [show h1 = h2 from ha]
    exact hb
  | cons op r ih => exact ⟨ha.1, ih ha.2⟩

theorem safeTo_flatMap {d : Datum} {α : Type} {f : α → List RaceOp} {h : List (LockId × LockMode)} (l : List α)
    (hf : ∀ a ∈ l, safeTo d h (f a) h) : safeTo d h (l.flatMap f) h := by
  induction l with
  | nil => rfl
  | cons a l ih =>
    rw [List.flatMap_cons]
    exact safeTo_append (hf a (by simp)) (ih fun b hb => hf b (by simp [hb]))

theorem lockOps_append (a b : List RaceOp) : lockOps (a ++ b) = lockOps a ++ lockOps b := by
  induction a with
  | nil => rfl
  | cons op r ih => cases op <;> simp [lockOps, ih]

theorem lockOps_flatMap {α : Type} (l : List α) (f : α → List RaceOp) : lockOps (l.flatMap f) = l.flatMap fun a => lockOps (f a) := by
  induction l with
  | nil => rfl
  | cons a l ih => simp [lockOps_append, ih]

/-- The call of `Model/Locks.lean` that takes the same locks. -/
def sameLocks : RaceCall → List LockCall
  | .getFrame s => [.getFrame s true]
  | .cloud s c load => [.cloud s c load]
  | .setMatched s => [.setMatched s 0 false []]
  | .setMatchedSave s c frames => [.setMatched s c true frames]
  | .tick s c idle inMem => [.tick s c true idle inMem]
  | .updatePoses s => [.updatePoses s]
  | .cloudEmpty c => [.cloudRead c]
  | .cloudSave c => [.cloudRead c]
  | .cloudTransform c => [.cloudWrite c]
  | .cloudSet c => [.cloudWrite c]
  | .cloudClear c inMem => [.cloudClear c inMem]
  | .cloudInMemory c load => [.cloudInMemory c load]
  | .single m => [.single m]
  | _ => []

theorem lockOps_clear (c : Nat) (b : Bool) : lockOps (clearAcc c b) = clearScript c b := by cases b <;> rfl
theorem lockOps_load (c : Nat) (b : Bool) : lockOps (loadAcc c b) = loadScript c b := by cases b <;> rfl

/-- The lock operations are those of C72. -/
theorem race_locks (c : RaceCall) : lockOps (raceScript c) = (sameLocks c).flatMap lockScript := by
  cases c with
  | cloud s c load =>
    simp [raceScript, lockOps, lockOps_append, lockOps_load, sameLocks, lockScript]
  | setMatchedSave s c frames =>
    simp [raceScript, lockOps, lockOps_append, sameLocks, lockScript, lockOps_flatMap, lockOps_clear, emptyAcc, saveAcc, readScript]
  | tick s c idle inMem =>
    cases idle <;> simp [raceScript, lockOps, lockOps_append, lockOps_clear, sameLocks, lockScript]
  | cloudClear c b => simp [raceScript, lockOps_clear, sameLocks, lockScript]
  | cloudInMemory c b => simp [raceScript, lockOps_load, sameLocks, lockScript]
  | _ => rfl

/-- What holds in every reachable state. -/
structure RaceInv (d : Datum) {n : Nat} (w : Fin n → RThread) : Prop where
  locks : LockInv fun i => (w i).view
  safe : ∀ i, safeTo d (w i).held (w i).rest []

theorem raceStart_inv (d : Datum) {n : Nat} (calls : Fin n → List RaceCall)
    (h : ∀ i, ∀ c ∈ calls i, safeTo d [] (raceScript c) []) : RaceInv d (raceStart calls) := by
  refine ⟨?_, fun i => safeTo_flatMap (calls i) (h i)⟩
  have e : (fun i => (raceStart calls i).view) = lockStart fun i => (calls i).flatMap sameLocks := by
    funext i
    simp only [raceStart, RThread.view, lockStart, lockOps_flatMap, race_locks, List.flatMap_assoc]
  rw [e]
  exact start_inv _

theorem raceStep_inv {d : Datum} {n : Nat} {w w' : Fin n → RThread} {i : Fin n} (inv : RaceInv d w)
    (h : raceStep w i = some w') : RaceInv d w' := by
  have hs := inv.safe i
  have upd : ∀ (t : RThread), (safeTo d t.held t.rest []) → ∀ j, safeTo d (Function.update w i t j).held (Function.update w i t j).rest [] := by
    intro t ht j
    by_cases hj : j = i
    · subst hj; rw [Function.update_self]; exact ht
    · rw [Function.update_of_ne hj]; exact inv.safe j
  have view : ∀ t : RThread, (fun j => (Function.update w i t j).view) = Function.update (fun j => (w j).view) i t.view := by
    intro t
    funext j
    by_cases hj : j = i
    · subst hj; simp
    · simp [Function.update_of_ne hj]
  unfold raceStep at h
  cases hr : (w i).rest with
  | nil => rw [hr] at h; cases h
  | cons op r =>
    rw [hr] at h hs
    cases op with
    | lock op =>
      simp only at h
      by_cases he : enabled (fun j => (w j).view) i = true
      · rw [if_pos he] at h
        obtain rfl := Option.some.inj h
        refine ⟨?_, upd _ hs.2⟩
        rw [view]
        apply lockStep_inv inv.locks (i := i)
        unfold lockStep
        rw [if_pos he]
        simp only [RThread.view, hr, lockOps]
      · rw [if_neg he] at h; cases h
    | read e =>
      obtain rfl := Option.some.inj h
      refine ⟨?_, upd _ hs.2⟩
      rw [view]
      have : (⟨(w i).held, r⟩ : RThread).view = (w i).view := by simp only [RThread.view, hr, lockOps]
      rw [this, Function.update_eq_self]
      exact inv.locks
    | write e =>
      obtain rfl := Option.some.inj h
      refine ⟨?_, upd _ hs.2⟩
      rw [view]
      have : (⟨(w i).held, r⟩ : RThread).view = (w i).view := by simp only [RThread.view, hr, lockOps]
      rw [this, Function.update_eq_self]
      exact inv.locks

theorem raceRun_inv {d : Datum} {n : Nat} {w w' : Fin n → RThread} {is : List (Fin n)} (inv : RaceInv d w)
    (h : raceRun w is = some w') : RaceInv d w' := by
  induction is generalizing w with
  | nil => exact Option.some.inj h ▸ inv
  | cons i is ih =>
    unfold raceRun at h
    cases hs : raceStep w i with
    | none => rw [hs] at h; cases h
    | some w2 => rw [hs] at h; exact ih (raceStep_inv inv hs) h

/-- Protected accesses do not race. -/
theorem inv_no_race {d : Datum} {n : Nat} {w : Fin n → RThread} (inv : RaceInv d w) : ¬ RaceOn d w := by
  have key : ∀ i j, i ≠ j → (w i).rest.head?.bind touches = some (d, true) → ∀ b, (w j).rest.head?.bind touches ≠ some (d, b) := by
    intro i j hij hi b hj
    have si := inv.safe i
    have sj := inv.safe j
    cases hri : (w i).rest with
    | nil => rw [hri] at hi; cases hi
    | cons a ra =>
      cases hrj : (w j).rest with
      | nil => rw [hrj] at hj; cases hj
      | cons c rc =>
        rw [hri] at hi si
        rw [hrj] at hj sj
        have h1 : (guardOf d, LockMode.ex) ∈ (w i).held := by
          cases a with
          | lock _ => cases hi
          | read e => simp [touches] at hi
          | write e =>
            have : e = d := by simpa [touches] using hi
            exact si.1 this
        have h2 : ∃ m, (guardOf d, m) ∈ (w j).held := by
          cases c with
          | lock _ => cases hj
          | read e =>
            have : e = d := by simpa [touches] using (Option.some.inj hj |> congrArg Prod.fst)
            exact sj.1 this
          | write e =>
            have : e = d := by simpa [touches] using (Option.some.inj hj |> congrArg Prod.fst)
            exact ⟨_, sj.1 this⟩
        obtain ⟨m, hm⟩ := h2
        have := inv.locks.agree i j hij _ h1 _ hm rfl
        cases m <;> simp [modesAgree] at this
  rintro ⟨i, j, hij, a, b, hi, hj, hab⟩
  cases a with
  | true => exact key i j hij hi b hj
  | false =>
    cases b with
    | true => exact key j i (Ne.symm hij) hj false hi
    | false => simp at hab


theorem safe_empty (d : Datum) (h : List (LockId × LockMode)) (c : Nat) : safeTo d h (emptyAcc c) h := by
  refine ⟨trivial, ?_, trivial, rfl⟩
  rintro rfl
  exact ⟨.sh, by simp [heldAfter, afterOp, guardOf]⟩

theorem safe_save {d : Datum} (hd : ∀ c, d ≠ .fileName c) (h : List (LockId × LockMode)) (c : Nat) : safeTo d h (saveAcc c) h := by
  refine ⟨trivial, ?_, fun e => absurd e.symm (hd c), trivial, rfl⟩
  rintro rfl
  exact ⟨.sh, by simp [heldAfter, afterOp, guardOf]⟩

theorem safe_transform (d : Datum) (h : List (LockId × LockMode)) (c : Nat) : safeTo d h (transformAcc c) h := by
  refine ⟨trivial, trivial, ?_, ?_, trivial, trivial, rfl⟩
  · rintro rfl
    exact ⟨.ex, by simp [heldAfter, afterOp, guardOf]⟩
  · rintro rfl
    simp [heldAfter, afterOp, guardOf]

theorem safe_set (d : Datum) (h : List (LockId × LockMode)) (c : Nat) : safeTo d h (setAcc c) h := by
  refine ⟨trivial, trivial, ?_, trivial, trivial, rfl⟩
  rintro rfl
  simp [heldAfter, afterOp, guardOf]

theorem safe_clear (d : Datum) (h : List (LockId × LockMode)) (c : Nat) (b : Bool) : safeTo d h (clearAcc c b) h := by
  cases b
  · rfl
  · exact safe_set d h c

theorem safe_load (d : Datum) (h : List (LockId × LockMode)) (c : Nat) (b : Bool) : safeTo d h (loadAcc c b) h := by
  cases b
  · exact ⟨trivial, trivial, rfl⟩
  · refine ⟨trivial, trivial, ?_, ?_, trivial, trivial, rfl⟩
    · rintro rfl
      exact ⟨.ex, by simp [heldAfter, afterOp, guardOf]⟩
    · rintro rfl
      simp [heldAfter, afterOp, guardOf]

/-- A call that takes locks touches everything under the right lock, apart from file names while saving. -/
theorem safe_call {d : Datum} {c : RaceCall} (hl : TakesLocks c) (hd : (∃ k, d = .fileName k) → ¬ Saves c) :
    safeTo d [] (raceScript c) [] := by
  cases c with
  | getFrame s =>
    refine ⟨trivial, ?_, trivial, rfl⟩
    rintro rfl
    exact ⟨.sh, by simp [heldAfter, afterOp, guardOf]⟩
  | cloud s c load =>
    refine ⟨trivial, ?_⟩
    exact safeTo_append (safe_load d _ c load) ⟨trivial, rfl⟩
  | setMatched s =>
    refine ⟨trivial, trivial, ?_, trivial, trivial, rfl⟩
    rintro rfl
    simp [heldAfter, afterOp, guardOf]
  | setMatchedSave s c frames =>
    have hd' : ∀ k, d ≠ .fileName k := fun k e => hd ⟨k, e⟩ trivial
    refine safeTo_append (h2 := [(.submap s, .up)]) (safeTo_append (h2 := [(.submap s, .up)]) ?_ ?_) ⟨trivial, rfl⟩
    · refine ⟨trivial, trivial, ?_, trivial, rfl⟩
      rintro rfl
      simp [heldAfter, afterOp, guardOf]
    · refine safeTo_append (safeTo_append (safeTo_append (safe_empty d _ c) (safe_save hd' _ c)) ⟨?_, rfl⟩) ?_
      · rintro rfl
        exact ⟨.up, by simp [guardOf]⟩
      · exact safeTo_flatMap _ fun f _ =>
          safeTo_append (safeTo_append (safe_empty d _ f.1) (safe_save hd' _ f.1)) (safe_clear d _ f.1 f.2)
  | tick s c idle inMem =>
    cases idle
    · exact ⟨trivial, trivial, rfl⟩
    · refine ⟨trivial, trivial, ?_⟩
      exact safeTo_append (safeTo_append (safe_clear d _ c inMem) ⟨trivial, rfl⟩) ⟨trivial, rfl⟩
  | updatePoses s =>
    refine ⟨trivial, trivial, ?_, ?_, trivial, trivial, rfl⟩
    · rintro rfl
      exact ⟨.ex, by simp [heldAfter, afterOp, guardOf]⟩
    · rintro rfl
      simp [heldAfter, afterOp, guardOf]
  | cloudEmpty c => exact safe_empty d _ c
  | cloudSave c => exact safe_save (fun k e => hd ⟨k, e⟩ trivial) _ c
  | cloudTransform c => exact safe_transform d _ c
  | cloudSet c => exact safe_set d _ c
  | cloudClear c b => exact safe_clear d _ c b
  | cloudInMemory c b => exact safe_load d _ c b
  | single m =>
    refine ⟨trivial, ?_, ?_, trivial, rfl⟩
    · rintro rfl
      exact ⟨.ex, by simp [heldAfter, afterOp, guardOf]⟩
    · rintro rfl
      simp [heldAfter, afterOp, guardOf]
  | _ => exact absurd hl (by simp [TakesLocks])

/-- **C77 (partial)**: threads that only make calls that take locks never race on the list of frames, the
transform to the next submap, the poses of the frames, the points of a cloud or the data of the collector and
the extrapolator; and not on the file names of clouds either if none of the calls saves. Missing: the calls
without locks, and saving (see below). -/
theorem C77_no_race_partial {n : Nat} (calls : Fin n → List RaceCall) (is : List (Fin n)) (w : Fin n → RThread)
    (hc : ∀ i, ∀ c ∈ calls i, TakesLocks c) (h : raceRun (raceStart calls) is = some w) (d : Datum)
    (hd : (∃ k, d = .fileName k) → ∀ i, ∀ c ∈ calls i, ¬ Saves c) : ¬ RaceOn d w :=
  inv_no_race (raceRun_inv (raceStart_inv d calls fun i c hm => safe_call (hc i c hm) fun hk => hd hk i c hm) h)

/-- **C77 (datum by datum, partial)**: calls without locks do no harm to data they do not touch: if every call
that takes no lock leaves the datum alone, there is no race on it. -/
theorem C77_other_data_partial {n : Nat} (calls : Fin n → List RaceCall) (is : List (Fin n)) (w : Fin n → RThread) (d : Datum)
    (hc : ∀ i, ∀ c ∈ calls i, TakesLocks c ∨ ∀ op ∈ raceScript c, ∀ b, touches op ≠ some (d, b))
    (hd : ∀ k, d ≠ .fileName k) (h : raceRun (raceStart calls) is = some w) : ¬ RaceOn d w := by
  refine inv_no_race (raceRun_inv (raceStart_inv d calls fun i c hm => ?_) h)
  rcases hc i c hm with hl | hn
  · exact safe_call hl fun ⟨k, e⟩ => absurd e (hd k)
  · by_cases hl : TakesLocks c
    · exact safe_call hl fun ⟨k, e⟩ => absurd e (hd k)
    · cases c with
      | cloudPointer c => exact ⟨fun e => absurd (by rw [← e]; rfl) (hn _ (List.mem_singleton.mpr rfl) false), rfl⟩
      | transformToNext c => exact ⟨fun e => absurd (by rw [← e]; rfl) (hn _ (List.mem_singleton.mpr rfl) false), rfl⟩
      | framePose c => exact ⟨fun e => absurd (by rw [← e]; rfl) (hn _ (List.mem_singleton.mpr rfl) false), rfl⟩
      | insertFrame s =>
        exact ⟨fun e => absurd (by rw [← e]; rfl) (hn _ (List.mem_cons_self) false),
          fun e => absurd (by rw [← e]; rfl) (hn (.write (.frames s)) (by simp [raceScript]) true), rfl⟩
      | _ => exact absurd trivial hl

/-- Calls of two threads. -/
def twoCalls (a b : List RaceCall) : Fin 2 → List RaceCall := fun i => if i = 0 then a else b

/-- **C77 fails (saving)**: two threads that save the same cloud write its file name at the same time, since
`SaveToFile` holds the lock only shared. -/
theorem C77_save_fails : ∃ (calls : Fin 2 → List RaceCall) (is : List (Fin 2)) (w : Fin 2 → RThread),
    (∀ i, ∀ c ∈ calls i, TakesLocks c) ∧ raceRun (raceStart calls) is = some w ∧ RaceOn (.fileName 0) w := by
  refine ⟨twoCalls [.cloudSave 0] [.cloudSave 0], [0, 1, 0, 1], _, ?_, rfl, 0, 1, by decide, true, true, rfl, rfl, rfl⟩
  intro i c hc
  unfold twoCalls at hc
  split at hc <;> (rw [List.mem_singleton.mp hc]; trivial)

/-- **C77 fails (pointer to the points)**: `GetInnerCloud` reads without a lock what the memory manager clears. -/
theorem C77_pointer_fails : ∃ (calls : Fin 2 → List RaceCall) (is : List (Fin 2)) (w : Fin 2 → RThread),
    calls 0 = [.tick 0 1 true true] ∧ calls 1 = [.cloudPointer 1] ∧
    raceRun (raceStart calls) is = some w ∧ RaceOn (.points 1) w :=
  ⟨twoCalls [.tick 0 1 true true] [.cloudPointer 1], [0, 0, 0, 0], _, rfl, rfl, rfl, 0, 1, by decide, true, false, rfl, rfl, rfl⟩

/-- **C77 fails (building a submap)**: `InsertFrame` changes the list of frames without a lock while `GetFrame`
reads it. -/
theorem C77_insert_fails : ∃ (calls : Fin 2 → List RaceCall) (is : List (Fin 2)) (w : Fin 2 → RThread),
    calls 0 = [.insertFrame 0] ∧ calls 1 = [.getFrame 0] ∧
    raceRun (raceStart calls) is = some w ∧ RaceOn (.frames 0) w :=
  ⟨twoCalls [.insertFrame 0] [.getFrame 0], [0, 1], _, rfl, rfl, rfl, 0, 1, by decide, true, false, rfl, rfl, rfl⟩

/-- **C77 fails (transform to the next submap)**: it is read without the lock it is written under. -/
theorem C77_next_fails : ∃ (calls : Fin 2 → List RaceCall) (is : List (Fin 2)) (w : Fin 2 → RThread),
    calls 0 = [.setMatched 0] ∧ calls 1 = [.transformToNext 0] ∧
    raceRun (raceStart calls) is = some w ∧ RaceOn (.next 0) w :=
  ⟨twoCalls [.setMatched 0] [.transformToNext 0], [0, 0], _, rfl, rfl, rfl, 0, 1, by decide, true, false, rfl, rfl, rfl⟩

/-- The same for the pose of a frame of a submap. -/
theorem C77_pose_fails : ∃ (calls : Fin 2 → List RaceCall) (is : List (Fin 2)) (w : Fin 2 → RThread),
    calls 0 = [.updatePoses 0] ∧ calls 1 = [.framePose 0] ∧
    raceRun (raceStart calls) is = some w ∧ RaceOn (.framePoses 0) w :=
  ⟨twoCalls [.updatePoses 0] [.framePose 0], [0, 0, 0], _, rfl, rfl, rfl, 0, 1, by decide, true, false, rfl, rfl, rfl⟩

/-- Two threads that both take locks, with the first about to write what the second wants to read: the second
has to wait. -/
example : ∃ w, raceRun (raceStart (twoCalls [.cloudSet 0] [.cloudEmpty 0])) [0, 0] = some w ∧
    ((w 0).rest.head?.bind touches = some (.points 0, true)) ∧ raceStep w 1 = none := ⟨_, rfl, rfl, rfl⟩

/-- And they do come to their end. -/
example : ∃ w, raceRun (raceStart (twoCalls [.cloudSet 0] [.cloudEmpty 0])) [0, 0, 0, 0, 0, 1, 1, 1] = some w ∧
    (w 0).rest = [] ∧ (w 1).rest = [] := ⟨_, rfl, rfl, rfl⟩

end Verif
