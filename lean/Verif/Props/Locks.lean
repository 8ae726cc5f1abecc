import Verif.Model.Locks
import Mathlib.Data.Finset.Max
import Mathlib.Algebra.BigOperators.Fin
import Mathlib.Algebra.BigOperators.Group.Finset.Basic
import Mathlib.Algebra.Order.BigOperators.Group.Finset
import Mathlib.Data.Fintype.BigOperators
/-! Property theorems C72: calls from several threads do not block each other for ever. -/
namespace Verif

/-- The order in which locks are taken. -/
def lockRank : LockId → Nat
  | .submap _ => 0
  | .cloud _ => 1
  | .plain _ => 2

/-- Locks are taken in increasing rank, and only an upgrade lock is promoted. -/
def opFits (held : List (LockId × LockMode)) : LockOp → Prop
  | .acquire l _ => ∀ h ∈ held, lockRank h.1 < lockRank l
  | .promote => ∃ l t, held = (l, .up) :: t
  | .demote => ∃ l t, held = (l, .ex) :: t
  | .release => held ≠ []

def fits : List (LockId × LockMode) → List LockOp → Prop
  | held, [] => held = []
  | held, op :: r => opFits held op ∧ fits (afterOp held op) r

/-- As `fits`, but ending with the locks `out`. -/
def fitsTo : List (LockId × LockMode) → List LockOp → List (LockId × LockMode) → Prop
  | held, [], out => held = out
  | held, op :: r, out => opFits held op ∧ fitsTo (afterOp held op) r out

theorem fitsTo_append {a b : List LockOp} {h1 h2 h3 : List (LockId × LockMode)} (ha : fitsTo h1 a h2) (hb : fitsTo h2 b h3) :
    fitsTo h1 (a ++ b) h3 := by
  induction a generalizing h1 with
  | nil =>
    rw [show h1 = h2 from ha]
    exact hb
  | cons op r ih => exact ⟨ha.1, ih ha.2⟩

theorem fits_iff {a : List LockOp} {h : List (LockId × LockMode)} : fits h a ↔ fitsTo h a [] := by
  induction a generalizing h with
  | nil => rfl
  | cons op r ih => exact and_congr_right fun _ => ih

theorem fitsTo_flatMap {α : Type} {f : α → List LockOp} {h : List (LockId × LockMode)} (l : List α)
    (hf : ∀ a, fitsTo h (f a) h) : fitsTo h (l.flatMap f) h := by
  induction l with
  | nil => rfl
  | cons a l ih =>
    rw [List.flatMap_cons]
    exact fitsTo_append (hf a) ih

/-- Locks below the clouds. -/
def Below (h : List (LockId × LockMode)) : Prop := ∀ x ∈ h, lockRank x.1 < 1

theorem read_fits {h : List (LockId × LockMode)} (hb : Below h) (c : Nat) : fitsTo h (readScript c) h :=
  ⟨hb, by simp [opFits, afterOp], rfl⟩

theorem write_fits {h : List (LockId × LockMode)} (hb : Below h) (c : Nat) : fitsTo h (writeScript c) h :=
  ⟨hb, ⟨_, _, rfl⟩, ⟨_, _, rfl⟩, by simp [opFits, afterOp], rfl⟩

theorem clear_fits {h : List (LockId × LockMode)} (hb : Below h) (c : Nat) (m : Bool) : fitsTo h (clearScript c m) h := by
  unfold clearScript
  split
  · exact write_fits hb c
  · rfl

theorem load_fits {h : List (LockId × LockMode)} (hb : Below h) (c : Nat) (m : Bool) : fitsTo h (loadScript c m) h := by
  unfold loadScript
  refine ⟨hb, ?_⟩
  cases m
  · exact ⟨by simp [opFits, afterOp], rfl⟩
  · exact ⟨⟨_, _, rfl⟩, ⟨_, _, rfl⟩, by simp [opFits, afterOp], rfl⟩

theorem below_nil : Below [] := fun _ h => by simp at h

theorem below_submap (s : Nat) (m : LockMode) : Below [(.submap s, m)] := by
  intro x hx
  rw [List.mem_singleton.1 hx]
  exact Nat.zero_lt_one

theorem script_fits (c : LockCall) : fitsTo [] (lockScript c) [] := by
  cases c with
  | getFrames s => exact ⟨by simp [opFits], by simp [opFits, afterOp], rfl⟩
  | getFrame s mine =>
    cases mine
    · exact (rfl : ([] : List (LockId × LockMode)) = [])
    · exact ⟨by simp [opFits], by simp [opFits, afterOp], rfl⟩
  | cloud s c load =>
    exact ⟨by simp [opFits], fitsTo_append (load_fits (below_submap s .sh) c load) ⟨by simp [opFits], rfl⟩⟩
  | setMatched s c disk frames =>
    simp only [lockScript]
    have hb := below_submap s .up
    refine fitsTo_append (h2 := [(.submap s, .up)]) (fitsTo_append (h2 := [(.submap s, .up)]) ?_ ?_) ⟨by simp [opFits], rfl⟩
    · exact ⟨by simp [opFits], ⟨_, _, rfl⟩, ⟨_, _, rfl⟩, rfl⟩
    · split
      · refine fitsTo_append (fitsTo_append (read_fits hb c) (read_fits hb c)) ?_
        exact fitsTo_flatMap frames fun f =>
          fitsTo_append (fitsTo_append (read_fits hb f.1) (read_fits hb f.1)) (clear_fits hb f.1 f.2)
      · rfl
  | tick s c on idle inMem =>
    simp only [lockScript]
    split
    · refine ⟨by simp [opFits], fitsTo_append (h2 := [(.submap s, .up)]) ?_ ⟨by simp [opFits], rfl⟩⟩
      split
      · refine ⟨⟨_, _, rfl⟩, fitsTo_append (clear_fits (below_submap s .ex) c inMem) ⟨⟨_, _, rfl⟩, rfl⟩⟩
      · rfl
    · exact (rfl : ([] : List (LockId × LockMode)) = [])
  | updatePoses s =>
    exact ⟨by simp [opFits], ⟨_, _, rfl⟩, ⟨_, _, rfl⟩, by simp [opFits, afterOp], rfl⟩
  | cloudRead c => exact read_fits below_nil c
  | cloudWrite c => exact write_fits below_nil c
  | cloudClear c m => exact clear_fits below_nil c m
  | cloudInMemory c m => exact load_fits below_nil c m
  | single m => exact ⟨by simp [opFits], by simp [opFits, afterOp], rfl⟩

/-! ### the invariant -/

structure LockInv {n : Nat} (w : Fin n → LThread) : Prop where
  fit : ∀ i, fits (w i).held (w i).rest
  sorted : ∀ i, (w i).held.Pairwise (fun a b => lockRank b.1 < lockRank a.1)
  agree : ∀ i j, i ≠ j → ∀ a ∈ (w i).held, ∀ b ∈ (w j).held, a.1 = b.1 → modesAgree a.2 b.2 = true

theorem modesAgree_comm (a b : LockMode) : modesAgree a b = modesAgree b a := by
  cases a <;> cases b <;> rfl

theorem start_inv {n : Nat} (calls : Fin n → List LockCall) : LockInv (lockStart calls) := by
  refine ⟨fun i => ?_, fun i => List.Pairwise.nil, fun i j _ a ha => ?_⟩
  · exact fits_iff.2 (fitsTo_flatMap (calls i) script_fits)
  · simp [lockStart] at ha

theorem afterOp_sorted {h : List (LockId × LockMode)} (hs : h.Pairwise (fun a b => lockRank b.1 < lockRank a.1)) {op : LockOp}
    (hf : opFits h op) : (afterOp h op).Pairwise (fun a b => lockRank b.1 < lockRank a.1) := by
  cases op with
  | acquire l m => exact List.pairwise_cons.2 ⟨hf, hs⟩
  | promote =>
    obtain ⟨l, t, rfl⟩ := hf
    exact List.pairwise_cons.2 ⟨(List.pairwise_cons.1 hs).1, (List.pairwise_cons.1 hs).2⟩
  | demote =>
    obtain ⟨l, t, rfl⟩ := hf
    exact List.pairwise_cons.2 ⟨(List.pairwise_cons.1 hs).1, (List.pairwise_cons.1 hs).2⟩
  | release =>
    cases h with
    | nil => exact hs
    | cons a t => exact (List.pairwise_cons.1 hs).2

theorem lockStep_some {n : Nat} {w w' : Fin n → LThread} {i : Fin n} (h : lockStep w i = some w') :
    enabled w i = true ∧ ∃ op r, (w i).rest = op :: r ∧ w' = Function.update w i ⟨afterOp (w i).held op, r⟩ := by
  unfold lockStep at h
  by_cases he : enabled w i = true
  · rw [if_pos he] at h
    refine ⟨he, ?_⟩
    cases hr : (w i).rest with
    | nil => rw [hr] at h; cases h
    | cons op r =>
      rw [hr] at h
      exact ⟨op, r, rfl, (Option.some.inj h).symm⟩
  · rw [if_neg he] at h
    cases h

/-- The locks of the acting thread agree with those of the others afterwards. -/
theorem step_agree {n : Nat} {w : Fin n → LThread} (inv : LockInv w) {i : Fin n} {op : LockOp} {r : List LockOp}
    (hr : (w i).rest = op :: r) (he : enabled w i = true) {j : Fin n} (hj : j ≠ i) :
    ∀ a ∈ afterOp (w i).held op, ∀ b ∈ (w j).held, a.1 = b.1 → modesAgree a.2 b.2 = true := by
  have old := inv.agree i j hj.symm
  have hf := inv.fit i
  rw [hr] at hf
  unfold enabled at he
  rw [hr] at he
  cases op with
  | acquire l m =>
    have he' := of_decide_eq_true he
    intro a ha b hb hab
    rcases List.mem_cons.1 ha with rfl | ha
    · exact he' j b hb hab.symm
    · exact old a ha b hb hab
  | promote =>
    obtain ⟨l, t, hl⟩ := hf.1
    rw [hl] at he old ⊢
    have he' := of_decide_eq_true he
    intro a ha b hb hab
    rcases List.mem_cons.1 ha with rfl | ha
    · exact absurd hab.symm (he' j hj b hb)
    · exact old a (List.mem_cons_of_mem _ ha) b hb hab
  | demote =>
    obtain ⟨l, t, hl⟩ := hf.1
    rw [hl] at old ⊢
    intro a ha b hb hab
    rcases List.mem_cons.1 ha with rfl | ha
    · have := old (l, .ex) List.mem_cons_self b hb hab
      simp [modesAgree] at this
    · exact old a (List.mem_cons_of_mem _ ha) b hb hab
  | release =>
    intro a ha b hb hab
    exact old a (List.mem_of_mem_tail ha) b hb hab

theorem lockStep_inv {n : Nat} {w w' : Fin n → LThread} {i : Fin n} (inv : LockInv w) (h : lockStep w i = some w') :
    LockInv w' := by
  obtain ⟨he, op, r, hr, rfl⟩ := lockStep_some h
  have hf := inv.fit i
  rw [hr] at hf
  have upd : ∀ j, j ≠ i → Function.update w i ⟨afterOp (w i).held op, r⟩ j = w j := fun j hj => Function.update_of_ne hj _ _
  refine ⟨fun j => ?_, fun j => ?_, fun j k hjk => ?_⟩
  · by_cases hj : j = i
    · subst hj
      rw [Function.update_self]
      exact hf.2
    · rw [upd j hj]
      exact inv.fit j
  · by_cases hj : j = i
    · subst hj
      rw [Function.update_self]
      exact afterOp_sorted (inv.sorted j) hf.1
    · rw [upd j hj]
      exact inv.sorted j
  · by_cases hj : j = i
    · subst hj
      rw [Function.update_self, upd k hjk.symm]
      exact step_agree inv hr he hjk.symm
    · by_cases hk : k = i
      · subst hk
        rw [Function.update_self, upd j hj]
        intro a ha b hb hab
        rw [modesAgree_comm]
        exact step_agree inv hr he hj b hb a ha hab.symm
      · rw [upd j hj, upd k hk]
        exact inv.agree j k hjk

theorem lockRun_inv {n : Nat} {w w' : Fin n → LThread} {is : List (Fin n)} (inv : LockInv w) (h : lockRun w is = some w') :
    LockInv w' := by
  induction is generalizing w with
  | nil =>
    cases h
    exact inv
  | cons i is ih =>
    unfold lockRun at h
    cases hs : lockStep w i with
    | none => rw [hs] at h; cases h
    | some w1 =>
      rw [hs] at h
      exact ih (lockStep_inv inv hs) h

/-! ### progress -/

/-- The lock a blocked thread is waiting for, and what is known of it. -/
theorem blocked_waits {n : Nat} {w : Fin n → LThread} (inv : LockInv w) {i : Fin n} (hne : (w i).rest ≠ [])
    (hb : enabled w i = false) :
    ∃ l, (∃ j, j ≠ i ∧ ∃ h ∈ (w j).held, h.1 = l) ∧
      ∀ h ∈ (w i).held, lockRank h.1 < lockRank l ∨ h = (l, .up) := by
  have hf := inv.fit i
  cases hr : (w i).rest with
  | nil => exact absurd hr hne
  | cons op r =>
    rw [hr] at hf
    unfold enabled at hb
    rw [hr] at hb
    cases op with
    | acquire l m =>
      have hb' := of_decide_eq_false hb
      push Not at hb'
      obtain ⟨j, h, hj, hl, _⟩ := hb'
      refine ⟨l, ⟨j, ?_, h, hj, hl⟩, fun h hh => .inl (hf.1 h hh)⟩
      rintro rfl
      have := hf.1 h hj
      rw [hl] at this
      exact Nat.lt_irrefl _ this
    | promote =>
      obtain ⟨l, t, hl⟩ := hf.1
      rw [hl] at hb
      have hb' := of_decide_eq_false hb
      push Not at hb'
      obtain ⟨j, hj, h, hh, he⟩ := hb'
      refine ⟨l, ⟨j, hj, h, hh, he⟩, ?_⟩
      intro h hh
      have hs := inv.sorted i
      rw [hl] at hh hs
      rcases List.mem_cons.1 hh with rfl | hh
      · exact .inr rfl
      · exact .inl ((List.pairwise_cons.1 hs).1 h hh)
    | demote => cases hb
    | release => cases hb

theorem held_rest {n : Nat} {w : Fin n → LThread} (inv : LockInv w) {i : Fin n} {h : LockId × LockMode} (hh : h ∈ (w i).held) :
    (w i).rest ≠ [] := by
  intro hr
  have := inv.fit i
  rw [hr] at this
  rw [show (w i).held = [] from this] at hh
  simp at hh

theorem inv_progress {n : Nat} {w : Fin n → LThread} (inv : LockInv w) (hb : ∀ i, enabled w i = false) (i : Fin n) :
    (w i).rest = [] := by
  by_contra hne
  classical
  -- the lock each unfinished thread waits for
  have hw : ∀ i : {i : Fin n // (w i).rest ≠ []}, ∃ l, (∃ j, j ≠ i.1 ∧ ∃ h ∈ (w j).held, h.1 = l) ∧
      ∀ h ∈ (w i.1).held, lockRank h.1 < lockRank l ∨ h = (l, .up) :=
    fun i => blocked_waits inv i.2 (hb i.1)
  choose l hl using hw
  obtain ⟨m, _, hm⟩ := Finset.exists_max_image (Finset.univ : Finset {i : Fin n // (w i).rest ≠ []})
    (fun i => lockRank (l i)) ⟨⟨i, hne⟩, Finset.mem_univ _⟩
  -- whoever holds the highest lock that is waited for is promoting it
  have top : ∀ j, ∀ h ∈ (w j).held, h.1 = l m → h = (l m, .up) := by
    intro j h hh he
    have hj := held_rest inv hh
    rcases (hl ⟨j, hj⟩).2 h hh with h1 | h1
    · have := hm ⟨j, hj⟩ (Finset.mem_univ _)
      rw [he] at h1
      exact absurd h1 (Nat.not_lt.2 this)
    · rw [h1] at he
      rw [h1]
      exact congrArg (fun x => (x, LockMode.up)) he
  have whose : ∀ j, ∀ h ∈ (w j).held, h.1 = l m → ∀ hj : (w j).rest ≠ [], l ⟨j, hj⟩ = l m := by
    intro j h hh he hj
    rcases (hl ⟨j, hj⟩).2 h hh with h1 | h1
    · have := hm ⟨j, hj⟩ (Finset.mem_univ _)
      rw [he] at h1
      exact absurd h1 (Nat.not_lt.2 this)
    · rw [h1] at he
      exact he
  obtain ⟨j, _, h, hh, he⟩ := (hl m).1
  have hj := held_rest inv hh
  obtain ⟨k, hkj, h', hh', he'⟩ := (hl ⟨j, hj⟩).1
  rw [whose j h hh he hj] at he'
  have e1 := top j h hh he
  have e2 := top k h' hh' he'
  have := inv.agree j k hkj.symm h hh h' hh' (by rw [he, he'])
  rw [e1, e2] at this
  simp [modesAgree] at this

/-! ### C72 -/

/-- **C72 (never stuck).** For any number of threads, any calls and any schedule: when no thread can perform
its next operation, every thread has finished all its calls and holds no lock. -/
theorem C72_never_stuck {n : Nat} (calls : Fin n → List LockCall) (schedule : List (Fin n)) {w : Fin n → LThread}
    (h : lockRun (lockStart calls) schedule = some w) (hb : ∀ i, lockStep w i = none) (i : Fin n) :
    (w i).rest = [] ∧ (w i).held = [] := by
  have inv := lockRun_inv (start_inv calls) h
  have hb' : ∀ i, enabled w i = false := by
    intro i
    by_contra he
    have he' : enabled w i = true := by simpa using he
    have := hb i
    unfold lockStep at this
    rw [if_pos he'] at this
    cases hr : (w i).rest with
    | nil => unfold enabled at he'; rw [hr] at he'; cases he'
    | cons op r => rw [hr] at this; cases this
  have hr := inv_progress inv hb' i
  refine ⟨hr, ?_⟩
  have := inv.fit i
  rw [hr] at this
  exact this

/-- Number of operations still to do. -/
def opsLeft {n : Nat} (w : Fin n → LThread) : Nat := ∑ i, (w i).rest.length

theorem step_left {n : Nat} {w w' : Fin n → LThread} {i : Fin n} (h : lockStep w i = some w') : opsLeft w = opsLeft w' + 1 := by
  obtain ⟨_, op, r, hr, rfl⟩ := lockStep_some h
  unfold opsLeft
  rw [← Finset.add_sum_erase _ _ (Finset.mem_univ i), ← Finset.add_sum_erase (a := i) Finset.univ (fun j =>
    ((Function.update w i ⟨afterOp (w i).held op, r⟩) j).rest.length) (Finset.mem_univ i), Function.update_self, hr]
  have : ∀ j ∈ Finset.univ.erase i, (w j).rest.length = ((Function.update w i ⟨afterOp (w i).held op, r⟩) j).rest.length := by
    intro j hj
    rw [Function.update_of_ne (Finset.ne_of_mem_erase hj)]
  rw [Finset.sum_congr rfl this]
  simp only [List.length_cons]
  omega

/-- **C72 (all calls end).** No schedule is longer than the number of lock operations of all calls; so, with the
theorem above, every schedule that goes on as long as it can ends with all calls complete. -/
theorem C72_bounded {n : Nat} (calls : Fin n → List LockCall) (schedule : List (Fin n)) {w : Fin n → LThread}
    (h : lockRun (lockStart calls) schedule = some w) :
    schedule.length ≤ ∑ i, ((calls i).flatMap lockScript).length := by
  have key : ∀ (is : List (Fin n)) (w0 : Fin n → LThread), lockRun w0 is = some w → is.length ≤ opsLeft w0 := by
    intro is
    induction is with
    | nil => intro w0 _; exact Nat.zero_le _
    | cons i is ih =>
      intro w0 h
      unfold lockRun at h
      cases hs : lockStep w0 i with
      | none => rw [hs] at h; cases h
      | some w1 =>
        rw [hs] at h
        have := ih w1 h
        rw [step_left hs]
        simpa using this
  exact key schedule _ h

/-- **C72 (exclusion).** Under every schedule, while a thread has a lock exclusively no other thread has that
lock in any way, and no two threads have an upgrade lock of the same object. -/
theorem C72_exclusive {n : Nat} (calls : Fin n → List LockCall) (schedule : List (Fin n)) {w : Fin n → LThread}
    (h : lockRun (lockStart calls) schedule = some w) {i j : Fin n} (hij : i ≠ j) (l : LockId) :
    ((l, .ex) ∈ (w i).held → ∀ m, (l, m) ∉ (w j).held) ∧
    ((l, .up) ∈ (w i).held → (l, .up) ∉ (w j).held) := by
  have inv := lockRun_inv (start_inv calls) h
  refine ⟨fun h1 m h2 => ?_, fun h1 h2 => ?_⟩
  · have := inv.agree i j hij _ h1 _ h2 rfl
    cases m <;> simp [modesAgree] at this
  · have := inv.agree i j hij _ h1 _ h2 rfl
    simp [modesAgree] at this

/-- Non-vacuity: one thread reads the cloud of a submap while the memory manager swaps it out. The memory
manager gets its upgrade lock while the reader has the shared one, and then has to wait; every schedule of
this kind ends after fourteen operations. -/
def readerAndManager : Fin 2 → List LockCall :=
  ![[.cloud 0 0 true], [.tick 0 0 true true true]]

example : ((lockRun (lockStart readerAndManager) [0, 1]).map fun w => (enabled w 0, enabled w 1)) = some (true, false) := by
  decide

example : ((lockRun (lockStart readerAndManager) [0, 1, 0, 0, 0, 0, 0, 1, 1, 1, 1, 1, 1, 1]).map fun w =>
    ((w 0).rest, (w 1).rest)) = some ([], []) := by
  decide

end Verif
