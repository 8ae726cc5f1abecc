import Verif.Proofs.ThreadPool
/-! Property theorem C36 (the thread pool). -/
namespace Verif
open Spec
variable {τ : Type}

/-- C36, safety, for every schedule and every number of workers: the tasks started so far followed
by the tasks waiting are exactly the tasks accepted, in the order accepted; every started task has
finished or is being executed, once; exactly the tasks submitted after destruction began are
rejected; and when the destructor has returned (of a pool with at least one worker) every accepted
task has finished. -/
theorem C36_safety (n : Nat) (es : List (PoolEv τ)) :
    let p := (Pool.new n : Pool τ).run es
    p.started ++ p.tasks = acceptedBy es ∧
    (p.finished ++ runningTasks p).Perm p.started ∧
    p.rejected = rejectedBy es ∧
    (1 ≤ n → p.joined = true → p.finished.Perm (acceptedBy es)) := by
  intro p
  obtain ⟨hi, hr⟩ := poolInv_run es (Pool.new n) [] rfl (poolInv_new n)
  simp only [List.nil_append] at hi
  refine ⟨hi.order.symm, hi.once, hr, ?_⟩
  intro hn hj
  obtain ⟨hna, hall⟩ := hi.joined hj
  have hlen : p.workers.length = n := hi.count
  obtain ⟨w, ws, hws⟩ : ∃ w ws, p.workers = w :: ws := by
    cases h : p.workers with
    | nil => rw [h] at hlen; simp at hlen; omega
    | cons w ws => exact ⟨w, ws, rfl⟩
  have hw : w ∈ p.workers := by rw [hws]; simp
  have ht : p.tasks = [] := (hi.exited w hw (hall w hw)).2
  have hrun : runningTasks p = [] := by
    unfold runningTasks
    rw [List.filterMap_eq_nil_iff]
    intro v hv
    rw [hall v hv]; rfl
  have h1 := hi.once
  have h2 := hi.order
  rw [hrun, List.append_nil] at h1
  rw [ht, List.append_nil] at h2
  rw [h2]; exact h1

/-- The destructor of a pool without workers returns without running anything. -/
theorem C36_no_workers_fails : ∃ es : List (PoolEv Nat),
    ((Pool.new 0 : Pool Nat).run es).joined = true ∧ acceptedBy es = [7] ∧
    ((Pool.new 0 : Pool Nat).run es).finished = [] :=
  ⟨[.enqueue 7, .notifyNobody, .destroy, .notifyAll, .join], rfl, rfl, rfl⟩

/-- C36, no lost wake-up: while tasks are waiting, a notification is on its way or some worker is
awake (about to look for work, or executing a task after which it will look again). -/
theorem C36_no_lost_wakeup (n : Nat) (hn : 1 ≤ n) (es : List (PoolEv τ))
    (ht : ((Pool.new n : Pool τ).run es).tasks ≠ []) :
    0 < ((Pool.new n : Pool τ).run es).pending ∨
    ∃ w ∈ ((Pool.new n : Pool τ).run es).workers, w = .check ∨ ∃ t, w = .running t := by
  obtain ⟨hi, -⟩ := poolInv_run es (Pool.new n) [] rfl (poolInv_new n)
  by_cases h : ∀ w ∈ ((Pool.new n : Pool τ).run es).workers, w = .asleep ∨ w = .exited
  · left
    rcases hi.wakeup ht h with h | h
    · exact h
    · omega
  · right
    push Not at h
    obtain ⟨w, hw, h1, h2⟩ := h
    refine ⟨w, hw, ?_⟩
    cases w with
    | check => exact Or.inl rfl
    | asleep => exact absurd rfl h1
    | running t => exact Or.inr ⟨t, rfl⟩
    | exited => exact absurd rfl h2

/-- The notifications sent one at a time. -/
def notifiesIn : List (PoolEv τ) → Nat
  | [] => 0
  | .notify _ :: es => notifiesIn es + 1
  | .notifyNobody :: es => notifiesIn es + 1
  | _ :: es => notifiesIn es

theorem pending_stopped : ∀ (es : List (PoolEv τ)) (p : Pool τ), p.stop = true →
    (p.run es).pending ≤ p.pending ∧ p.pending ≤ (p.run es).pending + notifiesIn es
  | [], p, _ => by simp [Pool.run, notifiesIn]
  | e :: es, p, hs => by
    have h2 : (p.step e).stop = true := by rw [step_stop]; cases e <;> simp [hs]
    obtain ⟨a, b⟩ := pending_stopped es (p.step e) h2
    have h3 : (p.step e).pending ≤ p.pending ∧ p.pending ≤ (p.step e).pending + notifiesIn [e] := by
      cases e <;> simp only [Pool.step, hs, notifiesIn, if_true] <;> (repeat' split) <;> simp_all <;> omega
    show ((p.step e).run es).pending ≤ _ ∧ _ ≤ ((p.step e).run es).pending + _
    have h4 : notifiesIn (e :: es) = notifiesIn [e] + notifiesIn es := by cases e <;> simp [notifiesIn] <;> omega
    omega

theorem pending_open : ∀ (es : List (PoolEv τ)) (p : Pool τ), p.stop = false →
    (p.run es).pending ≤ p.pending + (acceptedBy es).length ∧
      p.pending + (acceptedBy es).length ≤ (p.run es).pending + notifiesIn es
  | [], p, _ => by simp [Pool.run, notifiesIn, acceptedBy]
  | .destroy :: es, p, _ => by
    obtain ⟨a, b⟩ := pending_stopped es (p.step .destroy) rfl
    exact ⟨a, b⟩
  | .enqueue t :: es, p, hs => by
    have h2 : (p.step (.enqueue t)).stop = false := by rw [step_stop]; exact hs
    obtain ⟨a, b⟩ := pending_open es (p.step (.enqueue t)) h2
    have h3 : (p.step (.enqueue t)).pending = p.pending + 1 := by simp [Pool.step, hs]
    show ((p.step (.enqueue t)).run es).pending ≤ _ ∧ _ ≤ ((p.step (.enqueue t)).run es).pending + _
    simp only [acceptedBy, List.length_cons, notifiesIn]
    omega
  | .notify i :: es, p, hs => by
    have h2 : (p.step (.notify i)).stop = false := by rw [step_stop]; exact hs
    obtain ⟨a, b⟩ := pending_open es (p.step (.notify i)) h2
    have h3 : (p.step (.notify i)).pending ≤ p.pending ∧ p.pending ≤ (p.step (.notify i)).pending + 1 := by
      simp only [Pool.step]; split <;> simp_all
    show ((p.step (.notify i)).run es).pending ≤ _ ∧ _ ≤ ((p.step (.notify i)).run es).pending + _
    simp only [acceptedBy, notifiesIn]
    omega
  | .notifyNobody :: es, p, hs => by
    have h2 : (p.step .notifyNobody).stop = false := by rw [step_stop]; exact hs
    obtain ⟨a, b⟩ := pending_open es (p.step .notifyNobody) h2
    have h3 : (p.step .notifyNobody).pending ≤ p.pending ∧ p.pending ≤ (p.step .notifyNobody).pending + 1 := by
      simp only [Pool.step]; split <;> simp_all <;> omega
    show ((p.step .notifyNobody).run es).pending ≤ _ ∧ _ ≤ ((p.step .notifyNobody).run es).pending + _
    simp only [acceptedBy, notifiesIn]
    omega
  | .notifyAll :: es, p, hs => by
    have h2 : (p.step .notifyAll).stop = false := by rw [step_stop]; exact hs
    obtain ⟨a, b⟩ := pending_open es (p.step .notifyAll) h2
    have h3 : (p.step .notifyAll).pending = p.pending := by simp [Pool.step, hs]
    rw [h3] at a b
    exact ⟨a, b⟩
  | .join :: es, p, hs => by
    have h2 : (p.step .join).stop = false := by rw [step_stop]; exact hs
    obtain ⟨a, b⟩ := pending_open es (p.step .join) h2
    have h3 : (p.step .join).pending = p.pending := by simp only [Pool.step]; split <;> rfl
    rw [h3] at a b
    exact ⟨a, b⟩
  | .spurious i :: es, p, hs => by
    have h2 : (p.step (.spurious i)).stop = false := by rw [step_stop]; exact hs
    obtain ⟨a, b⟩ := pending_open es (p.step (.spurious i)) h2
    have h3 : (p.step (.spurious i)).pending = p.pending := by simp only [Pool.step]; split <;> rfl
    rw [h3] at a b
    exact ⟨a, b⟩
  | .look i :: es, p, hs => by
    have h2 : (p.step (.look i)).stop = false := by rw [step_stop]; exact hs
    obtain ⟨a, b⟩ := pending_open es (p.step (.look i)) h2
    have h3 : (p.step (.look i)).pending = p.pending := by
      simp only [Pool.step]; (repeat' split) <;> rfl
    rw [h3] at a b
    exact ⟨a, b⟩
  | .finish i :: es, p, hs => by
    have h2 : (p.step (.finish i)).stop = false := by rw [step_stop]; exact hs
    obtain ⟨a, b⟩ := pending_open es (p.step (.finish i)) h2
    have h3 : (p.step (.finish i)).pending = p.pending := by simp only [Pool.step]; split <;> rfl
    rw [h3] at a b
    exact ⟨a, b⟩

/-- C36, one notification per accepted task: those still to come never outnumber the accepted tasks,
and with those already sent there is at least one for each of them. -/
theorem C36_one_notification_each (n : Nat) (es : List (PoolEv τ)) :
    ((Pool.new n : Pool τ).run es).pending ≤ (acceptedBy es).length ∧
      (acceptedBy es).length ≤ ((Pool.new n : Pool τ).run es).pending + notifiesIn es := by
  obtain ⟨a, b⟩ := pending_open es (Pool.new n : Pool τ) rfl
  simp only [Pool.new, Nat.zero_add] at a b ⊢
  exact ⟨a, b⟩

example : (acceptedBy [PoolEv.enqueue 1, .notifyNobody, .enqueue 2]).length = 2 ∧
    ((Pool.new 1 : Pool Nat).run [.enqueue 1, .notifyNobody, .enqueue 2]).pending = 1 := by decide

/-- C36, the destructor terminates: once it has notified the workers, no step increases the work
left, every worker that has not returned can take a step that decreases it, and when none is left
the join succeeds. -/
theorem C36_shutdown_terminates (n : Nat) (es : List (PoolEv τ))
    (hna : ((Pool.new n : Pool τ).run es).notifiedAll = true) :
    let p := (Pool.new n : Pool τ).run es
    (∀ e, poolLoad (p.step e) ≤ poolLoad p) ∧
    (∀ (i : Nat) (w : Worker τ), p.workers[i]? = some w → w ≠ .exited →
      poolLoad (p.step (.look i)) < poolLoad p ∨ poolLoad (p.step (.finish i)) < poolLoad p) ∧
    (poolLoad p = 0 → (p.step .join).joined = true) := by
  intro p
  obtain ⟨hi, -⟩ := poolInv_run es (Pool.new n) [] rfl (poolInv_new n)
  obtain ⟨hstop, hns⟩ := hi.notified hna
  change p.stop = true at hstop
  change ∀ w ∈ p.workers, w ≠ .asleep at hns
  have hna' : p.notifiedAll = true := hna
  have hlook : ∀ i, poolLoad (p.step (.look i)) ≤ poolLoad p ∧
      (p.workers[i]? = some .check → poolLoad (p.step (.look i)) < poolLoad p) := by
    intro i
    simp only [Pool.step]
    split
    · rename_i hw
      split
      · rename_i ht
        have := sum_set workerLoad p.workers i _ .exited hw
        simp only [hstop, ↓reduceIte]
        simp only [workerLoad] at this
        unfold poolLoad
        constructor
        · show 3 * p.tasks.length + ((p.workers.set i .exited).map workerLoad).sum ≤ _
          omega
        · intro _
          show 3 * p.tasks.length + ((p.workers.set i .exited).map workerLoad).sum < _
          omega
      · rename_i t ts ht
        have := sum_set workerLoad p.workers i _ (.running t) hw
        simp only [workerLoad] at this
        unfold poolLoad
        simp only [ht, List.length_cons]
        constructor
        · omega
        · intro _; omega
    · rename_i hne
      exact ⟨Nat.le_refl _, fun h => absurd h hne⟩
  have hfin : ∀ i, poolLoad (p.step (.finish i)) ≤ poolLoad p ∧
      (∀ t, p.workers[i]? = some (.running t) → poolLoad (p.step (.finish i)) < poolLoad p) := by
    intro i
    simp only [Pool.step]
    split
    · rename_i t hw
      have := sum_set workerLoad p.workers i _ .check hw
      simp only [workerLoad] at this
      unfold poolLoad
      simp only
      constructor
      · omega
      · intro _ _; omega
    · rename_i hne
      exact ⟨Nat.le_refl _, fun t h => absurd h (hne t)⟩
  have hasl : ∀ i : Nat, p.workers[i]? ≠ some Worker.asleep := by
    intro i h
    exact hns _ (List.mem_of_getElem? h) rfl
  refine ⟨?_, ?_, ?_⟩
  · intro e
    cases e with
    | enqueue t => simp [Pool.step, hstop, poolLoad]
    | notify i =>
      simp only [Pool.step]
      split
      · rename_i hw _; exact absurd hw (hasl i)
      · exact Nat.le_refl _
    | notifyNobody => simp only [Pool.step]; split <;> exact Nat.le_refl _
    | destroy => exact Nat.le_refl _
    | notifyAll =>
      simp only [Pool.step, hstop, ↓reduceIte, poolLoad, List.map_map]
      have : (workerLoad ∘ Worker.wake : Worker τ → Nat) = workerLoad := by
        funext w; cases w <;> rfl
      rw [this]
      exact Nat.le_refl _
    | join => simp only [Pool.step]; split <;> exact Nat.le_refl _
    | spurious i =>
      simp only [Pool.step]
      split
      · rename_i hw; exact absurd hw (hasl i)
      · exact Nat.le_refl _
    | look i => exact (hlook i).1
    | finish i => exact (hfin i).1
  · intro i w hw hne
    cases w with
    | check => exact Or.inl ((hlook i).2 hw)
    | asleep => exact absurd hw (hasl i)
    | running t => exact Or.inr ((hfin i).2 t hw)
    | exited => exact absurd rfl hne
  · intro h0
    have hall : p.workers.all Worker.isExited = true := by
      rw [List.all_eq_true]
      intro w hw
      unfold poolLoad at h0
      have hle : workerLoad w ≤ (p.workers.map workerLoad).sum :=
        load_le_sum _ _ hw
      have : workerLoad w = 0 := by omega
      cases w <;> simp [workerLoad] at this ⊢
      rfl
    simp [Pool.step, hna', hall]

/-- Two workers, three tasks, one submitted too late: the hypotheses are met and the destructor
returns with the two accepted tasks finished. -/
example :
    let es : List (PoolEv Nat) := [.look 0, .enqueue 1, .enqueue 2, .notify 0, .notifyNobody, .look 0,
      .look 1, .finish 1, .destroy, .notifyAll, .enqueue 3, .look 1, .finish 0, .look 0, .join]
    let p := (Pool.new 2 : Pool Nat).run es
    acceptedBy es = [1, 2] ∧ rejectedBy es = [3] ∧ p.joined = true ∧ p.started = [1, 2] ∧
    p.finished = [2, 1] ∧ p.rejected = [3] := ⟨rfl, rfl, rfl, rfl, rfl, rfl⟩

end Verif
