import Verif.Spec.ThreadPool
import Mathlib.Data.List.Basic
/-! Invariant of the thread pool. -/
namespace Verif
open Spec
variable {τ : Type}

/-- Replacing one element, seen through a `filterMap`. -/
theorem filterMap_set {α β : Type} (f : α → Option β) :
    ∀ (l : List α) (i : Nat) (a b : α), l[i]? = some a →
      ∃ pre suf, l.filterMap f = pre ++ (f a).toList ++ suf ∧
        (l.set i b).filterMap f = pre ++ (f b).toList ++ suf
  | [], i, a, b, h => by simp at h
  | x :: l, 0, a, b, h => by
    simp only [List.getElem?_cons_zero, Option.some.injEq] at h
    subst h
    refine ⟨[], l.filterMap f, ?_, ?_⟩
    · cases hx : f x <;> simp [hx]
    · cases hx : f b <;> simp [hx]
  | x :: l, i + 1, a, b, h => by
    obtain ⟨pre, suf, h1, h2⟩ := filterMap_set f l i a b (by simpa using h)
    refine ⟨(f x).toList ++ pre, suf, ?_, ?_⟩
    · cases hx : f x <;> simp [hx, h1]
    · cases hx : f x <;> simp [hx, h2]

/-- The invariant. -/
structure PoolInv (n : Nat) (p : Pool τ) (acc : List τ) : Prop where
  count : p.workers.length = n
  order : acc = p.started ++ p.tasks
  once : (p.finished ++ runningTasks p).Perm p.started
  exited : ∀ w ∈ p.workers, w = .exited → p.stop = true ∧ p.tasks = []
  wakeup : p.tasks ≠ [] → (∀ w ∈ p.workers, w = .asleep ∨ w = .exited) →
    0 < p.pending ∨ n = 0
  notified : p.notifiedAll = true → p.stop = true ∧ ∀ w ∈ p.workers, w ≠ .asleep
  joined : p.joined = true → p.notifiedAll = true ∧ ∀ w ∈ p.workers, w = .exited

theorem poolInv_new (n : Nat) : PoolInv n (Pool.new n : Pool τ) [] := by
  refine ⟨by simp [Pool.new], by simp [Pool.new], ?_, ?_, by simp [Pool.new], by simp [Pool.new],
    by simp [Pool.new]⟩
  · have : runningTasks (Pool.new n : Pool τ) = [] := by
      unfold runningTasks
      rw [List.filterMap_eq_nil_iff]
      intro w hw
      simp [Pool.new] at hw
      rw [hw.2]; rfl
    rw [this]
    simp [Pool.new]
  · intro w hw he
    simp [Pool.new] at hw
    rw [hw.2] at he; cases he

theorem pool_mem_set_cases {α : Type} {l : List α} {i : Nat} {a b : α} (h : a ∈ l.set i b) :
    a = b ∨ a ∈ l := by
  rcases List.mem_or_eq_of_mem_set h with h | h
  · exact Or.inr h
  · exact Or.inl h

/-- Changing one worker from a non-running to a non-running state. -/
theorem running_set_none {p : Pool τ} {i : Nat} {w w' : Worker τ} (h : p.workers[i]? = some w)
    (h1 : runningTask w = none) (h2 : runningTask w' = none) :
    (p.workers.set i w').filterMap runningTask = runningTasks p := by
  obtain ⟨pre, suf, e1, e2⟩ := filterMap_set runningTask p.workers i w w' h
  rw [e2]; unfold runningTasks; rw [e1, h1, h2]

theorem poolInv_step {n : Nat} {p : Pool τ} {acc : List τ} (e : PoolEv τ) (hi : PoolInv n p acc) :
    PoolInv n (p.step e)
      (match e with
       | .enqueue t => if p.stop then acc else acc ++ [t]
       | _ => acc) := by
  obtain ⟨h1, h2, h3, h4, h5, h6, h7⟩ := hi
  cases e with
  | enqueue t =>
    simp only [Pool.step]
    by_cases hs : p.stop = true
    · simp only [hs, ↓reduceIte]
      exact ⟨h1, h2, h3, fun w hw he => by simpa [hs] using h4 w hw he, h5,
        fun hn => by simpa [hs] using h6 hn, h7⟩
    · simp only [hs, ↓reduceIte, Bool.false_eq_true]
      have hs' : p.stop = false := by simpa using hs
      refine ⟨h1, by simp [h2], h3, ?_, ?_, ?_, h7⟩
      · intro w hw he
        exact absurd (h4 w hw he).1 hs
      · intro _ _; left; simp
      · intro hn
        exact absurd (h6 hn).1 hs
  | notify i =>
    simp only [Pool.step]
    split
    · rename_i k hw hp
      refine ⟨by simpa using h1, h2, ?_, ?_, ?_, ?_, ?_⟩
      · have := running_set_none (w' := .check) hw rfl rfl
        unfold runningTasks at this ⊢
        simp only [this]
        exact h3
      · intro w hm he
        rcases pool_mem_set_cases hm with rfl | hm
        · cases he
        · exact h4 w hm he
      · intro ht hall
        have hlt : i < p.workers.length := by
          by_contra hc
          rw [List.getElem?_eq_none (by omega)] at hw; cases hw
        have : (Worker.check : Worker τ) ∈ p.workers.set i .check := List.mem_set hlt _
        rcases hall _ this with h | h <;> cases h
      · intro hn
        exact absurd rfl ((h6 hn).2 _ (List.mem_of_getElem? hw))
      · intro hj
        have := (h7 hj).2 _ (List.mem_of_getElem? hw)
        cases this
    · exact ⟨h1, h2, h3, h4, h5, h6, h7⟩
  | notifyNobody =>
    simp only [Pool.step]
    split
    · exact ⟨h1, h2, h3, h4, h5, h6, h7⟩
    · rename_i hno
      refine ⟨h1, h2, h3, h4, ?_, h6, h7⟩
      intro ht hall
      -- nobody is asleep, so everybody has exited; but then there are no tasks
      cases hws : p.workers with
      | nil => right; rw [hws] at h1; simpa using h1.symm
      | cons w ws =>
        exfalso
        have hw : w ∈ p.workers := by rw [hws]; simp
        rcases hall w hw with h | h
        · apply hno
          rw [List.any_eq_true]
          exact ⟨w, hw, by rw [h]; rfl⟩
        · exact ht (h4 w hw h).2
  | destroy =>
    simp only [Pool.step]
    exact ⟨h1, h2, h3, fun w hw he => ⟨rfl, (h4 w hw he).2⟩, h5, fun hn => ⟨rfl, (h6 hn).2⟩, h7⟩
  | notifyAll =>
    simp only [Pool.step]
    by_cases hs : p.stop = true
    · simp only [hs, ↓reduceIte]
      have hrun : (p.workers.map Worker.wake).filterMap runningTask = runningTasks p := by
        unfold runningTasks
        rw [List.filterMap_map]
        congr 1
        funext w
        cases w <;> rfl
      refine ⟨by simpa using h1, h2, ?_, ?_, ?_, ?_, ?_⟩
      · unfold runningTasks at hrun ⊢
        simp only [hrun]
        exact h3
      · intro w hm he
        simp only [List.mem_map] at hm
        obtain ⟨v, hv, rfl⟩ := hm
        cases v <;> simp only [Worker.wake] at he <;> first | cases he | skip
        exact ⟨rfl, (h4 _ hv rfl).2⟩
      · intro ht hall
        cases hws : p.workers with
        | nil => right; rw [hws] at h1; simpa using h1.symm
        | cons w ws =>
          exfalso
          have hw : w ∈ p.workers := by rw [hws]; simp
          have := hall w.wake (List.mem_map_of_mem hw)
          cases w with
          | exited => exact ht (h4 _ hw rfl).2
          | check => rcases this with h | h <;> cases h
          | asleep => rcases this with h | h <;> cases h
          | running t => rcases this with h | h <;> cases h
      · intro _
        refine ⟨rfl, ?_⟩
        intro w hm
        simp only [List.mem_map] at hm
        obtain ⟨v, -, rfl⟩ := hm
        cases v <;> simp [Worker.wake]
      · intro hj
        refine ⟨rfl, ?_⟩
        intro w hm
        simp only [List.mem_map] at hm
        obtain ⟨v, hv, rfl⟩ := hm
        rw [(h7 hj).2 v hv]; rfl
    · simp only [hs, ↓reduceIte, Bool.false_eq_true]
      exact ⟨h1, h2, h3, h4, h5, h6, h7⟩
  | join =>
    simp only [Pool.step]
    split
    · rename_i hc
      rw [Bool.and_eq_true] at hc
      refine ⟨h1, h2, h3, h4, h5, h6, ?_⟩
      intro _
      refine ⟨hc.1, ?_⟩
      intro w hw
      have := List.all_eq_true.1 hc.2 w hw
      cases w <;> simp [Worker.isExited] at this ⊢
    · exact ⟨h1, h2, h3, h4, h5, h6, h7⟩
  | spurious i =>
    simp only [Pool.step]
    split
    · rename_i hw
      refine ⟨by simpa using h1, h2, ?_, ?_, ?_, ?_, ?_⟩
      · have := running_set_none (w' := .check) hw rfl rfl
        unfold runningTasks at this ⊢
        simp only [this]
        exact h3
      · intro w hm he
        rcases pool_mem_set_cases hm with rfl | hm
        · cases he
        · exact h4 w hm he
      · intro ht hall
        have hlt : i < p.workers.length := by
          by_contra hc
          rw [List.getElem?_eq_none (by omega)] at hw; cases hw
        have : (Worker.check : Worker τ) ∈ p.workers.set i .check := List.mem_set hlt _
        rcases hall _ this with h | h <;> cases h
      · intro hn
        exact absurd rfl ((h6 hn).2 _ (List.mem_of_getElem? hw))
      · intro hj
        have := (h7 hj).2 _ (List.mem_of_getElem? hw)
        cases this
    · exact ⟨h1, h2, h3, h4, h5, h6, h7⟩
  | look i =>
    simp only [Pool.step]
    split
    · rename_i hw
      have hlt : i < p.workers.length := by
        by_contra hc
        rw [List.getElem?_eq_none (by omega)] at hw; cases hw
      have hnj : p.joined = true → False := by
        intro hj
        have := (h7 hj).2 _ (List.mem_of_getElem? hw)
        cases this
      split
      · rename_i ht
        split
        · rename_i hs
          refine ⟨by simpa using h1, h2, ?_, ?_, ?_, ?_, fun hj => (hnj hj).elim⟩
          · have := running_set_none (w' := .exited) hw rfl rfl
            unfold runningTasks at this ⊢
            simp only [this]
            exact h3
          · intro w hm he
            exact ⟨hs, ht⟩
          · intro hne; exact absurd ht hne
          · intro hn
            refine ⟨(h6 hn).1, ?_⟩
            intro w hm
            rcases pool_mem_set_cases hm with rfl | hm
            · simp
            · exact (h6 hn).2 w hm
        · rename_i hs
          refine ⟨by simpa using h1, h2, ?_, ?_, ?_, ?_, fun hj => (hnj hj).elim⟩
          · have := running_set_none (w' := .asleep) hw rfl rfl
            unfold runningTasks at this ⊢
            simp only [this]
            exact h3
          · intro w hm he
            rcases pool_mem_set_cases hm with rfl | hm
            · cases he
            · exact h4 w hm he
          · intro hne; exact absurd ht hne
          · intro hn
            exact absurd (h6 hn).1 hs
      · rename_i t ts ht
        obtain ⟨pre, suf, e1, e2⟩ := filterMap_set runningTask p.workers i _ (.running t) hw
        refine ⟨by simpa using h1, by simp [h2, ht], ?_, ?_, ?_, ?_, fun hj => (hnj hj).elim⟩
        · unfold runningTasks at h3 ⊢
          rw [e1] at h3
          simp only [e2]
          simp only [runningTask, Option.toList_none, Option.toList_some, List.append_nil] at h3 ⊢
          have hp : (p.finished ++ (pre ++ [t] ++ suf)).Perm ((p.finished ++ (pre ++ suf)) ++ [t]) := by
            simp only [List.append_assoc, List.singleton_append]
            apply List.Perm.append_left
            apply List.Perm.append_left
            exact (List.perm_append_singleton t suf).symm
          exact hp.trans (List.Perm.append_right [t] h3)
        · intro w hm he
          rcases pool_mem_set_cases hm with rfl | hm
          · cases he
          · have := (h4 w hm he).2
            rw [ht] at this; cases this
        · intro _ hall
          have : (Worker.running t : Worker τ) ∈ p.workers.set i (.running t) := List.mem_set hlt _
          rcases hall _ this with h | h <;> cases h
        · intro hn
          refine ⟨(h6 hn).1, ?_⟩
          intro w hm
          rcases pool_mem_set_cases hm with rfl | hm
          · simp
          · exact (h6 hn).2 w hm
    · exact ⟨h1, h2, h3, h4, h5, h6, h7⟩
  | finish i =>
    simp only [Pool.step]
    split
    · rename_i t hw
      have hlt : i < p.workers.length := by
        by_contra hc
        rw [List.getElem?_eq_none (by omega)] at hw; cases hw
      obtain ⟨pre, suf, e1, e2⟩ := filterMap_set runningTask p.workers i _ .check hw
      refine ⟨by simpa using h1, h2, ?_, ?_, ?_, ?_, ?_⟩
      · unfold runningTasks at h3 ⊢
        rw [e1] at h3
        simp only [e2]
        simp only [runningTask, Option.toList_none, Option.toList_some, List.append_nil] at h3 ⊢
        refine List.Perm.trans ?_ h3
        rw [List.append_assoc p.finished]
        apply List.Perm.append_left
        rw [← List.append_assoc, List.singleton_append]
        apply List.Perm.append_right
        exact (List.perm_append_singleton t pre).symm
      · intro w hm he
        rcases pool_mem_set_cases hm with rfl | hm
        · cases he
        · exact h4 w hm he
      · intro _ hall
        have : (Worker.check : Worker τ) ∈ p.workers.set i .check := List.mem_set hlt _
        rcases hall _ this with h | h <;> cases h
      · intro hn
        refine ⟨(h6 hn).1, ?_⟩
        intro w hm
        rcases pool_mem_set_cases hm with rfl | hm
        · simp
        · exact (h6 hn).2 w hm
      · intro hj
        have := (h7 hj).2 _ (List.mem_of_getElem? hw)
        cases this
    · exact ⟨h1, h2, h3, h4, h5, h6, h7⟩

/-- The stop flag never changes except by destruction. -/
theorem step_stop (p : Pool τ) (e : PoolEv τ) :
    (p.step e).stop = (match e with | .destroy => true | _ => p.stop) := by
  cases e <;> simp only [Pool.step] <;> (repeat' split) <;> first | rfl | assumption | simp_all

theorem step_rejected (p : Pool τ) (e : PoolEv τ) :
    (p.step e).rejected = (match e with
      | .enqueue t => if p.stop then p.rejected ++ [t] else p.rejected
      | _ => p.rejected) := by
  cases e <;> simp only [Pool.step] <;> (repeat' split) <;> first | rfl | simp_all

theorem poolInv_run_stopped {n : Nat} : ∀ (es : List (PoolEv τ)) (p : Pool τ) (acc : List τ),
    p.stop = true → PoolInv n p acc → PoolInv n (p.run es) acc ∧
      (p.run es).rejected = p.rejected ++
        es.filterMap submitted
  | [], p, acc, _, hi => ⟨hi, by simp [Pool.run]⟩
  | e :: es, p, acc, hs, hi => by
    have h1 := poolInv_step e hi
    have h2 : (p.step e).stop = true := by rw [step_stop]; cases e <;> simp [hs]
    have h3 : PoolInv n (p.step e) acc := by
      cases e <;> simp only [hs, ↓reduceIte] at h1 <;> exact h1
    obtain ⟨a, b⟩ := poolInv_run_stopped es (p.step e) acc h2 h3
    refine ⟨a, ?_⟩
    show ((p.step e).run es).rejected = _
    rw [b, step_rejected]
    cases e <;> simp [hs, submitted, List.filterMap_cons]

theorem poolInv_run {n : Nat} : ∀ (es : List (PoolEv τ)) (p : Pool τ) (acc : List τ),
    p.stop = false → PoolInv n p acc → PoolInv n (p.run es) (acc ++ acceptedBy es) ∧
      (p.run es).rejected = p.rejected ++ rejectedBy es
  | [], p, acc, _, hi => by simpa [acceptedBy, rejectedBy, Pool.run] using hi
  | e :: es, p, acc, hs, hi => by
    have h1 := poolInv_step e hi
    have h4 := step_rejected p e
    cases e with
    | destroy =>
      obtain ⟨a, b⟩ := poolInv_run_stopped es (p.step .destroy) acc rfl h1
      refine ⟨by show PoolInv n ((p.step .destroy).run es) _; simpa [acceptedBy] using a, ?_⟩
      show ((p.step .destroy).run es).rejected = _
      rw [b, h4]; simp [rejectedBy]
    | enqueue t =>
      simp only [hs, Bool.false_eq_true, ↓reduceIte] at h1 h4
      have h2 : (p.step (.enqueue t)).stop = false := by rw [step_stop]; exact hs
      obtain ⟨a, b⟩ := poolInv_run es (p.step (.enqueue t)) _ h2 h1
      refine ⟨by show PoolInv n ((p.step (.enqueue t)).run es) _; simpa [acceptedBy] using a, ?_⟩
      show ((p.step (.enqueue t)).run es).rejected = _
      rw [b, h4]; simp [rejectedBy]
    | notify i =>
      have h2 : (p.step (.notify i)).stop = false := by rw [step_stop]; exact hs
      obtain ⟨a, b⟩ := poolInv_run es _ _ h2 h1
      exact ⟨a, by show ((p.step _).run es).rejected = _; rw [b, h4]; rfl⟩
    | notifyNobody =>
      have h2 : (p.step .notifyNobody).stop = false := by rw [step_stop]; exact hs
      obtain ⟨a, b⟩ := poolInv_run es _ _ h2 h1
      exact ⟨a, by show ((p.step _).run es).rejected = _; rw [b, h4]; rfl⟩
    | notifyAll =>
      have h2 : (p.step .notifyAll).stop = false := by rw [step_stop]; exact hs
      obtain ⟨a, b⟩ := poolInv_run es _ _ h2 h1
      exact ⟨a, by show ((p.step _).run es).rejected = _; rw [b, h4]; rfl⟩
    | join =>
      have h2 : (p.step .join).stop = false := by rw [step_stop]; exact hs
      obtain ⟨a, b⟩ := poolInv_run es _ _ h2 h1
      exact ⟨a, by show ((p.step _).run es).rejected = _; rw [b, h4]; rfl⟩
    | spurious i =>
      have h2 : (p.step (.spurious i)).stop = false := by rw [step_stop]; exact hs
      obtain ⟨a, b⟩ := poolInv_run es _ _ h2 h1
      exact ⟨a, by show ((p.step _).run es).rejected = _; rw [b, h4]; rfl⟩
    | look i =>
      have h2 : (p.step (.look i)).stop = false := by rw [step_stop]; exact hs
      obtain ⟨a, b⟩ := poolInv_run es _ _ h2 h1
      exact ⟨a, by show ((p.step _).run es).rejected = _; rw [b, h4]; rfl⟩
    | finish i =>
      have h2 : (p.step (.finish i)).stop = false := by rw [step_stop]; exact hs
      obtain ⟨a, b⟩ := poolInv_run es _ _ h2 h1
      exact ⟨a, by show ((p.step _).run es).rejected = _; rw [b, h4]; rfl⟩

/-- Work left for a worker. -/
def workerLoad : Worker τ → Nat
  | .check => 1
  | .asleep => 1
  | .running _ => 2
  | .exited => 0

/-- Work left in the pool. -/
def poolLoad (p : Pool τ) : Nat := 3 * p.tasks.length + (p.workers.map workerLoad).sum

theorem sum_set (f : Worker τ → Nat) : ∀ (l : List (Worker τ)) (i : Nat) (a b : Worker τ),
    l[i]? = some a → ((l.set i b).map f).sum + f a = (l.map f).sum + f b
  | [], i, a, b, h => by simp at h
  | x :: l, 0, a, b, h => by
    simp only [List.getElem?_cons_zero, Option.some.injEq] at h
    subst h
    simp; omega
  | x :: l, i + 1, a, b, h => by
    have := sum_set f l i a b (by simpa using h)
    simp only [List.set_cons_succ, List.map_cons, List.sum_cons]
    omega

theorem load_le_sum : ∀ (l : List (Worker τ)) (w : Worker τ), w ∈ l →
    workerLoad w ≤ (l.map workerLoad).sum
  | x :: l, w, h => by
    simp only [List.map_cons, List.sum_cons]
    rcases List.mem_cons.1 h with rfl | h
    · omega
    · have := load_le_sum l w h; omega

end Verif
