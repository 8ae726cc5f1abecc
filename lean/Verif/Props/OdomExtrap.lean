import Verif.Spec.OdomExtrap
import Verif.Proofs.Extrapolator
import Verif.Proofs.Outcome
/-!
C116.  Odometry given to the extrapolator improves its predictions, and never stops the program.

Not so in the code: without an IMU odometry is ignored (`C116_ctrv`); with an IMU the first message is
stored without effect and the second one is undefined behaviour (`C116_odom_fails`), so in every
history that goes on the predictions are those without odometry (`C116_same`).
-/
namespace Verif
open Spec
variable {R W : Type}

theorem trimOdom_short (last : Nat) (l : List Nat) (h : l.length ≤ 2) : trimOdom last l = l := by
  match l, h with
  | [], _ => rfl
  | [_], _ => rfl
  | [_, _], _ => rfl

theorem trimOdom_two (last : Nat) (l : List Nat) (h : 2 ≤ l.length) : 2 ≤ (trimOdom last l).length := by
  induction l with
  | nil => simp at h
  | cons a r ih =>
    match r, ih with
    | [], _ => simp at h
    | [b], _ => simp [trimOdom]
    | b :: c :: r, ih =>
      unfold trimOdom
      split
      · exact ih (by simp)
      · simp

theorem queueAfter_ne (dur : Nat) (q : List (TPose R)) (p : TPose R) : queueAfter dur q p ≠ [] := by
  intro h
  have := trimPoses_getLast (p.time - dur) (q ++ [p])
  unfold queueAfter at h
  rw [h] at this
  simp at this

/-- Mode, queue and odometry after a call, with the plain call in the original machine. -/
theorem odoStep_plain {ops : RotOps R W} {s s' : ExtrapO R W} {op : ExOp R}
    (ho : s.odom.length ≤ 2) (h : odoStep ops s (.base op) = .ok s') :
    exStep ops s.ex op = .ok s'.ex ∧ s'.odom = s.odom := by
  cases op with
  | add p =>
    simp only [odoStep, addPoseO] at h
    rw [Outcome.bind_eq_ok] at h
    obtain ⟨ex, h1, h2⟩ := h
    simp only [Outcome.pure_eq, Outcome.ok.injEq] at h2
    subst h2
    refine ⟨h1, ?_⟩
    dsimp only
    rw [trimOdom_short _ _ ho, ite_self]
  | query t =>
    simp only [odoStep] at h
    rw [Outcome.bind_eq_ok] at h
    obtain ⟨ex, h1, h2⟩ := h
    simp only [Outcome.pure_eq, Outcome.ok.injEq] at h2
    subst h2
    exact ⟨h1, rfl⟩
  | imu t =>
    simp only [odoStep] at h
    rw [Outcome.bind_eq_ok] at h
    obtain ⟨ex, h1, h2⟩ := h
    simp only [Outcome.pure_eq, Outcome.ok.injEq] at h2
    subst h2
    exact ⟨h1, rfl⟩
  | rough v =>
    simp only [odoStep] at h
    rw [Outcome.bind_eq_ok] at h
    obtain ⟨ex, h1, h2⟩ := h
    simp only [Outcome.pure_eq, Outcome.ok.injEq] at h2
    subst h2
    exact ⟨h1, rfl⟩

/-- The same in the other direction. -/
theorem odoStep_of_plain {ops : RotOps R W} {s : ExtrapO R W} {ex : Extrap R W} {op : ExOp R}
    (ho : s.odom.length ≤ 2) (h : exStep ops s.ex op = .ok ex) :
    odoStep ops s (.base op) = .ok { ex := ex, odom := s.odom } := by
  cases op with
  | add p =>
    simp only [odoStep, addPoseO]
    rw [show addPose ops p s.ex = .ok ex from h, Outcome.bind_ok, trimOdom_short _ _ ho, ite_self]
    rfl
  | query t => simp only [odoStep, h, Outcome.bind_ok]; rfl
  | imu t => simp only [odoStep, h, Outcome.bind_ok]; rfl
  | rough v => simp only [odoStep, h, Outcome.bind_ok]; rfl

theorem gravityAt_state {t : Nat} {s s' : ExtrapO R W} (h : gravityAt t s = .ok s') : s' = s := by
  unfold gravityAt at h
  split at h
  · injection h with h; exact h.symm
  · split at h
    · cases h
    · rw [Outcome.bind_eq_ok] at h
      obtain ⟨_, _, h⟩ := h
      simp only [Outcome.pure_eq, Outcome.ok.injEq] at h
      exact h.symm

theorem exStep_queue_ne {ops : RotOps R W} {s s' : Extrap R W} {op : ExOp R}
    (h : exStep ops s op = .ok s') (hq : s.queue ≠ []) : s'.queue ≠ [] := by
  have := (exStep_queue h).2.2
  cases op with
  | add p => rw [this]; exact queueAfter_ne _ _ _
  | query t => rw [this]; exact hq
  | imu t => rw [this]; exact hq
  | rough v => rw [this]; exact hq

/-- Without an IMU: odometry messages and gravity estimates have no effect and never stop the
program. -/
theorem C116_ctrv (ops : RotOps R W) (s : Extrap R W) (hm : s.imuMode = false) (l : List (OdoOp R)) :
    odoRun ops { ex := s, odom := [] } l =
      (do let e ← exRun ops s (plainCalls l); return { ex := e, odom := [] }) := by
  induction l generalizing s with
  | nil => rfl
  | cons op r ih =>
    cases op with
    | odom t =>
      simp only [odoRun, odoStep, addOdomData, hm, if_true, plainCalls]
      exact ih s hm
    | gravity t =>
      simp only [odoRun, odoStep, gravityAt, hm, if_true, plainCalls]
      exact ih s hm
    | base op =>
      simp only [odoRun, plainCalls, exRun]
      cases h : exStep ops s op with
      | ok e =>
        rw [odoStep_of_plain (by simp) h, Outcome.bind_ok, Outcome.bind_ok]
        exact ih e (by rw [(exStep_queue h).2.1]; exact hm)
      | abort =>
        have : odoStep ops { ex := s, odom := [] } (.base op) = .abort := by
          cases op with
          | add p => simp only [odoStep, addPoseO]; rw [show addPose ops p s = .abort from h]; rfl
          | query t => simp only [odoStep, h]; rfl
          | imu t => simp only [odoStep, h]; rfl
          | rough v => simp only [odoStep, h]; rfl
        rw [this]; rfl
      | ub =>
        have : odoStep ops { ex := s, odom := [] } (.base op) = .ub := by
          cases op with
          | add p => simp only [odoStep, addPoseO]; rw [show addPose ops p s = .ub from h]; rfl
          | query t => simp only [odoStep, h]; rfl
          | imu t => simp only [odoStep, h]; rfl
          | rough v => simp only [odoStep, h]; rfl
        rw [this]; rfl

theorem odoRun_imu {ops : RotOps R W} (l : List (OdoOp R)) : ∀ s s' : ExtrapO R W,
    s.ex.imuMode = true → s.ex.queue ≠ [] → s.odom.length ≤ 1 → odoRun ops s l = .ok s' →
    s'.odom.length = s.odom.length + odomCount l ∧ s'.odom.length ≤ 1 ∧
      exRun ops s.ex (plainCalls l) = .ok s'.ex := by
  induction l with
  | nil =>
    intro s s' hm hq ho h
    injection h with h
    subst h
    exact ⟨rfl, ho, rfl⟩
  | cons op r ih =>
    intro s s' hm hq ho h
    rw [odoRun, Outcome.bind_eq_ok] at h
    obtain ⟨s1, h1, h2⟩ := h
    cases op with
    | base op =>
      obtain ⟨e1, e2⟩ := odoStep_plain (by omega) h1
      obtain ⟨i1, i2, i3⟩ := ih s1 s' (by rw [(exStep_queue e1).2.1]; exact hm)
        (exStep_queue_ne e1 hq) (by rw [e2]; exact ho) h2
      refine ⟨by rw [i1, e2]; rfl, i2, ?_⟩
      rw [plainCalls, exRun, e1, Outcome.bind_ok]
      exact i3
    | odom t =>
      simp only [odoStep, addOdomData, hm, Bool.true_eq_false, if_false] at h1
      obtain ⟨n, hn⟩ := Option.ne_none_iff_exists'.mp (show s.ex.queue.getLast? ≠ none by simpa using hq)
      rw [hn] at h1
      dsimp only at h1
      rw [Outcome.check_bind_eq_ok] at h1
      obtain ⟨-, h1⟩ := h1
      split at h1
      · rename_i hlt
        have hsh : (s.odom ++ [t]).length ≤ 2 := by simp; omega
        rw [trimOdom_short _ _ hsh] at h1 hlt
        simp only [Outcome.pure_eq, Outcome.ok.injEq] at h1
        subst h1
        obtain ⟨i1, i2, i3⟩ := ih ⟨s.ex, s.odom ++ [t]⟩ s' hm hq (by dsimp only; omega) h2
        refine ⟨?_, i2, i3⟩
        rw [i1]
        simp only [List.length_append, List.length_singleton, odomCount]
        omega
      · cases h1
    | gravity t =>
      have := gravityAt_state h1
      subst this
      exact ih s1 s' hm hq ho h2

/-- With an IMU, in every history that does not stop: at most one odometry message was given, and
the extrapolator, its predictions included, is the same as without odometry and gravity estimates. -/
theorem C116_same (ops : RotOps R W) (dur : Nat) (r0 r1 : R) (w0 : W) (t0 : Nat) (e0 : Extrap R W)
    (h0 : exImu ops dur r0 r1 w0 t0 = .ok e0) (l : List (OdoOp R)) (s : ExtrapO R W)
    (h : odoRun ops { ex := e0, odom := [] } l = .ok s) :
    odomCount l ≤ 1 ∧ exRun ops e0 (plainCalls l) = .ok s.ex := by
  obtain ⟨e, h1, h2, h3, -, -⟩ := exImu_ok (ops := ops) dur r0 r1 w0 t0
  rw [h0] at h1
  injection h1 with h1
  subst h1
  obtain ⟨i1, i2, i3⟩ := odoRun_imu l _ s h3 (h2.trk h3).1 (by simp) h
  refine ⟨?_, i3⟩
  rw [i1] at i2
  simpa using i2

/-- With an IMU, two odometry messages stop every history, wherever they stand. -/
theorem C116_odom_fails (ops : RotOps R W) (dur : Nat) (r0 r1 : R) (w0 : W) (t0 : Nat)
    (e0 : Extrap R W) (h0 : exImu ops dur r0 r1 w0 t0 = .ok e0) (l : List (OdoOp R))
    (h2 : 2 ≤ odomCount l) (s : ExtrapO R W) : odoRun ops { ex := e0, odom := [] } l ≠ .ok s := by
  intro h
  have := (C116_same ops dur r0 r1 w0 t0 e0 h0 l s h).1
  omega

/-- The second message: undefined if it is not older than the newest pose, a stop if it is. -/
theorem C116_second (t : Nat) (s : ExtrapO R W) (n : TPose R) (hm : s.ex.imuMode = true)
    (hn : s.ex.queue.getLast? = some n) (ho : 1 ≤ s.odom.length) :
    addOdomData t s = if n.time ≤ t then .ub else .abort := by
  simp only [addOdomData, hm, Bool.true_eq_false, if_false, hn]
  by_cases h : n.time ≤ t
  · rw [Outcome.check_pos h, if_pos h]
    simp only [Outcome.bind_ok]
    rw [if_neg]
    have := trimOdom_two n.time (s.odom ++ [t]) (by simp; omega)
    omega
  · rw [Outcome.check_neg h, if_neg h]; rfl

/-- The first message is taken if it is not older than the newest pose, and changes nothing else. -/
theorem C116_first (t : Nat) (s : ExtrapO R W) (n : TPose R) (hm : s.ex.imuMode = true)
    (hn : s.ex.queue.getLast? = some n) (ho : s.odom = []) :
    addOdomData t s = if n.time ≤ t then .ok { ex := s.ex, odom := [t] } else .abort := by
  simp only [addOdomData, hm, Bool.true_eq_false, if_false, hn, ho, List.nil_append]
  by_cases h : n.time ≤ t
  · rw [Outcome.check_pos h, if_pos h]
    simp [trimOdom]
  · rw [Outcome.check_neg h, if_neg h]; rfl

/-- The gravity estimate changes nothing, is defined for every time not before the newest pose, and
stops the program for an earlier one (the tracker stands at the newest pose). -/
theorem C116_gravity (t : Nat) (s : ExtrapO R W) (hd : DrvEx s.ex) (hm : s.ex.imuMode = true) :
    gravityAt t s = if lastPoseTime s.ex ≤ t then .ok s else .abort := by
  have htr := (hd.trk hm).2
  simp only [gravityAt, hm, Bool.true_eq_false, if_false, htr]
  by_cases h : lastPoseTime s.ex ≤ t
  · rw [advanceTracker_ok h hd.sorted, if_pos h]; rfl
  · rw [if_neg h]
    unfold advanceTracker
    rw [Outcome.check_neg h]; rfl

/-- A history with one odometry message that goes on, and the same with a second one. -/
example : ∃ (e0 : Extrap Rat Rat) (s : ExtrapO Rat Rat),
    exImu ⟨fun a b s => (b - a) / s, fun r w s => r + w * s, fun r _ _ => r⟩ 5 0 0 0 10 = .ok e0 ∧
    odoRun ⟨fun a b s => (b - a) / s, fun r w s => r + w * s, fun r _ _ => r⟩ { ex := e0, odom := [] }
      [.odom 12, .base (.add ⟨20, ⟨0, 0, 0⟩, 0⟩), .gravity 25, .base (.imu 26), .base (.query 30)] = .ok s ∧
    s.odom = [12] ∧
    odoRun ⟨fun a b s => (b - a) / s, fun r w s => r + w * s, fun r _ _ => r⟩ { ex := e0, odom := [] }
      [.odom 12, .base (.add ⟨20, ⟨0, 0, 0⟩, 0⟩), .odom 22] = .ub :=
  ⟨_, _, rfl, rfl, rfl, rfl⟩

end Verif
