import Verif.Proofs.Extrapolator
/-
C45 (pose extrapolation) and C55 (the mapping loop and its extrapolator).
-/
namespace Verif
variable {R W : Type}

/-- C45, the pose queue.  After any history of calls on a new extrapolator that adds poses with
set stamps that do not go back: the queue is an end part of the poses added, in the order they
were added; it holds the newest two (or the only one); if no pose is `dur` old nothing was
dropped; otherwise the oldest kept pose is the latest one that is at least `dur` old: every pose
after it is younger. -/
theorem C45_queue (ops : RotOps R W) (dur : Nat) (r0 : R) (w0 : W) (l : List (ExOp R))
    (s : Extrap R W) (hr : exRun ops (exCtrv dur r0 w0) l = .ok s)
    (hg : Spec.GoodStamps (Spec.addedPoses l)) :
    s.queue <:+ Spec.addedPoses l ∧
    min 2 (Spec.addedPoses l).length ≤ s.queue.length ∧
    ∀ newest, (Spec.addedPoses l).getLast? = some newest →
      ((∀ p ∈ Spec.addedPoses l, ¬ Spec.OldEnough dur newest.time p) →
        s.queue = Spec.addedPoses l) ∧
      (0 < dur → (∃ p ∈ Spec.addedPoses l, Spec.OldEnough dur newest.time p) →
        ∃ old rest, s.queue = old :: rest ∧ Spec.OldEnough dur newest.time old ∧
          ∀ q ∈ rest, ¬ Spec.OldEnough dur newest.time q) := by
  have hi := (exRun_queueInv l [] (exCtrv dur r0 w0) s dur rfl (by simpa using hg) (queueInv_nil dur) hr).1
  rw [List.nil_append] at hi
  refine ⟨hi.suffix, hi.two, ?_⟩
  intro newest hn
  have hfull : ¬ s.queue.length < (Spec.addedPoses l).length →
      s.queue = Spec.addedPoses l := fun h => hi.suffix.eq_of_length (by
        have := hi.suffix.length_le
        omega)
  constructor
  · intro hno
    apply hfull
    intro hlt
    obtain ⟨a, r, hq, ha⟩ := hi.dropped newest hn hlt
    exact hno a (hi.suffix.subset (by rw [hq]; simp)) ha
  · rintro hd ⟨p, hp, hold⟩
    have hrest := hi.rest newest hn hd
    by_cases hlt : s.queue.length < (Spec.addedPoses l).length
    · obtain ⟨a, r, hq, ha⟩ := hi.dropped newest hn hlt
      refine ⟨a, r, hq, ha, ?_⟩
      intro q hqr hold
      have := hrest q (by rw [hq]; exact hqr)
      unfold Spec.OldEnough at hold
      omega
    · have he := hfull hlt
      match hq : s.queue with
      | [] => rw [← he, hq] at hp; cases hp
      | a :: r =>
        have hy : ∀ q ∈ r, ¬ Spec.OldEnough dur newest.time q := by
          intro q hqr hold
          have := hrest q (by rw [hq]; exact hqr)
          unfold Spec.OldEnough at hold
          omega
        refine ⟨a, r, rfl, ?_, hy⟩
        rw [← he, hq] at hp
        rcases List.mem_cons.mp hp with rfl | hp
        · exact hold
        · exact absurd hold (hy p hp)

/-- Rotations for the examples: turns about one axis, in degrees. -/
def exOps : RotOps Rat Rat := ⟨fun a b s => (b - a) / s, fun r w s => r + w * s, fun r _ _ => r⟩

/-- Five poses added ten nanoseconds apart with a queue duration of fifteen: the third is the
latest one old enough. -/
example : (match exRun exOps (exCtrv 15 0 0)
    ([10, 20, 30, 40, 50].map fun t => ExOp.add ⟨t, ⟨t, 0, 0⟩, 0⟩) with
    | .ok s => s.queue.map (·.time)
    | _ => []) = [30, 40, 50] := by decide +kernel

/-- C45, early queries.  Whatever was called before, a query with a stamp before the newest added
pose stops the process, and one before any pose was added reads an empty queue. -/
theorem C45_early (ops : RotOps R W) (dur : Nat) (r0 : R) (w0 : W) (l : List (ExOp R))
    (s : Extrap R W) (hr : exRun ops (exCtrv dur r0 w0) l = .ok s) (t : Nat) :
    (∀ newest, (Spec.addedPoses l).getLast? = some newest → t < newest.time →
      extrapolate ops t s = .abort) ∧
    (Spec.addedPoses l = [] → extrapolate ops t s = .ub) := by
  have hl := exRun_last l [] _ s (by rfl) hr
  rw [List.nil_append] at hl
  constructor
  · intro n hn ht
    exact extrapolate_early ops (hl.trans hn) ht
  · intro h
    rw [h] at hl
    unfold extrapolate
    rw [hl]
    rfl

/-- C45, at the newest pose, the part that holds.  In the constant velocity mode, if no query made
before the newest pose was added, and no earlier pose, has a stamp the extrapolator takes for the
same one, then a query at the stamp of the newest pose returns that pose, however often it is
asked and whatever is asked for other stamps in between. -/
theorem C45_newest_partial (ops : RotOps R W) (h0 : ∀ r w, ops.turn r w 0 = r) (dur : Nat)
    (r0 : R) (w0 : W) (pre post : List (ExOp R)) (n : TPose R) (s : Extrap R W)
    (hr : exRun ops (exCtrv dur r0 w0) (pre ++ [.add n] ++ post) = .ok s)
    (hq : ∀ op ∈ pre, ∀ u, Spec.queryStamp op = some u → Spec.Apart u n.time)
    (hp : ∀ p, ExOp.add p ∈ pre → Spec.Apart p.time n.time)
    (hpost : ∀ op ∈ post, (∀ p, op ≠ .add p) ∧
      ∀ u, Spec.queryStamp op = some u → u = n.time ∨ Spec.Apart u n.time) :
    ∃ s', extrapolate ops n.time s = .ok (n, s') := by
  rw [exRun_append] at hr
  obtain ⟨m, hm, hpo⟩ := hr
  rw [exRun_append] at hm
  obtain ⟨m0, hm0, hm⟩ := hm
  simp only [exRun] at hm
  rw [Outcome.bind_eq_ok] at hm
  obtain ⟨m1, h1, h2⟩ := hm
  simp only [Outcome.ok.injEq] at h2
  subst h2
  have hc0 : CacheApart n.time m0 :=
    exRun_cacheApart pre _ m0 hm0 (Or.inl rfl) hq hp
  have hf := addPose_fields h1
  have hmode : ∀ (l : List (ExOp R)) (a b : Extrap R W), exRun ops a l = .ok b →
      b.imuMode = a.imuMode := by
    intro l
    induction l with
    | nil =>
      intro a b h
      simp only [exRun, Outcome.ok.injEq] at h
      rw [h]
    | cons op l ih =>
      intro a b h
      simp only [exRun] at h
      rw [Outcome.bind_eq_ok] at h
      obtain ⟨c, hc, h⟩ := h
      rw [ih c b h, (exStep_queue hc).2.1]
  have hmm : m1.imuMode = false := hf.2.2.1.trans (hmode pre _ m0 hm0)
  have hlast : m1.queue.getLast? = some n := by
    rw [hf.1]
    unfold queueAfter
    rw [trimPoses_getLast]
    simp
  have hcache : nsEq m1.cache.time n.time = true → m1.cache = n := by
    rw [hf.2.2.2]
    split
    · intro _; rfl
    · rename_i hne
      intro h
      rw [hc0.resolve_left hne] at h
      cases h
  have hqa : ∀ op ∈ post, QuietAfter n.time op := by
    intro op hop
    have := hpost op hop
    cases op with
    | add p => exact absurd rfl (this.1 p)
    | query u => exact this.2 u rfl
    | imu u => exact trivial
    | rough v => exact trivial
  obtain ⟨hms, hns, hcs⟩ := exRun_quiet h0 post m1 s hmm hlast hcache hqa hpo
  by_cases hc : nsEq s.cache.time n.time = true
  · refine ⟨s, ?_⟩
    rw [extrapolate_cached ops hns (Nat.le_refl _) hc, hcs hc]
  · refine ⟨{ s with cache := ctrvPose ops s n n.time }, ?_⟩
    rw [extrapolate_ctrv ops hms hns (Nat.le_refl _) (by simpa using hc), ctrvPose_now h0]

/-- The pose a query returns, if it returns one. -/
def queryView (o : Outcome (TPose Rat × Extrap Rat Rat)) : Option (TPose Rat) :=
  match o with
  | .ok r => some r.1
  | _ => none

/-- The query of the last state of a history. -/
def askAfter (dur : Nat) (l : List (ExOp Rat)) (t : Nat) : Option (TPose Rat) :=
  match exRun exOps (exCtrv dur 0 0) l with
  | .ok s => queryView (extrapolate exOps t s)
  | _ => none

example : ∀ r w, exOps.turn r w 0 = r := by intro r w; simp [exOps]

/-- A history that meets the hypotheses: two poses, a query between them at another stamp, a
query of a later stamp afterwards. -/
example : askAfter 5 ([.add ⟨10, ⟨0, 0, 0⟩, 0⟩, .query 15] ++ [.add ⟨20, ⟨1, 2, 3⟩, 7⟩] ++
    [.query 30, .query 20]) 20 = some ⟨20, ⟨1, 2, 3⟩, 7⟩ := by decide +kernel

/-- C45, at the newest pose, is false in general: the pose predicted for a stamp is kept when a
pose with that very stamp is added, and a query at that stamp returns the old prediction.  (The
mapping thread asks for the stamp of a cloud and then adds the matched pose at that stamp,
map_builder.cc:304 and 357.) -/
theorem C45_newest_fails : ¬ (∀ (dur : Nat) (pre : List (ExOp Rat)) (n : TPose Rat)
    (s : Extrap Rat Rat), exRun exOps (exCtrv dur 0 0) (pre ++ [.add n]) = .ok s →
      ∃ s', extrapolate exOps n.time s = .ok (n, s')) := by
  intro h
  have hrun : ∃ s, exRun exOps (exCtrv 5 0 0)
      ([.add ⟨10, ⟨0, 0, 0⟩, 0⟩, .query 20] ++ [.add ⟨20, ⟨1, 2, 3⟩, 7⟩]) = .ok s ∧
      queryView (extrapolate exOps 20 s) = some ⟨20, ⟨0, 0, 0⟩, 0⟩ := by
    have hv : askAfter 5 ([.add ⟨10, ⟨0, 0, 0⟩, 0⟩, .query 20] ++ [.add ⟨20, ⟨1, 2, 3⟩, 7⟩]) 20 =
      some ⟨20, ⟨0, 0, 0⟩, 0⟩ := by decide +kernel
    unfold askAfter at hv
    cases hx : exRun exOps (exCtrv 5 0 0)
      ([.add ⟨10, ⟨0, 0, 0⟩, 0⟩, .query 20] ++ [.add ⟨20, ⟨1, 2, 3⟩, 7⟩]) with
    | ok s => rw [hx] at hv; exact ⟨s, rfl, hv⟩
    | abort => rw [hx] at hv; cases hv
    | ub => rw [hx] at hv; cases hv
  obtain ⟨s, hs, hq⟩ := hrun
  obtain ⟨s', hs'⟩ := h 5 _ _ s hs
  rw [show extrapolate exOps 20 s = _ from hs'] at hq
  simp only [queryView, Option.some.injEq, TPose.mk.injEq, Vec3.mk.injEq] at hq
  have := hq.2.1.1
  norm_num at this

/-- C45, prediction.  If all added poses lie on a straight line travelled with constant velocity,
their stamps are set and do not go back, and they span at least the queue duration, then in the
constant velocity mode every query not before the newest pose, with a stamp nothing is cached
for, returns the position on that line at the queried time. -/
theorem C45_line (ops : RotOps R W) (dur : Nat) (hd : 0 < dur) (r0 : R) (w0 : W)
    (pre post : List (ExOp R)) (n : TPose R) (s : Extrap R W) (x0 v : Vec3 Rat)
    (hr : exRun ops (exCtrv dur r0 w0) (pre ++ [.add n] ++ post) = .ok s)
    (hg : Spec.GoodStamps (Spec.addedPoses (pre ++ [.add n])))
    (hline : ∀ p ∈ Spec.addedPoses (pre ++ [.add n]), p.pos = Spec.onLine x0 v p.time)
    (hspan : ∃ p ∈ Spec.addedPoses pre, Spec.OldEnough dur n.time p)
    (hpost : ∀ op ∈ post, (∃ u, op = .query u) ∨ ∃ u, op = .imu u)
    (t : Nat) (ht : n.time ≤ t) (hc : Spec.Apart s.cache.time t) :
    ∃ r s', extrapolate ops t s = .ok (⟨t, Spec.onLine x0 v t, r⟩, s') := by
  rw [exRun_append] at hr
  obtain ⟨m, hm, hpo⟩ := hr
  have hm' := hm
  rw [exRun_append] at hm'
  obtain ⟨m0, hm0, hm1⟩ := hm'
  simp only [exRun] at hm1
  rw [Outcome.bind_eq_ok] at hm1
  obtain ⟨m1, h1, h2⟩ := hm1
  simp only [Outcome.ok.injEq] at h2
  subst h2
  have hg0 : Spec.GoodStamps (Spec.addedPoses pre) := by
    rw [addedPoses_append] at hg
    exact goodStamps_prefix hg
  have h0 := exRun_queueInv pre [] (exCtrv dur r0 w0) m0 dur rfl (by simpa using hg0) (queueInv_nil dur) hm0
  rw [List.nil_append] at h0
  have hmode : m0.imuMode = false := h0.2.2
  obtain ⟨p, hp, hold⟩ := hspan
  have hne : m0.queue ≠ [] := by
    intro hq
    have h3 := h0.1.two
    have h4 : 0 < (Spec.addedPoses pre).length := List.length_pos_of_mem hp
    rw [hq] at h3
    rw [List.length_nil] at h3
    omega
  obtain ⟨_, _, hlast⟩ := C45_queue ops dur r0 w0 (pre ++ [.add n]) m1 hm hg
  obtain ⟨old, rest, hq, hoe, hrest⟩ := (hlast n (by simp [addedPoses_append,
    Spec.addedPoses])).2 hd ⟨p, by rw [addedPoses_append]; exact List.mem_append_left _ hp, hold⟩
  have hf := addPose_fields h1
  have hgl : m1.queue.getLast? = some n := by
    rw [hf.1]
    unfold queueAfter
    rw [trimPoses_getLast]
    simp
  have hvel : m1.linVel = v := by
    have hu := addPose_ctrv_vel hmode hne h1
    have hqq : queueAfter m0.dur m0.queue n = m1.queue := hf.1.symm
    rw [hqq] at hu
    have hlen : 2 ≤ m1.queue.length := by
      have := (C45_queue ops dur r0 w0 (pre ++ [.add n]) m1 hm hg).2.1
      rw [addedPoses_append] at this
      have h3 : 0 < (Spec.addedPoses pre).length := List.length_pos_of_mem hp
      simp only [List.length_append, Spec.addedPoses, List.length_cons, List.length_nil] at this
      omega
    have hdur : m0.dur = dur := h0.2.1
    unfold Spec.OldEnough at hoe
    have hlv := updateVel_lin (ops := ops) (s := { m0 with queue := m1.queue }) (old := old)
      (new := n) (by show m1.queue.head? = _; rw [hq]; rfl) hgl hlen
      (by show m0.dur ≤ _; rw [hdur]; omega)
    rw [← hu] at hlv
    have hsuf := (C45_queue ops dur r0 w0 (pre ++ [.add n]) m1 hm hg).1
    have hol := hline old (hsuf.subset (by rw [hq]; simp))
    have hnl := hline n (by simp [addedPoses_append, Spec.addedPoses])
    rw [hlv, hol, hnl]
    exact vecSubDiv_line x0 v (by omega)
  obtain ⟨hv, hqs, hms⟩ := exRun_linVel post m1 s hpost hpo
  have hgs : s.queue.getLast? = some n := by rw [hqs]; exact hgl
  have hmm : s.imuMode = false := by rw [hms, hf.2.2.1]; exact hmode
  refine ⟨ops.turn n.rot s.angVel (nsToSec (t - n.time)),
    { s with cache := ctrvPose ops s n t }, ?_⟩
  rw [extrapolate_ctrv ops hmm hgs ht (nsEq_false_iff.mpr hc)]
  have hnl := hline n (by simp [addedPoses_append, Spec.addedPoses])
  have : ctrvPose ops s n t = ⟨t, Spec.onLine x0 v t,
      ops.turn n.rot s.angVel (nsToSec (t - n.time))⟩ := by
    unfold ctrvPose
    rw [hv, hvel, hnl, vecAddScaled_line x0 v ht]
  rw [this]

/-- C45, prediction of the orientation.  `rotAt` is an orientation changing at a constant rate: turned on
from its value at `b`, with the rate seen between `a` and `b`, it has its value at `t`.  If all added poses
have that orientation, then in the constant velocity mode every query as in `C45_line` returns the
orientation at the queried time. -/
theorem C45_turn (ops : RotOps R W) (dur : Nat) (hd : 0 < dur) (r0 : R) (w0 : W)
    (pre post : List (ExOp R)) (n : TPose R) (s : Extrap R W) (rotAt : Nat → R)
    (hturn : ∀ a b t : Nat, a < b → b ≤ t →
      ops.turn (rotAt b) (ops.angVel (rotAt a) (rotAt b) (((b - a : Nat) : Rat) / 1000000000))
        (((t - b : Nat) : Rat) / 1000000000) = rotAt t)
    (hr : exRun ops (exCtrv dur r0 w0) (pre ++ [.add n] ++ post) = .ok s)
    (hg : Spec.GoodStamps (Spec.addedPoses (pre ++ [.add n])))
    (hrot : ∀ p ∈ Spec.addedPoses (pre ++ [.add n]), p.rot = rotAt p.time)
    (hspan : ∃ p ∈ Spec.addedPoses pre, Spec.OldEnough dur n.time p)
    (hpost : ∀ op ∈ post, (∃ u, op = .query u) ∨ ∃ u, op = .imu u)
    (t : Nat) (ht : n.time ≤ t) (hc : Spec.Apart s.cache.time t) :
    ∃ pos s', extrapolate ops t s = .ok (⟨t, pos, rotAt t⟩, s') := by
  rw [exRun_append] at hr
  obtain ⟨m, hm, hpo⟩ := hr
  have hm' := hm
  rw [exRun_append] at hm'
  obtain ⟨m0, hm0, hm1⟩ := hm'
  simp only [exRun] at hm1
  rw [Outcome.bind_eq_ok] at hm1
  obtain ⟨m1, h1, h2⟩ := hm1
  simp only [Outcome.ok.injEq] at h2
  subst h2
  have hg0 : Spec.GoodStamps (Spec.addedPoses pre) := by
    rw [addedPoses_append] at hg
    exact goodStamps_prefix hg
  have h0 := exRun_queueInv pre [] (exCtrv dur r0 w0) m0 dur rfl (by simpa using hg0) (queueInv_nil dur) hm0
  rw [List.nil_append] at h0
  have hmode : m0.imuMode = false := h0.2.2
  obtain ⟨p, hp, hold⟩ := hspan
  have hne : m0.queue ≠ [] := by
    intro hq
    have h3 := h0.1.two
    have h4 : 0 < (Spec.addedPoses pre).length := List.length_pos_of_mem hp
    rw [hq] at h3
    rw [List.length_nil] at h3
    omega
  obtain ⟨_, _, hlast⟩ := C45_queue ops dur r0 w0 (pre ++ [.add n]) m1 hm hg
  obtain ⟨old, rest, hq, hoe, hrest⟩ := (hlast n (by simp [addedPoses_append,
    Spec.addedPoses])).2 hd ⟨p, by rw [addedPoses_append]; exact List.mem_append_left _ hp, hold⟩
  have hf := addPose_fields h1
  have hgl : m1.queue.getLast? = some n := by
    rw [hf.1]
    unfold queueAfter
    rw [trimPoses_getLast]
    simp
  have hvel : ∃ u < n.time, m1.angVel = ops.angVel (rotAt u) (rotAt n.time) (nsToSec (n.time - u)) := by
    have hu := addPose_ctrv_vel hmode hne h1
    have hqq : queueAfter m0.dur m0.queue n = m1.queue := hf.1.symm
    rw [hqq] at hu
    have hlen : 2 ≤ m1.queue.length := by
      have := (C45_queue ops dur r0 w0 (pre ++ [.add n]) m1 hm hg).2.1
      rw [addedPoses_append] at this
      have h3 : 0 < (Spec.addedPoses pre).length := List.length_pos_of_mem hp
      simp only [List.length_append, Spec.addedPoses, List.length_cons, List.length_nil] at this
      omega
    have hdur : m0.dur = dur := h0.2.1
    unfold Spec.OldEnough at hoe
    have hlv := updateVel_ang (ops := ops) (s := { m0 with queue := m1.queue }) (old := old)
      (new := n) (by show m1.queue.head? = _; rw [hq]; rfl) hgl hlen
      (by show m0.dur ≤ _; rw [hdur]; omega)
    rw [← hu] at hlv
    have hsuf := (C45_queue ops dur r0 w0 (pre ++ [.add n]) m1 hm hg).1
    have hol := hrot old (hsuf.subset (by rw [hq]; simp))
    have hnl := hrot n (by simp [addedPoses_append, Spec.addedPoses])
    exact ⟨old.time, by omega, by rw [hlv, hol, hnl]⟩
  obtain ⟨u, hu, hvel⟩ := hvel
  have hav := exRun_angVel post m1 s hpost hpo
  obtain ⟨hv, hqs, hms⟩ := exRun_linVel post m1 s hpost hpo
  have hgs : s.queue.getLast? = some n := by rw [hqs]; exact hgl
  have hmm : s.imuMode = false := by rw [hms, hf.2.2.1]; exact hmode
  refine ⟨(ctrvPose ops s n t).pos, { s with cache := ctrvPose ops s n t }, ?_⟩
  rw [extrapolate_ctrv ops hmm hgs ht (nsEq_false_iff.mpr hc)]
  have hnl := hrot n (by simp [addedPoses_append, Spec.addedPoses])
  have hrt : (ctrvPose ops s n t).rot = rotAt t := by
    show ops.turn n.rot s.angVel (nsToSec (t - n.time)) = _
    rw [hav, hvel, hnl]
    exact hturn u n.time t hu ht
  have : ctrvPose ops s n t = ⟨t, (ctrvPose ops s n t).pos, rotAt t⟩ := by rw [← hrt]; rfl
  rw [this]

/-- Two poses a second apart, ten units apart on one axis: half a second later, five more. -/
example : askAfter 1000000 [.add ⟨1000000000, ⟨10, 0, 0⟩, 0⟩, .add ⟨2000000000, ⟨20, 0, 0⟩, 4⟩]
    2500000000 = some ⟨2500000000, ⟨25, 0, 0⟩, 6⟩ := by decide +kernel

/-- Headings turning by `w` a second meet the law of `C45_turn` in the plane. -/
example (c w : Rat) (a b t : Nat) (h : a < b) (ht : b ≤ t) :
    exOps.turn (c + w * ((b : Rat) / 1000000000))
      (exOps.angVel (c + w * ((a : Rat) / 1000000000)) (c + w * ((b : Rat) / 1000000000))
        (((b - a : Nat) : Rat) / 1000000000)) (((t - b : Nat) : Rat) / 1000000000) =
      c + w * ((t : Rat) / 1000000000) := by
  have h1 : ((b : Rat) - a) ≠ 0 := by
    have : (a : Rat) < b := by exact_mod_cast h
    linarith
  rw [Nat.cast_sub (le_of_lt h), Nat.cast_sub ht]
  simp only [exOps]
  field_simp
  ring

/-! ### C55: the mapping loop -/

theorem drvRun_ok {ops : RotOps R W} {r0 : R} {w0 : W} (l : List (DrvEvent R)) :
    ∀ (d : Driver R W) (now : Nat), DrvInv d now → Spec.ImuInTime ops r0 w0 d now l →
      ∃ d', drvRun ops r0 w0 d l = .ok d' := by
  induction l with
  | nil => intro d _ _ _; exact ⟨d, rfl⟩
  | cons e l ih =>
    intro d now hi ht
    have key : ∃ now' d', drvStep ops r0 w0 d e = .ok d' ∧ DrvInv d' now' ∧
        Spec.ImuInTime ops r0 w0 d' now' l := by
      cases e with
      | arrive t =>
        obtain ⟨d', h1, h2⟩ := drvStep_ok (ops := ops) (r0 := r0) (w0 := w0) hi (.arrive t) now
          (Nat.le_refl _) (by intro _ _ h; cases h)
        exact ⟨now, d', h1, h2, ht d' h1⟩
      | imu t r1 =>
        obtain ⟨hn, hl, hnext⟩ := ht
        obtain ⟨d', h1, h2⟩ := drvStep_ok (ops := ops) (r0 := r0) (w0 := w0) hi (.imu t r1) t hn
          (by
            intro t' r' h
            simp only [DrvEvent.imu.injEq] at h
            obtain ⟨rfl, rfl⟩ := h
            exact ⟨rfl, hl⟩)
        exact ⟨t, d', h1, h2, hnext d' h1⟩
      | process pos rot =>
        obtain ⟨d', h1, h2⟩ := drvStep_ok (ops := ops) (r0 := r0) (w0 := w0) hi
          (.process pos rot) now (Nat.le_refl _) (by intro _ _ h; cases h)
        exact ⟨now, d', h1, h2, ht d' h1⟩
    obtain ⟨now', d', h1, h2, h3⟩ := key
    obtain ⟨d'', h4⟩ := ih d' now' h2 h3
    exact ⟨d'', by simp only [drvRun]; rw [h1]; exact h4⟩

theorem driverStart_inv (useImu : Bool) (dur : Nat) (r0 : R) (w0 : W) :
    DrvInv (Spec.driverStart useImu dur r0 w0) 0 := by
  cases useImu with
  | true =>
    refine ⟨?_, ?_, ?_, ?_, ?_⟩
    · intro s h; cases h
    · intro _; exact ⟨rfl, rfl, rfl⟩
    · intro s h; cases h
    · intro _ s h; cases h
    · intro h; cases h
  | false =>
    have hx : (Spec.driverStart false dur r0 w0).ex = some (exCtrv dur r0 w0) := rfl
    refine ⟨?_, ?_, ?_, ?_, ?_⟩
    · intro s h
      rw [hx] at h
      simp only [Option.some.injEq] at h
      subst h; rfl
    · intro h; rw [hx] at h; cases h
    · intro s h
      rw [hx] at h
      simp only [Option.some.injEq] at h
      subst h
      refine ⟨⟨by simp [exCtrv], ?_, ?_⟩, by simp [exCtrv]⟩
      · intro h; cases h
      · intro h; cases h
    · intro _ s _ t ht
      cases ht
    · intro h; cases h

/-- C55 without the IMU: whatever clouds arrive, with whatever stamps, in whatever order, and
whenever the mapping thread takes one and whatever pose it matches, the extrapolator never stops
the process and never reads a queue that is empty. -/
theorem C55_clouds (ops : RotOps R W) (dur : Nat) (r0 : R) (w0 : W) (l : List (DrvEvent R)) :
    ∃ d, drvRun ops r0 w0 (Spec.driverStart false dur r0 w0) l = .ok d := by
  suffices h : ∀ (l : List (DrvEvent R)) (d : Driver R W) (now : Nat), d.useImu = false →
      DrvInv d now → ∃ d', drvRun ops r0 w0 d l = .ok d' from
    h l _ 0 rfl (driverStart_inv false dur r0 w0)
  intro l
  induction l with
  | nil => intro d _ _ _; exact ⟨d, rfl⟩
  | cons e l ih =>
    intro d now hu hi
    have key : ∃ d', drvStep ops r0 w0 d e = .ok d' ∧ DrvInv d' now ∧ d'.useImu = false := by
      cases e with
      | imu t r1 =>
        refine ⟨d, ?_, hi, hu⟩
        simp only [drvStep]
        rw [if_pos hu]
      | arrive t =>
        obtain ⟨d', h1, h2⟩ := drvStep_ok (ops := ops) (r0 := r0) (w0 := w0) hi (.arrive t) now
          (Nat.le_refl _) (by intro _ _ h; cases h)
        refine ⟨d', h1, h2, ?_⟩
        simp only [drvStep] at h1
        split at h1
        · split at h1 <;> (simp only [Outcome.ok.injEq] at h1; subst h1; exact hu)
        · split at h1 <;> (simp only [Outcome.ok.injEq] at h1; subst h1; exact hu)
      | process pos rot =>
        obtain ⟨d', h1, h2⟩ := drvStep_ok (ops := ops) (r0 := r0) (w0 := w0) hi
          (.process pos rot) now (Nat.le_refl _) (by intro _ _ h; cases h)
        refine ⟨d', h1, h2, ?_⟩
        simp only [drvStep] at h1
        split at h1
        · simp only [Outcome.ok.injEq] at h1; subst h1; exact hu
        · split at h1
          · simp only [Outcome.ok.injEq] at h1; subst h1; exact hu
          · split at h1
            · rw [Outcome.bind_eq_ok] at h1
              obtain ⟨_, _, h1⟩ := h1
              simp only [Outcome.pure_eq, Outcome.ok.injEq] at h1
              subst h1; exact hu
            · split at h1
              · simp only [Outcome.ok.injEq] at h1; subst h1; exact hu
              · rw [Outcome.bind_eq_ok] at h1
                obtain ⟨_, _, h1⟩ := h1
                rw [Outcome.bind_eq_ok] at h1
                obtain ⟨_, _, h1⟩ := h1
                simp only [Outcome.pure_eq, Outcome.ok.injEq] at h1
                subst h1; exact hu
    obtain ⟨d', h1, h2, h3⟩ := key
    obtain ⟨d'', h4⟩ := ih d' now h3 h2
    exact ⟨d'', by simp only [drvRun]; rw [h1]; exact h4⟩

/-- C55: until the first cloud has been taken, every arriving cloud is kept, whatever its stamp, and the
clouds are taken in the order of their arrival. -/
theorem C55_none_lost (ops : RotOps R W) (dur : Nat) (r0 : R) (w0 : W) (ts : List Nat) :
    ∃ d, drvRun ops r0 w0 (Spec.driverStart false dur r0 w0) (ts.map .arrive) = .ok d ∧
      d.waiting = ts := by
  suffices h : ∀ (ts : List Nat) (d : Driver R W) (s : Extrap R W), d.ex = some s → s.queue = [] →
      ∃ d', drvRun ops r0 w0 d (ts.map .arrive) = .ok d' ∧ d'.waiting = d.waiting ++ ts by
    obtain ⟨d, h1, h2⟩ := h ts (Spec.driverStart false dur r0 w0) (exCtrv dur r0 w0) rfl rfl
    exact ⟨d, h1, by rw [h2]; rfl⟩
  intro ts
  induction ts with
  | nil => intro d s _ _; exact ⟨d, rfl, by simp⟩
  | cons t ts ih =>
    intro d s hs hq
    obtain ⟨d', h1, h2⟩ := ih { d with waiting := d.waiting ++ [t] } s hs hq
    refine ⟨d', ?_, by rw [h2]; simp⟩
    have hl : lastPoseTime s = 0 := by unfold lastPoseTime; rw [hq]; rfl
    rw [List.map_cons, drvRun]
    have : drvStep ops r0 w0 d (.arrive t) = .ok { d with waiting := d.waiting ++ [t] } := by
      unfold drvStep
      rw [hs]
      dsimp only
      rw [hl, if_neg (by omega)]
    rw [this]
    exact h1

/-- C55 with the IMU, the part that holds: the same, as long as every IMU message carries a stamp
that is neither before the previous IMU message's nor before the newest matched cloud's. -/
theorem C55_imu_partial (ops : RotOps R W) (dur : Nat) (r0 : R) (w0 : W)
    (l : List (DrvEvent R))
    (ht : Spec.ImuInTime ops r0 w0 (Spec.driverStart true dur r0 w0) 0 l) :
    ∃ d, drvRun ops r0 w0 (Spec.driverStart true dur r0 w0) l = .ok d :=
  drvRun_ok l _ 0 (driverStart_inv true dur r0 w0) ht

/-- What a run of the driver leaves: stopped or not, and the stamp of the newest pose. -/
def drvView (o : Outcome (Driver Rat Rat)) : Option Nat :=
  match o with
  | .ok d => d.ex.map lastPoseTime
  | _ => none

/-- A run with clouds out of order: stamps 30, 10, 40 arrive; the second is passed over. -/
example : drvView (drvRun exOps 0 0 (Spec.driverStart false 5 0 0)
    [.arrive 30, .arrive 10, .process ⟨0, 0, 0⟩ 0, .process ⟨1, 0, 0⟩ 0, .arrive 40,
      .process ⟨2, 0, 0⟩ 0]) = some 40 := by decide +kernel

/-- A run with the IMU on that meets the hypothesis. -/
example : drvView (drvRun exOps 0 0 (Spec.driverStart true 5 0 0)
    [.arrive 5, .imu 10 1, .imu 12 1, .arrive 30, .process ⟨0, 0, 0⟩ 0, .imu 35 1, .arrive 40,
      .imu 45 1, .process ⟨1, 0, 0⟩ 0]) = some 40 := by decide +kernel

/-- C55 with the IMU is false in general: an IMU message that comes in with a stamp before that of
a cloud already matched stops the process, although the IMU's own stamps are in order
(pose_extrapolator.cc:129-130). -/
theorem C55_late_imu_fails : ¬ (∀ (l : List (DrvEvent Rat)),
    (l.filterMap fun e => match e with | .imu t _ => some t | _ => none).Pairwise (· ≤ ·) →
    ∃ d, drvRun exOps 0 0 (Spec.driverStart true 5 0 0) l = .ok d) := by
  intro h
  obtain ⟨d, hd⟩ := h [.imu 10 0, .arrive 30, .process ⟨0, 0, 0⟩ 0, .imu 25 0] (by decide)
  have : drvRun exOps 0 0 (Spec.driverStart true 5 0 0)
      [.imu 10 0, .arrive 30, .process ⟨0, 0, 0⟩ 0, .imu 25 0] = .abort := by rfl
  rw [this] at hd
  cases hd

end Verif
