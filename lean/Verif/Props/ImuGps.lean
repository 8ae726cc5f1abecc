import Verif.Proofs.ImuGps
/-
C99. Fusing IMU messages with GPS positions.
-/
namespace Verif
open Spec
variable {S B : Type}
variable {predict : S → B → List ImuPiece → S}
variable {opt : List (TrackFactor S B) → List (TrackKey × TrackValue S B) → Nat → S × B}

/-- **C99 (every measurement once, in its interval).** Whatever the history of IMU messages and GPS positions, if
the program has not stopped then its graph is the three priors and one node per GPS position, in order: node `k` is
tied to node `k-1` by exactly the IMU measurements that arrived between the two positions, in their order, and to
its own position.  The measurements after the last position are those kept for the next node. -/
theorem C99_chain (tc f : Rat) (junk : Vec3 Rat) (s0 : S) (b0 : B) (es : List TrackEvent) (t : ImuGps S B)
    (h : ImuGps.run predict opt (ImuGps.new tc f junk s0 b0) es = .ok t) :
    ∃ parts : List (List ImuPiece × B × Vec3 Rat),
      t.graph = [.priorPose 0, .priorVel 0 junk, .priorBias 0] ++ trackChain tc 0 parts ∧
      parts.map (fun p => p.2.2) = fixesOf es ∧
      parts.map (fun p => p.1.map (fun m => (m.acc, m.gyr))) = (cutAtFixes es).1 ∧
      t.pieces.map (fun m => (m.acc, m.gyr)) = (cutAtFixes es).2 := by
  obtain ⟨parts, c1, c2, c3, c4, -, -⟩ := (track_inv tc f junk s0 b0 es t h).chain
  exact ⟨parts, c1, c2, c3, c4⟩

/-- **C99 (the whole time, once).** When no message is stamped zero (or one nanosecond), the measurements are
integrated over the time since the message before, the first one over a period: together over the time from the
first message to the last, and one period. -/
theorem C99_time (tc f : Rat) (junk : Vec3 Rat) (s0 : S) (b0 : B) (es : List TrackEvent) (t : ImuGps S B)
    (h : ImuGps.run predict opt (ImuGps.new tc f junk s0 b0) es = .ok t)
    (hs : ∀ s ∈ imuStampsOf es, 1 < s) (first : Nat) (rest : List Nat) (hf : imuStampsOf es = first :: rest) :
    ∃ parts : List (List ImuPiece × B × Vec3 Rat),
      t.graph = [.priorPose 0, .priorVel 0 junk, .priorBias 0] ++ trackChain tc 0 parts ∧
      (parts.flatMap (fun p => p.1) ++ t.pieces).map ImuPiece.dt = stampSteps (1 / f) (first :: rest) ∧
      ((parts.flatMap (fun p => p.1) ++ t.pieces).map ImuPiece.dt).sum =
        1 / f + (((first :: rest).getLastD 0 : Nat) - (first : Rat)) / 1000000000 := by
  obtain ⟨parts, c1, -, -, -, -, c6⟩ := (track_inv tc f junk s0 b0 es t h).chain
  have c6 := c6 hs
  rw [hf] at c6
  exact ⟨parts, c1, c6, by rw [c6, stampSteps_sum]⟩

/-- **C99 (what is accepted).** A GPS position never stops the program.  An IMU message stops it exactly when it
is not later than the message before it, unless that one is stamped zero (or one nanosecond).  Nothing else can go
wrong, and nothing is undefined. -/
theorem C99_accepted (tc f : Rat) (junk : Vec3 Rat) (s0 : S) (b0 : B) (es : List TrackEvent) :
    ((∃ t, ImuGps.run predict opt (ImuGps.new tc f junk s0 b0) es = .ok t) ↔
      List.IsChain (fun a b => a ≤ 1 ∨ a < b) (imuStampsOf es)) ∧
    ImuGps.run predict opt (ImuGps.new tc f junk s0 b0) es ≠ .ub :=
  ⟨track_ok_iff tc f junk s0 b0 es, track_ne_ub tc f junk s0 b0 es⟩

/-- **C99 (nodes and guesses).** There is one pose, one velocity and one bias for each node, none twice; each new
node starts from the state carried forward, with what was measured since, from the last optimised one, and the
next interval starts with the optimised bias. -/
theorem C99_nodes (tc f : Rat) (junk : Vec3 Rat) (s0 : S) (b0 : B) (es : List TrackEvent) (t : ImuGps S B)
    (h : ImuGps.run predict opt (ImuGps.new tc f junk s0 b0) es = .ok t) :
    t.values.map Prod.fst = trackKeys ((fixesOf es).length + 1) ∧
    (t.values.map Prod.fst).Nodup ∧
    ∀ p, ∃ t', t.addGps predict opt p = .ok t' ∧
      t'.values = t.values ++
        [(.pose ((fixesOf es).length + 1), .poseOf (predict t.prevState t.prevBias t.pieces)),
         (.vel ((fixesOf es).length + 1), .velOf (predict t.prevState t.prevBias t.pieces)),
         (.bias ((fixesOf es).length + 1), .biasOf t.prevBias)] ∧
      (t'.prevState, t'.prevBias) = opt t'.graph t'.values ((fixesOf es).length + 1) ∧
      t'.pieceBias = t'.prevBias ∧ t'.pieces = [] := by
  have i := track_inv tc f junk s0 b0 es t h
  refine ⟨by rw [i.keys, i.count], by rw [i.keys]; exact trackKeys_nodup _, ?_⟩
  intro p
  obtain ⟨vs, hk, r, hr, h1, h2⟩ := addGps_ok (predict := predict) (opt := opt) t p i.keys
  refine ⟨_, hr, ?_, ?_, rfl, rfl⟩
  · rw [← i.count]; exact h2
  · rw [← i.count]; exact h1

section Cases
private def up : Vec3 Rat := ⟨0, 0, 49/5⟩
private def o3 : Vec3 Rat := ⟨0, 0, 0⟩
/-- A tracker without state: only the graph matters below. -/
private def pr : Unit → Unit → List ImuPiece → Unit := fun _ _ _ => ()
private def op : List (TrackFactor Unit Unit) → List (TrackKey × TrackValue Unit Unit) → Nat → Unit × Unit :=
  fun _ _ _ => ((), ())

/-- The total time of the measurements of a factor. -/
private def timeOf : TrackFactor Unit Unit → Option Rat
  | .imu _ _ _ l _ _ => some (l.map ImuPiece.dt).sum
  | _ => none
/-- The gravity of a factor. -/
private def gravOf : TrackFactor Unit Unit → Option Rat
  | .imu _ _ _ _ _ g => some g
  | _ => none

/-- Non-vacuity: three messages, a position, one message, a position. -/
private def esC99 : List TrackEvent :=
  [.imu up o3 1000000000, .imu up o3 1010000000, .imu up o3 1020000000, .gps o3,
   .imu up o3 1030000000, .gps ⟨1, 0, 0⟩]

example : ∃ t, ImuGps.run pr op (ImuGps.new 10 100 o3 () ()) esC99 = .ok t ∧
    t.graph.filterMap timeOf = [3/100, 1/100] ∧ t.count = 2 :=
  ⟨_, rfl, by decide +kernel, rfl⟩

example : ∃ (es : List TrackEvent) (first : Nat) (rest : List Nat), (∀ s ∈ imuStampsOf es, 1 < s) ∧
    imuStampsOf es = first :: rest ∧ rest ≠ [] ∧
    ∃ t, ImuGps.run pr op (ImuGps.new 10 100 o3 () ()) es = .ok t :=
  ⟨esC99, 1000000000, [1010000000, 1020000000, 1030000000], by decide, rfl, by simp, _, rfl⟩

/-- **C99, negation (gravity).** The gravity subtracted from the accelerations is the *time constant* the tracker
is made with: with the configured default 10 (seconds) a sensor at rest that reads 9.8 appears to fall at 0.2
m/s², and with any other constant by as much as it differs. -/
theorem C99_gravity_fails (tc f : Rat) :
    ∃ t, ImuGps.run pr op (ImuGps.new tc f o3 () ()) [.imu up o3 1000000000, .gps o3] = .ok t ∧
      t.graph.filterMap gravOf = [tc] :=
  ⟨_, rfl, rfl⟩

/-- **C99, negation (at rest).** The initial velocity is never set: whatever happens to be in memory is both the
first value and the prior that holds the estimate to it. -/
theorem C99_rest_fails (junk : Vec3 Rat) :
    (TrackFactor.priorVel 0 junk) ∈ (ImuGps.new (S := Unit) (B := Unit) 10 100 junk () ()).graph ∧
    (TrackKey.vel 0, TrackValue.startVel junk) ∈ (ImuGps.new (S := Unit) (B := Unit) 10 100 junk () ()).values := by
  constructor <;> simp [ImuGps.new]

/-- **C99, negation (a recording that starts at zero).** Stamp zero also means "no message yet": with messages at
0 s and 1 s the second is integrated over a period, not over the second that passed. -/
theorem C99_zero_fails :
    ∃ t, ImuGps.run pr op (ImuGps.new 10 100 o3 () ())
        [.imu up o3 0, .imu up o3 1000000000, .gps o3] = .ok t ∧
      t.graph.filterMap timeOf = [2/100] :=
  ⟨_, rfl, by decide +kernel⟩

/-- **C99, negation (a position without measurements).** Two GPS positions with no IMU message between them are
tied by a measurement of no duration: the two nodes are required to be the same place, whatever the positions are. -/
theorem C99_no_measurement_fails :
    ∃ t, ImuGps.run pr op (ImuGps.new 10 100 o3 () ())
        [.imu up o3 1000000000, .gps o3, .gps ⟨5, 0, 0⟩] = .ok t ∧
      t.graph.filterMap timeOf = [1/100, 0] :=
  ⟨_, rfl, by decide +kernel⟩
end Cases
end Verif
