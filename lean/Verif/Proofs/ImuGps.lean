import Verif.Spec.ImuGps
import Verif.Proofs.Outcome
import Mathlib.Tactic.Ring
import Mathlib.Data.List.Chain
import Mathlib.Data.List.Induction
import Mathlib.Tactic.Linarith
import Mathlib.Tactic.NormNum
import Mathlib.Data.Rat.Cast.Order
/- Invariant of the IMU/GPS tracker. -/
namespace Verif
open Spec
variable {S B : Type}
variable {predict : S → B → List ImuPiece → S}
variable {opt : List (TrackFactor S B) → List (TrackKey × TrackValue S B) → Nat → S × B}

theorem track_run_append (t : ImuGps S B) (es fs : List TrackEvent) :
    ImuGps.run predict opt t (es ++ fs) =
      (ImuGps.run predict opt t es).bind (fun t' => ImuGps.run predict opt t' fs) := by
  induction es generalizing t with
  | nil => rfl
  | cons e es ih =>
    simp only [List.cons_append, ImuGps.run]
    cases h : ImuGps.step predict opt t e with
    | ok a => exact ih a
    | abort => rfl
    | ub => rfl

theorem trackChain_append (g : Rat) (k : Nat) (l m : List (List ImuPiece × B × Vec3 Rat)) :
    (trackChain g k (l ++ m) : List (TrackFactor S B)) = trackChain g k l ++ trackChain g (k + l.length) m := by
  induction l generalizing k with
  | nil => rfl
  | cons a l ih =>
    obtain ⟨p, b, q⟩ := a
    simp only [List.cons_append, trackChain, ih, List.length_cons]
    rw [show k + 1 + l.length = k + (l.length + 1) by omega]

theorem cutAtFixes_imu (es : List TrackEvent) (a g : Vec3 Rat) (s : Nat) :
    cutAtFixes (es ++ [.imu a g s]) = ((cutAtFixes es).1, (cutAtFixes es).2 ++ [(a, g)]) := by
  simp [cutAtFixes, List.foldl_append]

theorem cutAtFixes_gps (es : List TrackEvent) (p : Vec3 Rat) :
    cutAtFixes (es ++ [.gps p]) = ((cutAtFixes es).1 ++ [(cutAtFixes es).2], []) := by
  simp [cutAtFixes, List.foldl_append]

theorem imuStampsOf_imu (es : List TrackEvent) (a g : Vec3 Rat) (s : Nat) :
    imuStampsOf (es ++ [.imu a g s]) = imuStampsOf es ++ [s] := by
  simp [imuStampsOf]

theorem imuStampsOf_gps (es : List TrackEvent) (p : Vec3 Rat) :
    imuStampsOf (es ++ [.gps p]) = imuStampsOf es := by
  simp [imuStampsOf]

theorem fixesOf_imu (es : List TrackEvent) (a g : Vec3 Rat) (s : Nat) :
    fixesOf (es ++ [.imu a g s]) = fixesOf es := by
  simp [fixesOf]

theorem fixesOf_gps (es : List TrackEvent) (p : Vec3 Rat) :
    fixesOf (es ++ [.gps p]) = fixesOf es ++ [p] := by
  simp [fixesOf]

theorem trackKeys_succ (n : Nat) : trackKeys (n + 1) = trackKeys n ++ [.pose n, .vel n, .bias n] := by
  simp [trackKeys, List.range_succ]

theorem mem_trackKeys {n : Nat} {k : TrackKey} :
    k ∈ trackKeys n ↔ ∃ i < n, k = .pose i ∨ k = .vel i ∨ k = .bias i := by
  simp [trackKeys]

theorem trackKeys_nodup (n : Nat) : (trackKeys n).Nodup := by
  induction n with
  | zero => simp [trackKeys]
  | succ n ih =>
    rw [trackKeys_succ, List.nodup_append]
    refine ⟨ih, by simp, ?_⟩
    intro a ha b hb hab
    subst hab
    obtain ⟨i, hi, h⟩ := mem_trackKeys.1 ha
    simp only [List.mem_cons, List.not_mem_nil, or_false] at hb
    rcases h with h | h | h <;> subst h <;> rcases hb with hb | hb | hb <;> cases hb <;> omega

theorem valuesInsert_fresh {k : TrackKey} {v : TrackValue S B} {vs : List (TrackKey × TrackValue S B)}
    (h : k ∉ vs.map Prod.fst) : valuesInsert k v vs = .ok (vs ++ [(k, v)]) := by
  have : vs.any (fun e => decide (e.1 = k)) = false := by
    rw [List.any_eq_false]
    intro e he
    simp only [decide_eq_true_eq]
    intro hk
    exact h (List.mem_map.2 ⟨e, he, hk⟩)
  simp [valuesInsert, this]

/-- A GPS position is always accepted while the keys are those of `count + 1` nodes. -/
theorem addGps_ok (t : ImuGps S B) (p : Vec3 Rat) (h : t.values.map Prod.fst = trackKeys (t.count + 1)) :
    ∃ vs, vs.map Prod.fst = trackKeys (t.count + 2) ∧
      ∃ r : S × B, t.addGps predict opt p = .ok { t with
        count := t.count + 1
        graph := t.graph ++ [.imu t.count (t.count + 1) t.count t.pieces t.pieceBias t.gravity,
                             .sameBias t.count (t.count + 1), .gps (t.count + 1) p]
        values := vs, prevState := r.1, prevBias := r.2, pieces := [], pieceBias := r.2 } ∧
      r = opt (t.graph ++ [.imu t.count (t.count + 1) t.count t.pieces t.pieceBias t.gravity,
                             .sameBias t.count (t.count + 1), .gps (t.count + 1) p]) vs (t.count + 1) ∧
      vs = t.values ++ [(.pose (t.count + 1), .poseOf (predict t.prevState t.prevBias t.pieces)),
                        (.vel (t.count + 1), .velOf (predict t.prevState t.prevBias t.pieces)),
                        (.bias (t.count + 1), .biasOf t.prevBias)] := by
  have f1 : TrackKey.pose (t.count + 1) ∉ t.values.map Prod.fst := by
    rw [h, mem_trackKeys]; rintro ⟨i, hi, e | e | e⟩ <;> cases e; omega
  have f2 : TrackKey.vel (t.count + 1) ∉ t.values.map Prod.fst := by
    rw [h, mem_trackKeys]; rintro ⟨i, hi, e | e | e⟩ <;> cases e; omega
  have f3 : TrackKey.bias (t.count + 1) ∉ t.values.map Prod.fst := by
    rw [h, mem_trackKeys]; rintro ⟨i, hi, e | e | e⟩ <;> cases e; omega
  refine ⟨_, ?_, _, ?_, rfl, rfl⟩
  · rw [List.map_append, h, trackKeys_succ (t.count + 1)]; rfl
  · simp only [ImuGps.addGps, Nat.add_sub_cancel]
    rw [valuesInsert_fresh f1, Outcome.bind_ok, valuesInsert_fresh (by simpa using f2), Outcome.bind_ok,
      valuesInsert_fresh (by simpa using f3), Outcome.bind_ok]
    simp

/-- What holds after every history from a new tracker. -/
structure TrackInv (tc : Rat) (junk : Vec3 Rat) (per : Rat) (es : List TrackEvent) (t : ImuGps S B) : Prop where
  gravity : t.gravity = tc
  period : t.period = per
  last : t.lastImu = (imuStampsOf es).getLastD 0
  count : t.count = (fixesOf es).length
  keys : t.values.map Prod.fst = trackKeys (t.count + 1)
  chain : ∃ parts : List (List ImuPiece × B × Vec3 Rat),
    t.graph = [.priorPose 0, .priorVel 0 junk, .priorBias 0] ++ trackChain tc 0 parts ∧
    parts.map (fun p => p.2.2) = fixesOf es ∧
    parts.map (fun p => p.1.map (fun m => (m.acc, m.gyr))) = (cutAtFixes es).1 ∧
    t.pieces.map (fun m => (m.acc, m.gyr)) = (cutAtFixes es).2 ∧
    ((parts.flatMap (fun p => p.1) ++ t.pieces).map ImuPiece.dt).length = (imuStampsOf es).length ∧
    ((∀ s ∈ imuStampsOf es, 1 < s) →
      (parts.flatMap (fun p => p.1) ++ t.pieces).map ImuPiece.dt = stampSteps per (imuStampsOf es))

theorem stampSteps_snoc (period : Rat) (l : List Nat) (s : Nat) (h : l ≠ []) :
    stampSteps period (l ++ [s]) = stampSteps period l ++ [((s : Rat) - (l.getLastD 0 : Nat)) / 1000000000] := by
  have key : ∀ (l : List Nat) (a : Nat),
      List.zipWith (fun a b : Nat => ((b : Rat) - a) / 1000000000) (a :: (l ++ [s])) (l ++ [s]) =
      List.zipWith (fun a b : Nat => ((b : Rat) - a) / 1000000000) (a :: l) l ++
        [((s : Rat) - ((a :: l).getLastD 0 : Nat)) / 1000000000] := by
    intro l
    induction l with
    | nil => intro a; simp
    | cons b l ih =>
      intro a
      have := ih b
      simp only [List.cons_append, List.zipWith_cons_cons] at this ⊢
      rw [this]
      simp
  cases l with
  | nil => exact absurd rfl h
  | cons a l =>
    simp only [List.cons_append, stampSteps]
    rw [key l a]

theorem track_inv (tc f : Rat) (junk : Vec3 Rat) (s0 : S) (b0 : B) (es : List TrackEvent) (t : ImuGps S B)
    (h : ImuGps.run predict opt (ImuGps.new tc f junk s0 b0) es = .ok t) :
    TrackInv tc junk (1 / f) es t := by
  induction es using List.reverseRecOn generalizing t with
  | nil =>
    cases h
    exact { gravity := rfl, period := rfl, last := rfl, count := rfl, keys := rfl,
            chain := ⟨[], rfl, rfl, rfl, rfl, rfl, fun _ => rfl⟩ }
  | append_singleton es e ih =>
    rw [track_run_append] at h
    obtain ⟨t1, h1, h2⟩ := (Outcome.bind_eq_ok ..).mp h
    have i := ih t1 h1
    obtain ⟨parts, c1, c2, c3, c4, c5, c6⟩ := i.chain
    simp only [ImuGps.run] at h2
    obtain ⟨t2, h3, h4⟩ := (Outcome.bind_eq_ok ..).mp h2
    cases h4
    cases e with
    | imu a g s =>
      simp only [ImuGps.step, ImuGps.addImu] at h3
      have hl : t1.lastImu = (imuStampsOf es).getLastD 0 := i.last
      split at h3
      · rename_i hz
        obtain ⟨hlt, h3⟩ := (Outcome.check_bind_eq_ok ..).mp h3
        cases h3
        have hz' : 1 < t1.lastImu := by
          simp only [nsEq, decide_eq_false_iff_not] at hz; omega
        have hne : imuStampsOf es ≠ [] := by
          intro h0; rw [h0] at hl; simp at hl; omega
        refine { gravity := i.gravity, period := i.period, last := ?_, count := ?_, keys := i.keys,
                 chain := ⟨parts, c1, ?_, ?_, ?_, ?_, ?_⟩ }
        · simp [imuStampsOf_imu]
        · rw [fixesOf_imu]; exact i.count
        · rw [fixesOf_imu]; exact c2
        · rw [cutAtFixes_imu]; exact c3
        · rw [cutAtFixes_imu]; simp [c4]
        · simp only [imuStampsOf_imu, List.length_append, List.length_map] at c5 ⊢; simp at c5 ⊢; omega
        · intro hall
          rw [imuStampsOf_imu] at hall ⊢
          rw [stampSteps_snoc _ _ _ hne, ← c6 (fun s hs => hall s (by simp [hs])), ← hl]
          simp only [List.map_append, List.map_cons, List.map_nil, List.append_assoc, nsToSec]
          rw [Nat.cast_sub hlt.le]
      · rename_i hz
        cases h3
        refine { gravity := i.gravity, period := i.period, last := ?_, count := ?_, keys := i.keys,
                 chain := ⟨parts, c1, ?_, ?_, ?_, ?_, ?_⟩ }
        · simp [imuStampsOf_imu]
        · rw [fixesOf_imu]; exact i.count
        · rw [fixesOf_imu]; exact c2
        · rw [cutAtFixes_imu]; exact c3
        · rw [cutAtFixes_imu]; simp [c4]
        · simp only [imuStampsOf_imu, List.length_append, List.length_map] at c5 ⊢; simp at c5 ⊢; omega
        · intro hall
          rw [imuStampsOf_imu] at hall ⊢
          have hnil : imuStampsOf es = [] := by
            by_contra hne
            have hm : (imuStampsOf es).getLastD 0 ∈ imuStampsOf es := by
              rw [List.getLastD_eq_getLast?, List.getLast?_eq_some_getLast hne]
              exact List.getLast_mem hne
            have := hall _ (List.mem_append_left _ hm)
            rw [← hl] at this
            apply hz
            simp only [nsEq, decide_eq_false_iff_not]; omega
          rw [hnil] at c5 c6 ⊢
          have c6' := c6 (by simp)
          rw [← List.append_assoc, List.map_append]
          rw [c6', i.period]
          rfl
    | gps p =>
      obtain ⟨vs, hk, r, hr, -, -⟩ := addGps_ok (predict := predict) (opt := opt) t1 p i.keys
      simp only [ImuGps.step] at h3
      rw [hr] at h3
      cases h3
      have hlen : parts.length = t1.count := by
        rw [i.count, ← c2, List.length_map]
      refine { gravity := i.gravity, period := i.period, last := ?_, count := ?_, keys := hk,
               chain := ⟨parts ++ [(t1.pieces, t1.pieceBias, p)], ?_, ?_, ?_, ?_, ?_, ?_⟩ }
      · rw [imuStampsOf_gps]; exact i.last
      · simp [fixesOf_gps, i.count]
      · show t1.graph ++ _ = _
        rw [trackChain_append, c1, i.gravity, hlen]
        simp [trackChain]
      · simp [fixesOf_gps, c2]
      · simp [cutAtFixes_gps, c3, c4]
      · simp [cutAtFixes_gps]
      · rw [imuStampsOf_gps]; simpa using c5
      · intro hall
        rw [imuStampsOf_gps] at hall ⊢
        rw [← c6 hall]; simp

/-- Which histories are accepted. -/
theorem track_ok_iff (tc f : Rat) (junk : Vec3 Rat) (s0 : S) (b0 : B) (es : List TrackEvent) :
    (∃ t, ImuGps.run predict opt (ImuGps.new tc f junk s0 b0) es = .ok t) ↔
      List.IsChain (fun a b => a ≤ 1 ∨ a < b) (imuStampsOf es) := by
  induction es using List.reverseRecOn with
  | nil => simp [ImuGps.run, imuStampsOf]
  | append_singleton es e ih =>
    rw [track_run_append]
    have hb : (∃ t, (ImuGps.run predict opt (ImuGps.new tc f junk s0 b0) es).bind
          (fun t' => ImuGps.run predict opt t' [e]) = .ok t) ↔
        ∃ t1, ImuGps.run predict opt (ImuGps.new tc f junk s0 b0) es = .ok t1 ∧
          ∃ t, ImuGps.step predict opt t1 e = .ok t := by
      constructor
      · rintro ⟨t, h⟩
        obtain ⟨t1, h1, h2⟩ := (Outcome.bind_eq_ok ..).mp h
        obtain ⟨t2, h3, h4⟩ := (Outcome.bind_eq_ok ..).mp h2
        exact ⟨t1, h1, t2, h3⟩
      · rintro ⟨t1, h1, t2, h3⟩
        refine ⟨t2, (Outcome.bind_eq_ok ..).mpr ⟨t1, h1, (Outcome.bind_eq_ok ..).mpr ⟨t2, h3, rfl⟩⟩⟩
    rw [hb]
    cases e with
    | gps p =>
      rw [imuStampsOf_gps, ← ih]
      constructor
      · rintro ⟨t1, h1, -⟩; exact ⟨t1, h1⟩
      · rintro ⟨t1, h1⟩
        have i := track_inv tc f junk s0 b0 es t1 h1
        obtain ⟨vs, hk, r, hr, -, -⟩ := addGps_ok (predict := predict) (opt := opt) t1 p i.keys
        exact ⟨t1, h1, _, hr⟩
    | imu a g s =>
      rw [imuStampsOf_imu, List.isChain_append]
      constructor
      · rintro ⟨t1, h1, t2, h3⟩
        have i := track_inv tc f junk s0 b0 es t1 h1
        refine ⟨ih.1 ⟨t1, h1⟩, by simp, ?_⟩
        intro x hx y hy
        simp only [List.head?_cons, Option.mem_def, Option.some.injEq] at hy
        subst hy
        have hl : t1.lastImu = x := by rw [i.last, List.getLastD_eq_getLast?, hx]; rfl
        simp only [ImuGps.step, ImuGps.addImu] at h3
        split at h3
        · obtain ⟨hlt, h3⟩ := (Outcome.check_bind_eq_ok ..).mp h3
          right; omega
        · rename_i hz
          simp only [nsEq, decide_eq_false_iff_not, not_not] at hz
          left; omega
      · rintro ⟨hc, -, hx⟩
        obtain ⟨t1, h1⟩ := ih.2 hc
        have i := track_inv tc f junk s0 b0 es t1 h1
        refine ⟨t1, h1, ?_⟩
        simp only [ImuGps.step, ImuGps.addImu]
        split
        · rename_i hz
          simp only [nsEq, decide_eq_false_iff_not] at hz
          have hl := i.last
          rw [List.getLastD_eq_getLast?] at hl
          cases hg : (imuStampsOf es).getLast? with
          | none => rw [hg] at hl; simp at hl; omega
          | some x =>
            rw [hg] at hl
            simp only [Option.getD_some] at hl
            have := hx x hg s rfl
            have hlt : t1.lastImu < s := by omega
            exact ⟨_, (Outcome.check_bind_eq_ok ..).mpr ⟨hlt, rfl⟩⟩
        · exact ⟨_, rfl⟩

theorem track_ne_ub (tc f : Rat) (junk : Vec3 Rat) (s0 : S) (b0 : B) (es : List TrackEvent) :
    ImuGps.run predict opt (ImuGps.new tc f junk s0 b0) es ≠ .ub := by
  induction es using List.reverseRecOn with
  | nil => simp [ImuGps.run]
  | append_singleton es e ih =>
    rw [track_run_append]
    cases h : ImuGps.run predict opt (ImuGps.new tc f junk s0 b0) es with
    | ub => exact absurd h ih
    | abort => simp [Outcome.bind]
    | ok t1 =>
      have i := track_inv tc f junk s0 b0 es t1 h
      show ImuGps.run predict opt t1 [e] ≠ .ub
      simp only [ImuGps.run]
      cases e with
      | gps p =>
        obtain ⟨vs, hk, r, hr, -, -⟩ := addGps_ok (predict := predict) (opt := opt) t1 p i.keys
        simp only [ImuGps.step]
        rw [hr, Outcome.bind_ok]; simp
      | imu a g s =>
        simp only [ImuGps.step, ImuGps.addImu]
        split
        · by_cases hlt : t1.lastImu < s
          · rw [Outcome.check_pos hlt]; simp
          · rw [Outcome.check_neg hlt]; simp
        · simp

theorem stampSteps_sum (period : Rat) (a : Nat) (l : List Nat) :
    (stampSteps period (a :: l)).sum = period + (((a :: l).getLastD 0 : Nat) - (a : Rat)) / 1000000000 := by
  simp only [stampSteps, List.sum_cons]
  congr 1
  induction l generalizing a with
  | nil => simp
  | cons b l ih =>
    simp only [List.zipWith_cons_cons, List.sum_cons]
    rw [ih b]
    simp only [List.getLastD_cons]
    ring
end Verif
