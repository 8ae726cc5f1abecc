import Verif.Proofs.Outcome
import Verif.Props.LoopCheck
import Verif.Spec.CloseLoop
import Mathlib.Tactic.Linarith
import Mathlib.Tactic.Positivity
import Mathlib.Tactic.LinearCombination
import Mathlib.Analysis.SpecialFunctions.Log.Basic
/-!
C114.  The candidates of a loop are matched from the poses known so far: every candidate is matched
once, starting from the relative pose of the two submaps; an edge holds the matcher's answer and is
made exactly if the score is good enough; the order in which the matches end does not matter for
which edges are made.

Not as intended in the code: the start ignores the height of the newer submap over the older one *in
the older one's frame*.  On level ground that is the difference in height, at most the allowed one
(`C114_level_partial`); on a slope it is the distance times the slope (`C114_slope_fails`).  And right
matches are dropped if the older submaps have drifted relative to each other (`C114_true_loop_fails`).
-/
namespace Verif
open Spec

theorem frameAt_ok (poses : List (Rigid ℝ)) (i : Int) (p : Rigid ℝ) :
    frameAt poses i = .ok p ↔ 0 ≤ i ∧ poses[i.toNat]? = some p := by
  unfold frameAt
  by_cases h : 0 ≤ i
  · rw [if_pos h]
    cases poses[i.toNat]? with
    | none => simp
    | some q => simp [h]
  · rw [if_neg h]; simp [h]

theorem frameAt_ne_ub (poses : List (Rigid ℝ)) (i : Int) : frameAt poses i ≠ .ub := by
  unfold frameAt
  split <;> simp

/-- The edge that a candidate should give, if any. -/
theorem C114_edge (accept : ℝ) (poses : List (Rigid ℝ)) (hasCloud : Nat → Bool)
    (align : Nat → Nat → Rigid ℝ → Rigid ℝ × ℝ)
    (t s : Nat) (ht : t < poses.length) (hs : s < poses.length) (hct : hasCloud t = true)
    (hcs : hasCloud s = true) :
    ∃ r g, closeLoop accept poses hasCloud align ((t : Int), (s : Int)) = .ok r ∧
      g = loopGuess poses[t] poses[s] ∧
      (∀ e, r = some e ↔ accept < (align s t g).2 ∧ e.target = t ∧ e.source = s ∧ e.guess = g ∧
        e.transform = (align s t g).1 ∧ e.score = -Real.log (align s t g).2) := by
  have h1 : frameAt poses (t : Int) = .ok poses[t] := by
    rw [frameAt_ok]; exact ⟨by omega, by simp [ht]⟩
  have h2 : frameAt poses (s : Int) = .ok poses[s] := by
    rw [frameAt_ok]; exact ⟨by omega, by simp [hs]⟩
  refine ⟨if accept < (align s t (loopGuess poses[t] poses[s])).2 then
    some ⟨t, s, loopGuess poses[t] poses[s], (align s t (loopGuess poses[t] poses[s])).1,
      -Real.log (align s t (loopGuess poses[t] poses[s])).2⟩ else none,
    loopGuess poses[t] poses[s], ?_, rfl, ?_⟩
  · unfold closeLoop
    rw [h1, Outcome.bind_ok, h2, Outcome.bind_ok, Outcome.check_pos (by simpa using hcs),
      Outcome.bind_ok, Outcome.check_pos (by simpa using hct), Outcome.bind_ok]
    rfl
  · intro e
    split
    · rename_i h
      constructor
      · intro he
        injection he with he
        subst he
        exact ⟨h, rfl, rfl, rfl, rfl, rfl⟩
      · rintro ⟨-, h1, h2, h3, h4, h5⟩
        cases e
        simp only at h1 h2 h3 h4 h5
        subst h1 h2 h3 h4 h5
        rfl
    · rename_i h
      simp [h]

/-- A candidate that is not a frame, or a frame without a cloud, stops the program; nothing else does,
and nothing is undefined. -/
theorem C114_aborts (accept : ℝ) (poses : List (Rigid ℝ)) (hasCloud : Nat → Bool)
    (align : Nat → Nat → Rigid ℝ → Rigid ℝ × ℝ)
    (p : Int × Int) : closeLoop accept poses hasCloud align p ≠ .ub ∧
    (closeLoop accept poses hasCloud align p = .abort ↔
      ¬ (0 ≤ p.1 ∧ p.1 < poses.length ∧ 0 ≤ p.2 ∧ p.2 < poses.length ∧
        hasCloud p.1.toNat = true ∧ hasCloud p.2.toNat = true)) := by
  have key : ∀ i : Int, frameAt poses i = .abort ↔ ¬ (0 ≤ i ∧ i < poses.length) := by
    intro i
    unfold frameAt
    by_cases h : 0 ≤ i
    · rw [if_pos h]
      by_cases h2 : i < poses.length
      · rw [List.getElem?_eq_getElem (by omega)]; simp [h, h2]
      · rw [List.getElem?_eq_none (by omega)]; simp [h2]
    · rw [if_neg h]; simp [h]
  unfold closeLoop
  cases h1 : frameAt poses p.1 with
  | ub => exact absurd h1 (frameAt_ne_ub _ _)
  | abort =>
    have := (key p.1).1 h1
    refine ⟨by simp, ?_⟩
    simp only [Outcome.bind_abort, true_iff]
    tauto
  | ok a =>
    have e1 := (frameAt_ok _ _ _).1 h1
    have hl : p.1 < poses.length := by
      by_contra hc
      rw [List.getElem?_eq_none (by omega)] at e1
      cases e1.2
    cases h2 : frameAt poses p.2 with
    | ub => exact absurd h2 (frameAt_ne_ub _ _)
    | abort =>
      have := (key p.2).1 h2
      refine ⟨by simp, ?_⟩
      simp only [Outcome.bind_ok, Outcome.bind_abort, true_iff]
      tauto
    | ok b =>
      have e2 := (frameAt_ok _ _ _).1 h2
      have hl2 : p.2 < poses.length := by
        by_contra hc
        rw [List.getElem?_eq_none (by omega)] at e2
        cases e2.2
      simp only [Outcome.bind_ok]
      by_cases hc2 : hasCloud p.2.toNat = true
      · rw [Outcome.check_pos hc2, Outcome.bind_ok]
        by_cases hc1 : hasCloud p.1.toNat = true
        · rw [Outcome.check_pos hc1, Outcome.bind_ok]
          refine ⟨by simp, ?_⟩
          constructor
          · intro h; cases h
          · intro h; exact absurd ⟨e1.1, hl, e2.1, hl2, hc1, hc2⟩ h
        · rw [Outcome.check_neg hc1]
          refine ⟨by simp, ?_⟩
          simp only [Outcome.bind_abort, true_iff]
          tauto
      · rw [Outcome.check_neg hc2]
        refine ⟨by simp, ?_⟩
        simp only [Outcome.bind_abort, true_iff]
        tauto

/-- Joining maps: no submap read from a file has a cloud, so the first candidate of a loop between the
maps stops the program, whatever the maps are. -/
theorem C114_joined_fails (accept : ℝ) (poses : List (Rigid ℝ))
    (align : Nat → Nat → Rigid ℝ → Rigid ℝ × ℝ) (p : Int × Int) (ps : List (Int × Int)) :
    closeLoops accept poses loadedHasCloud align (p :: ps) = .abort := by
  have := (C114_aborts accept poses loadedHasCloud align p).2.2 (by
    rintro ⟨-, -, -, -, h, -⟩
    cases h)
  rw [closeLoops, this, Outcome.bind_abort]

/-- All candidates, with the tasks ending in any order: the edges are those of the candidates with
a good enough score, each once, whatever the order. -/
theorem C114_all (accept : ℝ) (poses : List (Rigid ℝ)) (hasCloud : Nat → Bool)
    (align : Nat → Nat → Rigid ℝ → Rigid ℝ × ℝ)
    (pairs order : List (Nat × Nat)) (hperm : order.Perm pairs)
    (hp : ∀ p ∈ pairs, (p.1 < poses.length ∧ p.2 < poses.length) ∧ hasCloud p.1 = true ∧
      hasCloud p.2 = true) :
    ∃ es, closeLoops accept poses hasCloud align (order.map fun p => ((p.1 : Int), (p.2 : Int))) = .ok es ∧
      (es.map fun e => (e.target, e.source)).Perm (pairs.filter fun p =>
        decide (accept < (align p.2 p.1 (loopGuess (poses.getD p.1 ⟨1, 0⟩) (poses.getD p.2 ⟨1, 0⟩))).2)) ∧
      ∀ e ∈ es, e.guess = loopGuess (poses.getD e.target ⟨1, 0⟩) (poses.getD e.source ⟨1, 0⟩) ∧
        e.transform = (align e.source e.target e.guess).1 ∧
        accept < (align e.source e.target e.guess).2 ∧
        e.score = -Real.log (align e.source e.target e.guess).2 := by
  have main : ∀ l : List (Nat × Nat), (∀ p ∈ l, (p.1 < poses.length ∧ p.2 < poses.length) ∧ hasCloud p.1 = true ∧
        hasCloud p.2 = true) →
      ∃ es, closeLoops accept poses hasCloud align (l.map fun p => ((p.1 : Int), (p.2 : Int))) = .ok es ∧
      (es.map fun e => (e.target, e.source)) = (l.filter fun p =>
        decide (accept < (align p.2 p.1 (loopGuess (poses.getD p.1 ⟨1, 0⟩) (poses.getD p.2 ⟨1, 0⟩))).2)) ∧
      ∀ e ∈ es, e.guess = loopGuess (poses.getD e.target ⟨1, 0⟩) (poses.getD e.source ⟨1, 0⟩) ∧
        e.transform = (align e.source e.target e.guess).1 ∧
        accept < (align e.source e.target e.guess).2 ∧
        e.score = -Real.log (align e.source e.target e.guess).2 := by
    intro l
    induction l with
    | nil => intro _; exact ⟨[], rfl, rfl, by simp⟩
    | cons p r ih =>
      intro h
      obtain ⟨es, e1, e2, e3⟩ := ih fun q hq => h q (by simp [hq])
      obtain ⟨⟨h1, h2⟩, hc1, hc2⟩ := h p (by simp)
      obtain ⟨o, g, c1, c2, c3⟩ := C114_edge accept poses hasCloud align p.1 p.2 h1 h2 hc1 hc2
      have d1 : poses.getD p.1 ⟨1, 0⟩ = poses[p.1] := by
        rw [List.getD_eq_getElem?_getD, List.getElem?_eq_getElem h1, Option.getD_some]
      have d2 : poses.getD p.2 ⟨1, 0⟩ = poses[p.2] := by
        rw [List.getD_eq_getElem?_getD, List.getElem?_eq_getElem h2, Option.getD_some]
      refine ⟨o.toList ++ es, ?_, ?_, ?_⟩
      · simp only [List.map_cons, closeLoops, c1, e1, Outcome.bind_ok]
        rfl
      · rw [List.map_append, e2, List.filter_cons, d1, d2, ← c2]
        cases o with
        | none =>
          have : ¬ accept < (align p.2 p.1 g).2 := by
            intro hlt
            have := (c3 ⟨p.1, p.2, g, (align p.2 p.1 g).1, -Real.log (align p.2 p.1 g).2⟩).2
              ⟨hlt, rfl, rfl, rfl, rfl, rfl⟩
            cases this
          rw [if_neg (by simpa using this)]
          rfl
        | some e =>
          obtain ⟨k1, k2, k3, -⟩ := (c3 e).1 rfl
          rw [if_pos (by simpa using k1)]
          simp [k2, k3]
      · intro e he
        rcases List.mem_append.1 he with he | he
        · cases o with
          | none => cases he
          | some e' =>
            simp only [Option.toList_some, List.mem_singleton] at he
            subst he
            obtain ⟨k1, k2, k3, k4, k5, k6⟩ := (c3 e).1 rfl
            rw [k2, k3, d1, d2, k4]
            exact ⟨c2, k5, k1, k6⟩
        · exact e3 e he
  obtain ⟨es, h1, h2, h3⟩ := main order fun p h => hp p (hperm.mem_iff.1 h)
  refine ⟨es, h1, ?_, h3⟩
  rw [h2]
  exact hperm.filter _

/-- With the matcher's score `exp(-d)`, an edge carries the distance `d`, and `d` is below the limit
that the accepted score stands for. -/
theorem C114_score (accept d : ℝ) (ha : 0 < accept) (poses : List (Rigid ℝ)) (hasCloud : Nat → Bool)
    (align : Nat → Nat → Rigid ℝ → Rigid ℝ × ℝ) (t s : Nat) (ht : t < poses.length)
    (hs : s < poses.length) (hct : hasCloud t = true) (hcs : hasCloud s = true)
    (hd : (align s t (loopGuess poses[t] poses[s])).2 = Real.exp (-d)) (e : ClosedEdge)
    (he : closeLoop accept poses hasCloud align ((t : Int), (s : Int)) = .ok (some e)) :
    e.score = d ∧ d < -Real.log accept := by
  obtain ⟨r, g, c1, c2, c3⟩ := C114_edge accept poses hasCloud align t s ht hs hct hcs
  rw [he] at c1
  injection c1 with c1
  obtain ⟨k1, -, -, -, -, k6⟩ := (c3 e).1 c1.symm
  rw [c2, hd] at k1 k6
  rw [Real.log_exp] at k6
  refine ⟨by linarith, ?_⟩
  have := Real.log_lt_log ha k1
  rw [Real.log_exp] at this
  linarith

/-- A loop is reported only with at least two edges, all of them candidates with a good enough score,
and all placing the newest submap within half a metre of each other. -/
theorem C114_reported (euler : Matrix (Fin 3) (Fin 3) ℝ → ℝ) (poses : Nat → Rigid ℝ)
    (hp : ∀ i, IsRot (poses i).rot) (es : List ClosedEdge) (hr : ∀ e ∈ es, IsRot e.transform.rot)
    (h : closeSucceeds euler poses es = true) :
    2 ≤ es.length ∧ ∀ a ∈ es, ∀ b ∈ es, sqDistance
      (impliedPlace (poses a.target) a.transform) (impliedPlace (poses b.target) b.transform) ≤ 1 / 4 := by
  unfold closeSucceeds at h
  rw [Bool.and_eq_true] at h
  obtain ⟨h1, h2⟩ := C39_translation hp (edges := es.map fun e => ⟨e.target, e.transform⟩) (by
    intro e he
    obtain ⟨x, hx, rfl⟩ := List.mem_map.1 he
    exact hr x hx) h.2
  rw [List.length_map] at h1
  refine ⟨h1, ?_⟩
  intro a ha b hb
  have := h2 _ (List.mem_map_of_mem ha) _ (List.mem_map_of_mem hb)
  have e : ∀ x : ClosedEdge, impliedPosition poses ⟨x.target, x.transform⟩ =
      impliedPlace (poses x.target) x.transform := by
    intro x
    funext i
    simp [impliedPosition, impliedPlace, Matrix.mulVec, dotProduct, Fin.sum_univ_three]
  rw [e, e] at this
  refine this.trans (by norm_num)

/-- The start: the relative orientation, and the relative position without its part along the older
submap's own up direction. -/
theorem C114_start (a b : Rigid ℝ) (ha : IsRot a.rot) :
    a.rot * (loopGuess a b).rot = b.rot ∧
    (∀ i, impliedPlace a (loopGuess a b) i = b.trans i - heightIn a b * upOf a i) ∧
    sqDistance (impliedPlace a (loopGuess a b)) b.trans = heightIn a b ^ 2 := by
  have hcol : ∀ i j : Fin 3, ∑ k, a.rot i k * a.rot j k = if i = j then 1 else 0 := by
    intro i j
    have := congrFun (congrFun ha.1 i) j
    simpa [Matrix.mul_apply, Matrix.one_apply] using this
  have hrow : ∑ k, a.rot k 2 * a.rot k 2 = 1 := by
    have := congrFun (congrFun ha.2 2) 2
    simpa [Matrix.mul_apply, Matrix.one_apply] using this
  have hplace : ∀ i, impliedPlace a (loopGuess a b) i = b.trans i - heightIn a b * upOf a i := by
    intro i
    have h0 := hcol i 0
    have h1 := hcol i 1
    have h2 := hcol i 2
    simp only [Fin.sum_univ_three] at h0 h1 h2
    simp only [impliedPlace, loopGuess, Rigid.between, Matrix.mulVec, dotProduct, Fin.sum_univ_three,
      Matrix.transpose_apply, heightIn, upOf, Pi.sub_apply, Fin.isValue, Fin.reduceEq, if_false, if_true]
    have e : ∀ i : Fin 3, b.trans i - a.trans i = (if i = 0 then 1 else 0) * (b.trans 0 - a.trans 0) +
        (if i = 1 then 1 else 0) * (b.trans 1 - a.trans 1) +
        (if i = 2 then 1 else 0) * (b.trans 2 - a.trans 2) := by
      intro i; fin_cases i <;> simp
    have := e i
    rw [← h0, ← h1, ← h2] at this
    linear_combination -this
  refine ⟨?_, hplace, ?_⟩
  · show a.rot * (a.rot.transpose * b.rot) = b.rot
    rw [← Matrix.mul_assoc, ha.1, Matrix.one_mul]
  · simp only [sqDistance, hplace]
    simp only [Fin.sum_univ_three] at hrow
    have : upOf a 0 * upOf a 0 + upOf a 1 * upOf a 1 + upOf a 2 * upOf a 2 = 1 := hrow
    linear_combination (heightIn a b) ^ 2 * this

/-- On level ground the start is off by the difference in height, which is at most what the choice of
candidates allows. -/
theorem C114_level_partial (a b : Rigid ℝ) (ha : IsRot a.rot) (hup : upOf a = ![0, 0, 1]) (m : ℝ)
    (hz : |b.trans 2 - a.trans 2| ≤ m) :
    sqDistance (impliedPlace a (loopGuess a b)) b.trans ≤ m ^ 2 := by
  rw [(C114_start a b ha).2.2]
  have : heightIn a b = b.trans 2 - a.trans 2 := by
    simp [heightIn, hup, Fin.sum_univ_three]
  rw [this, ← sq_abs]
  exact pow_le_pow_left₀ (abs_nonneg _) hz 2

/-- In general: the distance times the slope of the older submap, and the difference in height. -/
theorem C114_slope_partial (a b : Rigid ℝ) (ha : IsRot a.rot) (m n : ℝ)
    (hxy : flatDistance a b ≤ m) (hz : |b.trans 2 - a.trans 2| ≤ n) :
    |heightIn a b| ≤ Real.sqrt (1 - upOf a 2 ^ 2) * m + |upOf a 2| * n := by
  have hrow : upOf a 0 ^ 2 + upOf a 1 ^ 2 + upOf a 2 ^ 2 = 1 := by
    have := congrFun (congrFun ha.2 2) 2
    simp only [Matrix.mul_apply, Fin.sum_univ_three, Matrix.transpose_apply, Matrix.one_apply_eq] at this
    simp only [upOf]
    linarith
  set u := upOf a 0
  set v := upOf a 1
  set x := b.trans 0 - a.trans 0 with hx
  set y := b.trans 1 - a.trans 1 with hy
  have hs : Real.sqrt (1 - upOf a 2 ^ 2) = Real.sqrt (u ^ 2 + v ^ 2) := by congr 1; linarith
  have hcs : |u * x + v * y| ≤ Real.sqrt (u ^ 2 + v ^ 2) * Real.sqrt (x ^ 2 + y ^ 2) := by
    rw [← Real.sqrt_mul (by positivity), ← Real.sqrt_sq_eq_abs]
    apply Real.sqrt_le_sqrt
    nlinarith [sq_nonneg (u * y - v * x)]
  have h : heightIn a b = (u * x + v * y) + upOf a 2 * (b.trans 2 - a.trans 2) := by
    simp [heightIn, Fin.sum_univ_three, u, v, x, y]
  rw [h, hs]
  have h1 : |upOf a 2 * (b.trans 2 - a.trans 2)| ≤ |upOf a 2| * n := by
    rw [abs_mul]; exact mul_le_mul_of_nonneg_left hz (abs_nonneg _)
  have h2 : Real.sqrt (u ^ 2 + v ^ 2) * Real.sqrt (x ^ 2 + y ^ 2) ≤ Real.sqrt (u ^ 2 + v ^ 2) * m :=
    mul_le_mul_of_nonneg_left hxy (Real.sqrt_nonneg _)
  exact (abs_add_le _ _).trans (by linarith)

/-- A submap on a slope of 3 in 4. -/
noncomputable def slopePose : Rigid ℝ :=
  { rot := !![4 / 5, 0, 3 / 5; 0, 1, 0; -3 / 5, 0, 4 / 5], trans := 0 }

/-- A submap 25 m away, at the same height. -/
noncomputable def awayPose : Rigid ℝ := { rot := 1, trans := ![25, 0, 0] }

/-- Two submaps at the same height and within the shipped distances: the match starts 15 m from where
the poses say, though the poses are right. -/
theorem C114_slope_fails : IsRot slopePose.rot ∧ IsRot awayPose.rot ∧
    flatDistance slopePose awayPose ≤ 25 ∧ |awayPose.trans 2 - slopePose.trans 2| ≤ 1 ∧
    sqDistance (impliedPlace slopePose (loopGuess slopePose awayPose)) awayPose.trans = 15 ^ 2 := by
  have hrot : IsRot slopePose.rot := by
    constructor <;>
    · ext i j
      fin_cases i <;> fin_cases j <;>
        simp [slopePose, Matrix.mul_apply, Fin.sum_univ_three] <;> norm_num
  refine ⟨hrot, by constructor <;> simp [awayPose], ?_, by simp [slopePose, awayPose], ?_⟩
  · unfold flatDistance
    simp [slopePose, awayPose]
  · rw [(C114_start _ _ hrot).2.2]
    simp [heightIn, upOf, slopePose, awayPose, Fin.sum_univ_three]
    norm_num

/-- A matcher that answers its guess makes an edge that contradicts right poses. -/
example : ∃ e, closeLoop (1 / 2) [slopePose, awayPose] (fun _ => true) (fun _ _ g => (g, 1)) (0, 1) = .ok (some e) ∧
    sqDistance (impliedPlace slopePose e.transform) awayPose.trans = 15 ^ 2 := by
  obtain ⟨r, g, c1, c2, c3⟩ := C114_edge (1 / 2) [slopePose, awayPose] (fun _ => true) (fun _ _ g => (g, 1)) 0 1
    (by simp) (by simp) rfl rfl
  have := (c3 ⟨0, 1, g, g, -Real.log 1⟩).2 ⟨by norm_num, rfl, rfl, rfl, rfl, rfl⟩
  rw [this] at c1
  exact ⟨_, c1, by rw [c2]; exact C114_slope_fails.2.2.2.2⟩

/-- Two level submaps half a metre apart in height meet the hypotheses of `C114_level_partial`. -/
example : IsRot (⟨1, 0⟩ : Rigid ℝ).rot ∧ upOf ⟨1, 0⟩ = ![0, 0, 1] ∧
    |(⟨1, ![3, 4, 1 / 2]⟩ : Rigid ℝ).trans 2 - (⟨1, 0⟩ : Rigid ℝ).trans 2| ≤ 1 := by
  refine ⟨by constructor <;> simp, ?_, ?_⟩
  · funext i; fin_cases i <;> simp [upOf] <;> rfl
  · simp; norm_num [abs_le]

/-- Right matches of one submap with at least two older ones are reported, if the older ones are right
relative to each other, whatever has been lost since. -/
theorem C114_true_loop_partial (euler : Matrix (Fin 3) (Fin 3) ℝ → ℝ) (he : euler 1 ≤ 1 / 50)
    (poses truth : Nat → Rigid ℝ) (ht : ∀ i, IsRot (truth i).rot) (lost : Rigid ℝ)
    (hl : IsRot lost.rot) (es : List ClosedEdge) (s : Nat) (hn : 2 ≤ es.length)
    (hpose : ∀ e ∈ es, poses e.target = lost.mul (truth e.target))
    (hright : ∀ e ∈ es, e.transform = (truth e.target).between (truth s)) :
    closeSucceeds euler poses es = true := by
  have key : ∀ e ∈ es, (LoopEdge.source poses ⟨e.target, e.transform⟩) = lost.mul (truth s) := by
    intro e h
    have h1 := (ht e.target).1
    show (poses e.target).mul e.transform = _
    rw [hpose e h, hright e h]
    have hr : (lost.rot * (truth e.target).rot) * ((truth e.target).rot.transpose * (truth s).rot) =
        lost.rot * (truth s).rot := by
      rw [Matrix.mul_assoc, ← Matrix.mul_assoc (truth e.target).rot, h1, Matrix.one_mul]
    have hv : (lost.rot * (truth e.target).rot).mulVec ((truth e.target).rot.transpose.mulVec
        ((truth s).trans - (truth e.target).trans)) =
        lost.rot.mulVec (truth s).trans - lost.rot.mulVec (truth e.target).trans := by
      rw [Matrix.mulVec_mulVec, Matrix.mul_assoc, h1, Matrix.mul_one, Matrix.mulVec_sub]
    simp only [Rigid.mul, Rigid.between, hr, hv, Pi.sub_apply]
    congr 1
    funext i
    ring
  have hrot : IsRot (lost.mul (truth s)).rot := isRot_mul hl (ht s)
  unfold closeSucceeds
  rw [Bool.and_eq_true]
  refine ⟨by cases es with | nil => simp at hn | cons a b => rfl, ?_⟩
  rw [checkResult_iff, List.length_map]
  refine ⟨hn, ?_⟩
  cases es with
  | nil => simp at hn
  | cons a r =>
    refine ⟨_, _, rfl, ?_⟩
    intro e' h'
    obtain ⟨x, hx, rfl⟩ := List.mem_map.1 h'
    rw [key a (by simp), key x (by simp [hx])]
    simp only [Rigid.between, sub_self, Matrix.mulVec_zero, hrot.2]
    exact ⟨by simp [sqNorm], he⟩

/-- Three submaps 1 m apart along a line, as they are. -/
noncomputable def lineTruth : Nat → Rigid ℝ := fun i => ⟨1, ![(i : ℝ), 0, 0]⟩

/-- The same with the second one 0.3 m off sideways. -/
noncomputable def lineDrift : Nat → Rigid ℝ := fun i => ⟨1, ![(i : ℝ), if i = 1 then 3 / 10 else 0, 0]⟩

/-- The edge of a right match. -/
noncomputable def rightEdge (t s : Nat) : ClosedEdge :=
  ⟨t, s, ⟨1, 0⟩, (lineTruth t).between (lineTruth s), 0⟩

/-- Two right matches are refused because one of the older submaps is 0.3 m off: the error that the
loop would repair is the reason to drop it. -/
theorem C114_true_loop_fails : (∀ e ∈ [rightEdge 0 9, rightEdge 1 9],
      e.transform = (lineTruth e.target).between (lineTruth e.source)) ∧
    (∀ i, sqDistance (lineDrift i).trans (lineTruth i).trans ≤ (3 / 10) ^ 2) ∧
    closeSucceeds (fun _ => 0) lineDrift [rightEdge 0 9, rightEdge 1 9] = false := by
  refine ⟨?_, ?_, ?_⟩
  · intro e he
    simp only [List.mem_cons, List.not_mem_nil, or_false] at he
    rcases he with rfl | rfl <;> rfl
  · intro i
    by_cases h : i = 1 <;> simp [sqDistance, lineDrift, lineTruth, h] <;> norm_num
  · unfold closeSucceeds
    rw [Bool.and_eq_false_iff]
    right
    rw [Bool.eq_false_iff, Ne, checkResult_iff]
    rintro ⟨-, e, es, h, hall⟩
    simp only [List.map_cons, List.map_nil, List.cons.injEq] at h
    obtain ⟨rfl, rfl⟩ := h
    have := (hall _ (List.mem_singleton_self _)).1
    simp [LoopEdge.source, Rigid.mul, Rigid.between, rightEdge, lineDrift, lineTruth, sqNorm,
      dotProduct, Matrix.mulVec, Fin.sum_univ_three, Matrix.vecHead, Matrix.vecTail] at this
    norm_num at this

/-- Without the drift the two matches are reported: the hypotheses of `C114_true_loop_partial` and of
`C114_reported` can be met. -/
example : closeSucceeds (fun _ => 0) lineTruth [rightEdge 0 9, rightEdge 1 9] = true ∧
    (∀ i, IsRot (lineTruth i).rot) ∧
    ∀ e ∈ [rightEdge 0 9, rightEdge 1 9], IsRot e.transform.rot := by
  have ht : ∀ i, IsRot (lineTruth i).rot := fun i => by simp [IsRot, lineTruth]
  refine ⟨C114_true_loop_partial _ (by norm_num) _ lineTruth ht ⟨1, 0⟩ (by simp [IsRot]) _ 9 (by simp)
    ?_ ?_, ht, ?_⟩
  · intro e he
    simp [Rigid.mul]
  · intro e he
    simp only [List.mem_cons, List.not_mem_nil, or_false] at he
    rcases he with rfl | rfl <;> rfl
  · intro e he
    simp only [List.mem_cons, List.not_mem_nil, or_false] at he
    rcases he with rfl | rfl <;> simp [IsRot, rightEdge, Rigid.between, lineTruth]

/-- Two candidates that end in the other order, one of them good enough. -/
example : ∃ es, closeLoops (1 / 2) [slopePose, awayPose, awayPose] (fun _ => true)
      (fun _ t g => (g, if t = 1 then 1 else 0)) [(1, 2), (0, 2)] = .ok es ∧
    es.map (fun e => (e.target, e.source)) = [(1, 2)] := by
  obtain ⟨es, h1, h2, -⟩ := C114_all (1 / 2) [slopePose, awayPose, awayPose] (fun _ => true)
    (fun _ t g => (g, if t = 1 then 1 else 0)) [(0, 2), (1, 2)] [(1, 2), (0, 2)]
    (List.Perm.swap _ _ _) (by simp)
  refine ⟨es, h1, List.perm_singleton.1 (h2.trans ?_)⟩
  norm_num [List.filter_cons]

/-- A score of `exp(-1/10)` against a limit of `1/2`: the hypotheses of `C114_score` can be met. -/
example : ∃ e, closeLoop (1 / 2) [slopePose, awayPose] (fun _ => true) (fun _ _ g => (g, Real.exp (-(1 / 10)))) (0, 1) =
    .ok (some e) ∧ e.score = 1 / 10 := by
  obtain ⟨r, g, c1, c2, c3⟩ := C114_edge (1 / 2) [slopePose, awayPose] (fun _ => true)
    (fun _ _ g => (g, Real.exp (-(1 / 10)))) 0 1 (by simp) (by simp) rfl rfl
  have hlt : (1 / 2 : ℝ) < Real.exp (-(1 / 10)) := by
    have := Real.add_one_le_exp (-(1 / 10) : ℝ)
    linarith
  have := (c3 ⟨0, 1, g, g, -Real.log (Real.exp (-(1 / 10)))⟩).2 ⟨hlt, rfl, rfl, rfl, rfl, rfl⟩
  rw [this] at c1
  exact ⟨_, c1, (C114_score (1 / 2) (1 / 10) (by norm_num) [slopePose, awayPose] (fun _ => true)
    (fun _ _ g => (g, Real.exp (-(1 / 10)))) 0 1 (by simp) (by simp) rfl rfl rfl _ c1).1⟩

end Verif
