import Verif.Proofs.GpsInit
import Mathlib.LinearAlgebra.Matrix.Notation
/-!
C82: the GPS frame is solved for once the readings determine it.
-/
namespace Verif
open Spec

/-- The turn that is measured is the greatest angle between the first heading and any other, for
every number of frames and all rotations. -/
theorem C82_turn (r0 : Matrix (Fin 3) (Fin 3) ℝ) (rs : List (Matrix (Fin 3) (Fin 3) ℝ))
    (h : ∀ r ∈ r0 :: rs, IsTurn3 r) :
    ∃ m, maxTurn (r0 :: rs) = .ok m ∧ 0 ≤ m ∧ m ≤ Real.pi ∧
      ∀ a, a ≤ m ↔ ∃ r ∈ r0 :: rs, a ≤ headingChange r0 r := by
  obtain ⟨m, hm, ⟨r, hr, e⟩, hge⟩ := maxTurn_spec r0 rs h
  refine ⟨m, hm, ?_, ?_, ?_⟩
  · rw [← e]; exact InnerProductGeometry.angle_nonneg _ _
  · rw [← e]; exact InnerProductGeometry.angle_le_pi _ _
  · intro a
    constructor
    · intro h1; exact ⟨r, hr, by rw [e]; exact h1⟩
    · rintro ⟨r', hr', h1⟩; exact le_trans h1 (hge r' hr')

/-- A frame as the program meets it: the poses are poses, and its own is among them. -/
def Spec.StepOk (s : GpsInitStep) : Prop := s.poses ≠ [] ∧ ∀ p ∈ s.poses, IsTurn3 p.rot

theorem gpsSolveNow_spec (num : Int) (angle : ℝ) (cached : Nat) (s : GpsInitStep) (hs : StepOk s) :
    ∃ b, gpsSolveNow num angle cached (s.poses.map (·.rot)) = .ok b ∧
      (b = true ↔ 0 ≤ num ∧ num ≤ (cached : Int) ∧
        ∃ p ∈ s.poses, ∃ p0, s.poses.head? = some p0 ∧ angle ≤ headingChange p0.rot p.rot) := by
  obtain ⟨h1, h2⟩ := hs
  cases hp : s.poses with
  | nil => exact absurd hp h1
  | cons p0 ps =>
    rw [hp] at h2
    unfold gpsSolveNow
    by_cases hc : num < 0 ∨ (cached : Int) < num
    · refine ⟨false, by rw [if_pos hc], ?_⟩
      constructor
      · intro h; cases h
      · rintro ⟨h3, h4, _⟩; omega
    · obtain ⟨m, hm, _, _, hiff⟩ := C82_turn p0.rot (ps.map (·.rot)) (by
        intro r hr
        rw [← List.map_cons (f := fun p : Rigid ℝ => p.rot)] at hr
        obtain ⟨p, hp', rfl⟩ := List.mem_map.mp hr
        exact h2 p hp')
      refine ⟨!decide (m < angle), ?_, ?_⟩
      · rw [if_neg hc, List.map_cons, hm]; rfl
      · simp only [Bool.not_eq_true', decide_eq_false_iff_not, not_lt, List.head?_cons]
        rw [hiff]
        push Not at hc
        constructor
        · rintro ⟨r, hr, h3⟩
          rw [← List.map_cons (f := fun p : Rigid ℝ => p.rot)] at hr
          obtain ⟨p, hp', rfl⟩ := List.mem_map.mp hr
          exact ⟨hc.1, hc.2, p, hp', p0, rfl, h3⟩
        · rintro ⟨_, _, p, hp', p1, h3, h4⟩
          cases h3
          refine ⟨p.rot, ?_, h4⟩
          rw [← List.map_cons (f := fun p : Rigid ℝ => p.rot)]
          exact List.mem_map.mpr ⟨p, hp', rfl⟩

theorem readingsFrom_append (k : Nat) (a b : List GpsInitStep) :
    readingsFrom k (a ++ b) = readingsFrom k a ++ readingsFrom (k + a.length) b := by
  induction a generalizing k with
  | nil => rfl
  | cons s a ih =>
    simp only [List.cons_append, readingsFrom, List.length_cons]
    rw [show k + (a.length + 1) = k + 1 + a.length by omega]
    cases s.reading <;> simp [ih]

theorem gpsInitRun_spec (num : Int) (angle : ℝ) (ss pre : List GpsInitStep)
    (hs : ∀ s ∈ ss, StepOk s) :
    (gpsInitRun num angle pre.length (readingsFrom 0 pre) ss = .ok none ∧
      ∀ (k : Nat) (s : GpsInitStep), ss[k]? = some s → ¬ Ready num angle (pre ++ ss.take k) s) ∨
    ∃ (k : Nat) (s : GpsInitStep), ss[k]? = some s ∧ Ready num angle (pre ++ ss.take k) s ∧
      (∀ (j : Nat) (s' : GpsInitStep), j < k → ss[j]? = some s' →
        ¬ Ready num angle (pre ++ ss.take j) s') ∧
      gpsInitRun num angle pre.length (readingsFrom 0 pre) ss =
        .ok (some (pre.length + k, readingsFrom 0 (pre ++ ss.take k))) := by
  induction ss generalizing pre with
  | nil => left; exact ⟨rfl, by simp⟩
  | cons s ss ih =>
    have hs' : ∀ s' ∈ ss, StepOk s' := fun s' h => hs s' (by simp [h])
    have ih' := ih (pre ++ [s]) hs'
    simp only [List.length_append, List.length_cons, List.length_nil, Nat.zero_add,
      List.append_assoc, List.singleton_append] at ih'
    -- the frame itself does not trigger, so the rest decides
    have key : ¬ Ready num angle pre s →
        gpsInitRun num angle pre.length (readingsFrom 0 pre) (s :: ss) =
          gpsInitRun num angle (pre.length + 1) (readingsFrom 0 (pre ++ [s])) ss →
        (gpsInitRun num angle pre.length (readingsFrom 0 pre) (s :: ss) = .ok none ∧
          ∀ (k : Nat) (t : GpsInitStep), (s :: ss)[k]? = some t →
            ¬ Ready num angle (pre ++ (s :: ss).take k) t) ∨
        ∃ (k : Nat) (t : GpsInitStep), (s :: ss)[k]? = some t ∧
          Ready num angle (pre ++ (s :: ss).take k) t ∧
          (∀ (j : Nat) (s' : GpsInitStep), j < k → (s :: ss)[j]? = some s' →
            ¬ Ready num angle (pre ++ (s :: ss).take j) s') ∧
          gpsInitRun num angle pre.length (readingsFrom 0 pre) (s :: ss) =
            .ok (some (pre.length + k, readingsFrom 0 (pre ++ (s :: ss).take k))) := by
      intro hn he
      rw [he]
      rcases ih' with ⟨h1, h2⟩ | ⟨k, t, h1, h2, h3, h4⟩
      · left
        refine ⟨h1, ?_⟩
        intro k t ht
        cases k with
        | zero =>
          simp only [List.getElem?_cons_zero, Option.some.injEq] at ht
          simpa [← ht] using hn
        | succ k => exact h2 k t (by simpa using ht)
      · right
        refine ⟨k + 1, t, by simpa using h1, h2, ?_, ?_⟩
        · intro j s' hj hs'
          cases j with
          | zero =>
            simp only [List.getElem?_cons_zero, Option.some.injEq] at hs'
            simpa [← hs'] using hn
          | succ j => exact h3 j s' (by omega) (by simpa using hs')
        · rw [h4, List.take_succ_cons]
          congr 3
          omega
    cases hr : s.reading with
    | none =>
      apply key
      · rintro ⟨h, _⟩; simp [hr] at h
      · simp only [gpsInitRun, hr]
        rw [readingsFrom_append]
        simp [readingsFrom, hr]
    | some e =>
      obtain ⟨b, hb, hiff⟩ := gpsSolveNow_spec num angle (readingsFrom 0 pre).length s (hs s (by simp))
      cases b with
      | false =>
        apply key
        · rintro ⟨_, h2, h3, h4⟩
          have := hiff.mpr ⟨h2, h3, h4⟩
          cases this
        · simp only [gpsInitRun, hr, hb, Outcome.bind_ok, Bool.false_eq_true, if_false]
          rw [readingsFrom_append]
          simp [readingsFrom, hr]
      | true =>
        right
        obtain ⟨h2, h3, h4⟩ := hiff.mp rfl
        refine ⟨0, s, rfl, ?_, ?_, ?_⟩
        · simp only [List.take_zero, List.append_nil]
          exact ⟨by simp [hr], h2, h3, h4⟩
        · intro j _ hj; omega
        · simp only [gpsInitRun, hr, hb, Outcome.bind_ok, if_true, List.take_zero, List.append_nil,
            Nat.add_zero]
          rfl

/-- The GPS frame is solved at the first frame with a reading that has enough readings before it and
comes after a turn that is large enough, with exactly the readings before it; with no such frame it
is never solved. -/
theorem C82_trigger (num : Int) (angle : ℝ) (ss : List GpsInitStep) (hs : ∀ s ∈ ss, StepOk s) :
    ((∀ (k : Nat) (s : GpsInitStep), ss[k]? = some s → ¬ Ready num angle (ss.take k) s) →
      gpsInitRun num angle 0 [] ss = .ok none) ∧
    ∀ (k : Nat) (s : GpsInitStep), ss[k]? = some s → Ready num angle (ss.take k) s →
      (∀ (j : Nat) (s' : GpsInitStep), j < k → ss[j]? = some s' → ¬ Ready num angle (ss.take j) s') →
      gpsInitRun num angle 0 [] ss = .ok (some (k, readingsFrom 0 (ss.take k))) := by
  have h := gpsInitRun_spec num angle ss [] hs
  simp only [List.length_nil, List.nil_append, Nat.zero_add, readingsFrom] at h
  rcases h with ⟨h1, h2⟩ | ⟨k, s, h1, h2, h3, h4⟩
  · exact ⟨fun _ => h1, fun k s hk hr _ => absurd hr (h2 k s hk)⟩
  · refine ⟨fun hn => absurd h2 (hn k s h1), ?_⟩
    intro k' s' hk' hr' hmin
    have : k = k' := by
      rcases lt_trichotomy k k' with hl | hl | hl
      · exact absurd h2 (hmin k s hl h1)
      · exact hl
      · exact absurd hr' (h3 k' s' hl hk')
    rw [← this]
    exact h4

/-- Three readings of places that are not on one line determine the GPS frame: no two frames explain
them. -/
theorem C82_unique_partial (lever : Fin 3 → ℝ) (poses : Nat → Rigid ℝ)
    (readings : List (Nat × (Fin 3 → ℝ))) (x y z : Nat × (Fin 3 → ℝ))
    (hx : x ∈ readings) (hy : y ∈ readings) (hz : z ∈ readings)
    (ht : Triangle (antenna (poses x.1) lever) (antenna (poses y.1) lever)
      (antenna (poses z.1) lever))
    (a b : Rigid ℝ) (ha : Explains a lever poses readings) (hb : Explains b lever poses readings) :
    a = b := by
  have e : ∀ c ∈ readings, ∀ i,
      (a.rot.mulVec (antenna (poses c.1) lever)) i + a.trans i =
        (b.rot.mulVec (antenna (poses c.1) lever)) i + b.trans i := by
    intro c hc i
    have h1 := ha.2 c hc
    have h2 := hb.2 c hc
    rw [antennaAt_eq] at h1 h2
    exact congrFun (h1.trans h2.symm) i
  have d : ∀ c ∈ readings,
      a.rot.mulVec (antenna (poses c.1) lever - antenna (poses x.1) lever) =
        b.rot.mulVec (antenna (poses c.1) lever - antenna (poses x.1) lever) := by
    intro c hc
    rw [Matrix.mulVec_sub, Matrix.mulVec_sub]
    funext i
    have h1 := e c hc i
    have h2 := e x hx i
    simp only [Pi.sub_apply]
    linarith
  have hr : a.rot = b.rot :=
    rotation_unique a.rot b.rot ha.1 hb.1 _ _ ht (d y hy) (d z hz)
  have htr : a.trans = b.trans := by
    funext i
    have := e x hx i
    rw [hr] at this
    linarith
  cases a; cases b
  simp only at hr htr
  rw [hr, htr]

/-- If the GPS frame only differs from the map by a rotation about the vertical, two readings that
are not one above the other are enough. -/
theorem C82_level_partial (lever : Fin 3 → ℝ) (poses : Nat → Rigid ℝ)
    (readings : List (Nat × (Fin 3 → ℝ))) (x y : Nat × (Fin 3 → ℝ))
    (hx : x ∈ readings) (hy : y ∈ readings)
    (ht : antenna (poses x.1) lever 0 ≠ antenna (poses y.1) lever 0 ∨
      antenna (poses x.1) lever 1 ≠ antenna (poses y.1) lever 1)
    (a b : Rigid ℝ) (ha : Explains a lever poses readings) (hb : Explains b lever poses readings)
    (hla : IsLevel a.rot) (hlb : IsLevel b.rot) : a = b := by
  have e : ∀ c ∈ readings, ∀ i,
      (a.rot.mulVec (antenna (poses c.1) lever)) i + a.trans i =
        (b.rot.mulVec (antenna (poses c.1) lever)) i + b.trans i := by
    intro c hc i
    have h1 := ha.2 c hc
    have h2 := hb.2 c hc
    rw [antennaAt_eq] at h1 h2
    exact congrFun (h1.trans h2.symm) i
  have up : ∀ r : Matrix (Fin 3) (Fin 3) ℝ, IsLevel r → r.mulVec (fun i => if i = 2 then 1 else 0) =
      fun i => if i = 2 then 1 else 0 := by
    rintro r ⟨_, h1, h2, h3⟩
    funext i
    fin_cases i <;> simp [Matrix.mulVec, dotProduct, Fin.sum_univ_three, h1, h2, h3]
  have d : a.rot.mulVec (antenna (poses y.1) lever - antenna (poses x.1) lever) =
        b.rot.mulVec (antenna (poses y.1) lever - antenna (poses x.1) lever) := by
    rw [Matrix.mulVec_sub, Matrix.mulVec_sub]
    funext i
    have h1 := e y hy i
    have h2 := e x hx i
    simp only [Pi.sub_apply]
    linarith
  have hr : a.rot = b.rot := by
    refine rotation_unique a.rot b.rot ha.1 hb.1 _ (fun i => if i = 2 then 1 else 0) ?_ d
      (by rw [up a.rot hla, up b.rot hlb])
    intro h0
    have h1 := congrFun h0 0
    have h2 := congrFun h0 1
    simp [cross_apply] at h1 h2
    rcases ht with ht | ht
    · exact ht (by linarith)
    · exact ht (by linarith)
  have htr : a.trans = b.trans := by
    funext i
    have := e x hx i
    rw [hr] at this
    linarith
  cases a; cases b
  simp only at hr htr
  rw [hr, htr]


/-- A quarter turn to the left. -/
def leftTurn : Matrix (Fin 3) (Fin 3) ℝ := !![0, -1, 0; 1, 0, 0; 0, 0, 1]

theorem isTurn3_one : IsTurn3 1 := ⟨by simp, by simp⟩

theorem isTurn3_quarter : IsTurn3 leftTurn := by
  constructor
  · ext i j
    fin_cases i <;> fin_cases j <;> simp [leftTurn, Matrix.mul_apply, Fin.sum_univ_three]
  · rw [Matrix.det_fin_three]; simp [leftTurn]

theorem headingChange_quarter : headingChange 1 leftTurn = Real.pi / 2 := by
  rw [headingChange_eq _ _ isTurn3_one isTurn3_quarter, mulVec_xNorm, mulVec_xNorm]
  simp [dotProduct, Fin.sum_univ_three, leftTurn]

/-- Three frames straight ahead, a metre apart, then a quarter turn. -/
def straightPose (k : Nat) : Rigid ℝ :=
  { rot := if k < 3 then 1 else leftTurn, trans := fun i => if i = 0 then (k : ℝ) else 0 }

/-- Frame `k` of that drive. -/
def straightStep (k : Nat) : GpsInitStep :=
  { reading := some fun i => if i = 0 then (k : ℝ) else 0
    poses := (List.range (k + 1)).map straightPose }

theorem straightStep_ok (k : Nat) : StepOk (straightStep k) := by
  refine ⟨by simp [straightStep], ?_⟩
  intro p hp
  obtain ⟨j, _, rfl⟩ := List.mem_map.mp hp
  simp only [straightPose]
  split
  · exact isTurn3_one
  · exact isTurn3_quarter

theorem straight_run : gpsInitRun 3 1 0 [] ((List.range 4).map straightStep) =
    .ok (some (3, readingsFrom 0 ((List.range 3).map straightStep))) := by
  have h := (C82_trigger 3 1 ((List.range 4).map straightStep) (by
    intro s hs
    obtain ⟨k, _, rfl⟩ := List.mem_map.mp hs
    exact straightStep_ok k)).2 3 (straightStep 3) (by simp [List.range_succ]) ?_ ?_
  · rw [h]; simp [List.range_succ]
  · refine ⟨by simp [straightStep], by norm_num, by simp [List.range_succ, readingsFrom, straightStep],
      straightPose 3, by simp [straightStep, List.range_succ], straightPose 0,
      by simp [straightStep, List.range_succ], ?_⟩
    have : headingChange (straightPose 0).rot (straightPose 3).rot = Real.pi / 2 := by
      simpa [straightPose] using headingChange_quarter
    rw [this]
    exact Real.one_le_pi_div_two
  · rintro j s' hj _ ⟨_, _, h3, _⟩
    have : (readingsFrom 0 (((List.range 4).map straightStep).take j)).length < 3 := by
      have hj' : j = 0 ∨ j = 1 ∨ j = 2 := by omega
      rcases hj' with rfl | rfl | rfl <;> simp [List.range_succ, readingsFrom, straightStep]
    omega

/-- The reverse of the general property: enough readings and enough of a turn do not make the
readings determine the frame. After a straight drive that ends in a turn the GPS frame is solved with
the readings of the straight part only, and those also fit a map that is upside down. -/
theorem C82_straight_fails :
    ∃ (ss : List GpsInitStep) (poses : Nat → Rigid ℝ) (used : List (Nat × (Fin 3 → ℝ)))
      (a b : Rigid ℝ),
      (∀ s ∈ ss, StepOk s) ∧ gpsInitRun 3 1 0 [] ss = .ok (some (3, used)) ∧
      (∀ s ∈ ss, s.poses = (List.range s.poses.length).map poses) ∧
      Explains a 0 poses used ∧ Explains b 0 poses used ∧ a ≠ b := by
  refine ⟨(List.range 4).map straightStep, straightPose, _, ⟨1, 0⟩,
    ⟨!![1, 0, 0; 0, -1, 0; 0, 0, -1], 0⟩, ?_, straight_run, ?_, ?_, ?_, ?_⟩
  · intro s hs
    obtain ⟨k, _, rfl⟩ := List.mem_map.mp hs
    exact straightStep_ok k
  · intro s hs
    obtain ⟨k, _, rfl⟩ := List.mem_map.mp hs
    simp [straightStep]
  · refine ⟨isTurn3_one, ?_⟩
    intro c hc
    simp only [List.range_succ, List.range_zero, List.nil_append, List.map_append, List.map_cons,
      List.map_nil, List.cons_append, readingsFrom, straightStep, List.mem_cons, List.not_mem_nil,
      or_false] at hc
    rcases hc with rfl | rfl | rfl <;> funext i <;> fin_cases i <;>
      simp [antennaAt, Rigid.mul, straightPose]
  · refine ⟨⟨?_, ?_⟩, ?_⟩
    · ext i j
      fin_cases i <;> fin_cases j <;> simp [Matrix.mul_apply, Fin.sum_univ_three]
    · rw [Matrix.det_fin_three]; simp
    · intro c hc
      simp only [List.range_succ, List.range_zero, List.nil_append, List.map_append, List.map_cons,
        List.map_nil, List.cons_append, readingsFrom, straightStep, List.mem_cons, List.not_mem_nil,
        or_false] at hc
      rcases hc with rfl | rfl | rfl <;> funext i <;> fin_cases i <;>
        simp [antennaAt, Rigid.mul, straightPose, Matrix.mulVec, dotProduct, Fin.sum_univ_three]
  · intro h
    have := congrFun (congrFun (congrArg Rigid.rot h) 1) 1
    norm_num at this

/-- With rounded rotation matrices the measured turn need not be a number: arbitrarily close to a
rotation there is a matrix for which sorting the turns is undefined, although the vehicle stands
still. -/
theorem C82_rounding_fails (ε : ℝ) (hε : 0 < ε) :
    ∃ r : Matrix (Fin 3) (Fin 3) ℝ, (∀ i j, |r i j - (1 : Matrix (Fin 3) (Fin 3) ℝ) i j| ≤ ε) ∧
      maxTurn [r, r] = .ub := by
  refine ⟨!![1 + ε, 0, 0; 0, 1, 0; 0, 0, 1], ?_, ?_⟩
  · intro i j
    fin_cases i <;> fin_cases j <;> simp [le_of_lt hε, abs_of_pos hε]
  · simp only [maxTurn, turnsOf, turnOf, mulVec_xNorm]
    rw [if_neg]
    simp only [dotProduct, Fin.sum_univ_three, not_and, not_le]
    intro _
    simp
    nlinarith

/-- Instance of the hypotheses of `C82_trigger`, `C82_turn`: the drive above is solved at frame 3. -/
example : (∀ s ∈ (List.range 4).map straightStep, StepOk s) ∧
    ∃ u, gpsInitRun 3 1 0 [] ((List.range 4).map straightStep) = .ok (some (3, u)) :=
  ⟨by
    intro s hs
    obtain ⟨k, _, rfl⟩ := List.mem_map.mp hs
    exact straightStep_ok k, _, straight_run⟩

/-- Instance of the hypotheses of `C82_unique_partial` and `C82_level_partial`: an L-shaped drive. -/
example : Triangle (antenna ⟨1, 0⟩ 0) (antenna ⟨1, ![1, 0, 0]⟩ 0) (antenna ⟨1, ![1, 1, 0]⟩ 0) ∧
    antenna ⟨1, 0⟩ 0 0 ≠ antenna ⟨1, ![1, 0, 0]⟩ 0 0 ∧ IsLevel 1 := by
  refine ⟨?_, ?_, isTurn3_one, by simp, by simp, by simp⟩
  · intro h
    have := congrFun h 2
    simp [cross_apply, antenna] at this
  · simp [antenna]

end Verif
