import Verif.Model.Mrvm
import Verif.Model.MatchScore
import Verif.Model.MotionFilter
import Verif.Proofs.Filters2
import Verif.Proofs.Outcome
import Mathlib.Tactic.Linarith
/-! C144: stricter settings never let more through. "Let through" is a sublist: the same points (or fewer) in the same order. -/
namespace Verif
section
variable {R : Type} [Field R] [LinearOrder R]

theorem scanFrom_strict (keep keep' : Nat → InnerPoint R → Bool) (h : ∀ i p, keep' i p = true → keep i p = true) :
    ∀ (ps : List (InnerPoint R)) (i : Nat),
      (scanFrom (fun (_ : Unit) i p => (keep' i p, ())) () i ps).1.pts.Sublist (scanFrom (fun (_ : Unit) i p => (keep i p, ())) () i ps).1.pts ∧
      (scanFrom (fun (_ : Unit) i p => (keep' i p, ())) () i ps).1.inl.Sublist (scanFrom (fun (_ : Unit) i p => (keep i p, ())) () i ps).1.inl ∧
      (scanFrom (fun (_ : Unit) i p => (keep i p, ())) () i ps).1.outl.Sublist (scanFrom (fun (_ : Unit) i p => (keep' i p, ())) () i ps).1.outl
  | [], _ => ⟨List.Sublist.refl _, List.Sublist.refl _, List.Sublist.refl _⟩
  | p :: ps, i => by
    obtain ⟨h1, h2, h3⟩ := scanFrom_strict keep keep' h ps (i + 1)
    have hp := h i p
    simp only [scanFrom]
    by_cases k' : keep' i p = true
    · simp only [k', hp k', if_true]
      exact ⟨h1.cons_cons _, h2.cons_cons _, h3⟩
    · by_cases k : keep i p = true
      · simp only [k', k, if_true, if_false, Bool.false_eq_true]
        exact ⟨h1.cons _, h2.cons _, h3.cons _⟩
      · simp only [k', k, if_false, Bool.false_eq_true]
        exact ⟨h1, h2, h3.cons_cons _⟩

theorem scanFrom_all (keep : Nat → InnerPoint R → Bool) : ∀ (ps : List (InnerPoint R)) (i : Nat),
    (scanFrom (fun (_ : Unit) i p => (keep i p, ())) () i ps).1.pts.Sublist ps
  | [], _ => List.Sublist.refl _
  | p :: ps, i => by
    have ih := scanFrom_all keep ps (i + 1)
    simp only [scanFrom]
    by_cases k : keep i p = true
    · simp only [k, if_true]
      exact ih.cons_cons _
    · simp only [k, if_false, Bool.false_eq_true]
      exact ih.cons _

theorem runScan_strict (keep keep' : Nat → InnerPoint R → Bool) (h : ∀ i p, keep' i p = true → keep i p = true)
    (st : FState R) (out a : InnerCloud R) :
    (runScan keep' { st with input := some a } out).2.points.Sublist (runScan keep { st with input := some a } out).2.points ∧
    (runScan keep' { st with input := some a } out).1.inliers.Sublist (runScan keep { st with input := some a } out).1.inliers ∧
    (runScan keep { st with input := some a } out).1.outliers.Sublist (runScan keep' { st with input := some a } out).1.outliers := by
  simp only [runScan, filterPrepare, List.nil_append]
  exact scanFrom_strict keep keep' h a.points 0

/-- C144, range filter: a larger least range or a smaller greatest range. -/
theorem C144_range (sqrt : R → R) {mn mn' mx mx' : R} (h1 : mn ≤ mn') (h2 : mx' ≤ mx) (st : FState R) (out a : InnerCloud R) :
    (rangeFilter sqrt mn' mx' { st with input := some a } out).2.points.Sublist (rangeFilter sqrt mn mx { st with input := some a } out).2.points ∧
    (rangeFilter sqrt mn' mx' { st with input := some a } out).1.inliers.Sublist (rangeFilter sqrt mn mx { st with input := some a } out).1.inliers ∧
    (rangeFilter sqrt mn mx { st with input := some a } out).1.outliers.Sublist (rangeFilter sqrt mn' mx' { st with input := some a } out).1.outliers := by
  refine runScan_strict _ _ (fun _ p hp => ?_) st out a
  unfold rangeKeep at hp ⊢
  simp only [Bool.and_eq_true, decide_eq_true_eq] at hp ⊢
  exact ⟨le_trans h1 hp.1, le_trans hp.2 h2⟩

/-- C144, limits along an axis, inside the limits of the number type. -/
theorem C144_axis {limit mn mn' mx mx' : R} (axis : Int) (h0 : -limit ≤ mn) (h1 : mn ≤ mn') (h2 : mx' ≤ mx) (h3 : mx ≤ limit)
    (st : FState R) (out a : InnerCloud R) :
    (axisFilter limit mn' mx' axis { st with input := some a } out).2.points.Sublist
      (axisFilter limit mn mx axis { st with input := some a } out).2.points := by
  unfold axisFilter
  by_cases hs : mn' = -limit ∧ mx' = limit
  · have hl : mn = -limit ∧ mx = limit := ⟨le_antisymm (hs.1 ▸ h1) h0, le_antisymm h3 (hs.2 ▸ h2)⟩
    rw [if_pos hs, if_pos hl]
  · rw [if_neg hs]
    by_cases hl : mn = -limit ∧ mx = limit
    · rw [if_pos hl]
      simp only [runScan, copyAll, filterPrepare, List.nil_append]
      exact scanFrom_all _ a.points 0
    · rw [if_neg hl]
      refine (runScan_strict _ _ (fun _ p hp => ?_) st out a).1
      unfold axisKeep at hp ⊢
      by_cases a0 : axis = 0
      · simp only [a0, if_true, Bool.not_eq_true', Bool.or_eq_false_iff, decide_eq_false_iff_not, not_lt] at hp ⊢
        exact ⟨le_trans h1 hp.1, le_trans hp.2 h2⟩
      · by_cases a1 : axis = 1
        · subst a1
          simp only [one_ne_zero, if_false, if_true, Bool.not_eq_true', Bool.or_eq_false_iff, decide_eq_false_iff_not, not_lt] at hp ⊢
          exact ⟨le_trans h1 hp.1, le_trans hp.2 h2⟩
        · by_cases a2 : axis = 2
          · subst a2
            simp only [OfNat.ofNat_ne_zero, OfNat.ofNat_ne_one, if_false, if_true, Bool.not_eq_true', Bool.or_eq_false_iff, decide_eq_false_iff_not, not_lt] at hp ⊢
            exact ⟨le_trans h1 hp.1, le_trans hp.2 h2⟩
          · simp [a0, a1, a2]

/-- C144, random sample: a smaller share, with the same random numbers. -/
theorem C144_random (almostOne : R) {rate rate' : R} (h : rate' ≤ rate) (draws : Nat → R) (st : FState R) (out a : InnerCloud R) :
    (randomFilter almostOne rate' draws { st with input := some a } out).2.points.Sublist
      (randomFilter almostOne rate draws { st with input := some a } out).2.points := by
  unfold randomFilter
  by_cases hs : rate' > almostOne
  · rw [if_pos hs, if_pos (lt_of_lt_of_le hs h)]
  · rw [if_neg hs]
    by_cases hl : rate > almostOne
    · rw [if_pos hl]
      simp only [runScan, copyAll, filterPrepare, List.nil_append]
      exact scanFrom_all _ a.points 0
    · rw [if_neg hl]
      refine (runScan_strict _ _ (fun i p hp => ?_) st out a).1
      simp only [decide_eq_true_eq] at hp ⊢
      exact le_trans hp h

/-- C144, box to be cut out: a box around the box. -/
theorem C144_box (mn mx mn' mx' : Vec3 R) (hx : mn'.x ≤ mn.x ∧ mx.x ≤ mx'.x) (hy : mn'.y ≤ mn.y ∧ mx.y ≤ mx'.y) (hz : mn'.z ≤ mn.z ∧ mx.z ≤ mx'.z)
    (hp : mn.x < mx.x ∧ mn.y < mx.y ∧ mn.z < mx.z) (st : FState R) (out a : InnerCloud R) :
    ∃ r r', bboxFilter mn mx { st with input := some a } out = .ok r ∧ bboxFilter mn' mx' { st with input := some a } out = .ok r' ∧
      r'.2.points.Sublist r.2.points := by
  have hp' : mn'.x < mx'.x ∧ mn'.y < mx'.y ∧ mn'.z < mx'.z :=
    ⟨lt_of_le_of_lt hx.1 (lt_of_lt_of_le hp.1 hx.2), lt_of_le_of_lt hy.1 (lt_of_lt_of_le hp.2.1 hy.2), lt_of_le_of_lt hz.1 (lt_of_lt_of_le hp.2.2 hz.2)⟩
  refine ⟨runScan (fun _ p => !boxContains mn mx p) { st with input := some a } out,
    runScan (fun _ p => !boxContains mn' mx' p) { st with input := some a } out, ?_, ?_, ?_⟩
  · simp only [bboxFilter, Outcome.check_pos hp, Outcome.bind_ok, Outcome.pure_eq]
  · simp only [bboxFilter, Outcome.check_pos hp', Outcome.bind_ok, Outcome.pure_eq]
  · refine (runScan_strict _ _ (fun _ p h => ?_) st out a).1
    by_contra hn
    simp only [Bool.not_eq_true', Bool.not_eq_false] at h hn
    unfold boxContains at h hn
    simp only [Bool.and_eq_true, decide_eq_true_eq] at hn
    obtain ⟨⟨⟨⟨⟨b1, b2⟩, b3⟩, b4⟩, b5⟩, b6⟩ := hn
    have : (decide (p.x ≥ mn'.x) && decide (p.y ≥ mn'.y) && decide (p.z ≥ mn'.z) && decide (p.x ≤ mx'.x) && decide (p.y ≤ mx'.y) && decide (p.z ≤ mx'.z)) = true := by
      simp only [Bool.and_eq_true, decide_eq_true_eq]
      exact ⟨⟨⟨⟨⟨le_trans hx.1 b1, le_trans hy.1 b2⟩, le_trans hz.1 b3⟩, le_trans b4 hx.2⟩, le_trans b5 hy.2⟩, le_trans b6 hz.2⟩
    rw [this] at h
    exact Bool.noConfusion h
end

/-! ### removal of the ground -/

theorem groundLoop_strict (cfg cfg' : GroundCfg) (hm : cfg.minPoints ≤ cfg'.minPoints) (hh : cfg.height ≤ cfg'.height) (c : InnerCloud Rat) :
    ∀ t : List (Voxel × List Nat), (groundLoop cfg' c t).pts.Sublist (groundLoop cfg c t).pts ∧ (groundLoop cfg' c t).inl.Sublist (groundLoop cfg c t).inl
  | [] => ⟨List.Sublist.refl _, List.Sublist.refl _⟩
  | (v, idx) :: t => by
    obtain ⟨h1, h2⟩ := groundLoop_strict cfg cfg' hm hh c t
    have hg : voxelIsGround cfg c.points v idx = true → voxelIsGround cfg' c.points v idx = true := by
      unfold voxelIsGround
      by_cases hv : v.z ≤ 0
      · simp only [hv, if_true, Bool.and_eq_true, decide_eq_true_eq]
        exact fun ⟨a, b⟩ => ⟨a, le_trans b hh⟩
      · simp only [hv, if_false]
        exact fun h => h
    simp only [groundLoop]
    by_cases s' : (idx.length : Int) < cfg'.minPoints
    · rw [if_pos s']
      by_cases s : (idx.length : Int) < cfg.minPoints
      · rw [if_pos s]
        exact ⟨h1, h2⟩
      · rw [if_neg s]
        by_cases g : voxelIsGround cfg c.points v idx = true
        · rw [if_pos g]
          exact ⟨h1, h2⟩
        · rw [if_neg g]
          exact ⟨h1.trans (List.sublist_append_right _ _), h2.trans (List.sublist_append_right _ _)⟩
    · have s : ¬ (idx.length : Int) < cfg.minPoints := fun h => s' (lt_of_lt_of_le h hm)
      rw [if_neg s', if_neg s]
      by_cases g : voxelIsGround cfg c.points v idx = true
      · rw [if_pos g, if_pos (hg g)]
        exact ⟨h1, h2⟩
      · rw [if_neg g]
        by_cases g' : voxelIsGround cfg' c.points v idx = true
        · rw [if_pos g']
          exact ⟨h1.trans (List.sublist_append_right _ _), h2.trans (List.sublist_append_right _ _)⟩
        · rw [if_neg g']
          exact ⟨(List.Sublist.refl _).append h1, (List.Sublist.refl _).append h2⟩

/-- C144, removal of the ground by cells: more points asked for in a cell, or a greater height taken for ground. -/
theorem C144_ground (cfg cfg' : GroundCfg) (hl : cfg'.leaf = cfg.leaf) (hm : cfg.minPoints ≤ cfg'.minPoints) (hh : cfg.height ≤ cfg'.height)
    (io : IterOrder (Voxel × List Nat)) (st : FState Rat) (out a : InnerCloud Rat) :
    (groundFilter cfg' io { st with input := some a } out).2.points.Sublist (groundFilter cfg io { st with input := some a } out).2.points ∧
    ∀ i ∈ (groundFilter cfg' io { st with input := some a } out).1.inliers, i ∈ (groundFilter cfg io { st with input := some a } out).1.inliers := by
  have ht : groundTable cfg' a = groundTable cfg a := by
    unfold groundTable groundKey
    rw [hl]
  have h := groundLoop_strict cfg cfg' hm hh a (io.order (groundTable cfg a))
  simp only [groundFilter, filterPrepare, List.nil_append, ht]
  refine ⟨h.1, fun i hi => ?_⟩
  rw [List.mem_mergeSort] at hi ⊢
  exact h.2.subset hi

/-! ### output of the static map -/

theorem truncInt_mono {p q : Rat} (h : p ≤ q) : truncInt p ≤ truncInt q := by
  unfold truncInt
  by_cases hp : 0 ≤ p
  · rw [if_pos hp, if_pos (le_trans hp h)]
    exact Int.floor_le_floor h
  · rw [if_neg hp]
    by_cases hq : 0 ≤ q
    · rw [if_pos hq]
      have h1 : ⌈p⌉ ≤ 0 := Int.ceil_le.mpr (by push_cast; linarith)
      have h2 : 0 ≤ ⌊q⌋ := Int.le_floor.mpr (by push_cast; linarith)
      omega
    · rw [if_neg hq]
      exact Int.ceil_le_ceil h

theorem outputCells_strict (cfg : MrvmCfg) {t t' : Nat} (h : t ≤ t') : ∀ (l : List (Voxel × Cell)) (r : List (InnerPoint Rat) × List (Voxel × Cell)),
    outputCells cfg t l = .ok r → ∃ r', outputCells cfg t' l = .ok r' ∧ r'.1.Sublist r.1
  | [], r, e => ⟨([], []), rfl, by cases e; exact List.Sublist.refl _⟩
  | (v, c) :: l, r, e => by
    rw [outputCells] at e
    by_cases hp : c.prob ≥ t
    · rw [if_pos hp] at e
      by_cases hn : c.points = []
      · rw [Outcome.check_neg (fun hh => hh hn), Outcome.bind_abort] at e
        cases e
      · rw [Outcome.check_pos hn, Outcome.bind_ok] at e
        cases ho : outputCells cfg t l with
        | abort => rw [ho, Outcome.bind_abort] at e; cases e
        | ub => rw [ho, Outcome.bind_ub] at e; cases e
        | ok s =>
          rw [ho, Outcome.bind_ok, Outcome.pure_eq] at e
          obtain ⟨s', e', hs⟩ := outputCells_strict cfg h l s ho
          have er := Outcome.ok.inj e
          by_cases hp' : c.prob ≥ t'
          · refine ⟨((outputCell cfg c).1 ++ s'.1, (v, (outputCell cfg c).2) :: s'.2), ?_, ?_⟩
            · rw [outputCells, if_pos hp', Outcome.check_pos hn, Outcome.bind_ok, e', Outcome.bind_ok, Outcome.pure_eq]
            · rw [← er]
              exact (List.Sublist.refl _).append hs
          · refine ⟨(s'.1, (v, c) :: s'.2), ?_, ?_⟩
            · rw [outputCells, if_neg hp', e', Outcome.bind_ok, Outcome.pure_eq]
            · rw [← er]
              exact hs.trans (List.sublist_append_right _ _)
    · rw [if_neg hp] at e
      have hp' : ¬ c.prob ≥ t' := fun hh => hp (le_trans h hh)
      cases ho : outputCells cfg t l with
      | abort => rw [ho, Outcome.bind_abort] at e; cases e
      | ub => rw [ho, Outcome.bind_ub] at e; cases e
      | ok s =>
        rw [ho, Outcome.bind_ok, Outcome.pure_eq] at e
        obtain ⟨s', e', hs⟩ := outputCells_strict cfg h l s ho
        have er := Outcome.ok.inj e
        refine ⟨(s'.1, (v, c) :: s'.2), ?_, ?_⟩
        · rw [outputCells, if_neg hp', e', Outcome.bind_ok, Outcome.pure_eq]
        · rw [← er]
          exact hs

/-- C144, the static map: a higher probability asked for. If a cloud is written for the lower one, one is written for every higher one that the
number type holds. -/
theorem C144_output (cfg : MrvmCfg) {p p' : Rat} (h : p ≤ p') (h' : truncInt (p' * 256) ≤ 255) (l : List (Voxel × Cell))
    (r : List (InnerPoint Rat) × List (Voxel × Cell)) (e : outputCloud cfg p l = .ok r) :
    ∃ r', outputCloud cfg p' l = .ok r' ∧ r'.1.Sublist r.1 := by
  unfold outputCloud threshold8 at e ⊢
  have hm : truncInt (p * 256) ≤ truncInt (p' * 256) := truncInt_mono (by linarith)
  by_cases hc : 0 ≤ truncInt (p * 256) ∧ truncInt (p * 256) ≤ 255
  · rw [if_pos hc, Outcome.bind_ok] at e
    rw [if_pos ⟨le_trans hc.1 hm, h'⟩, Outcome.bind_ok]
    exact outputCells_strict cfg (by omega) l r e
  · rw [if_neg hc, Outcome.bind_ub] at e
    cases e

/-! ### matches -/

/-- C144, matches of submaps: a match refused with a lower least score is refused with a higher one; what is found and its score do not depend
on the setting. -/
theorem C144_match {T R : Type} [Field R] [LinearOrder R] (expNeg : R → R) (useNdt : Bool) (E : MatchEngine T R) (normalise : T → T) {least least' : R}
    (h : least ≤ least') (k : RegKind) (s t : RegCloud) (guess : T) (r r' : T × R)
    (e : submapPairMatch expNeg useNdt E normalise least k s t guess = .ok r) (e' : submapPairMatch expNeg useNdt E normalise least' k s t guess = .ok r') :
    r'.2 = r.2 ∧ (r.2 < least → r'.1 = guess ∧ r.1 = guess) ∧ (least' ≤ r.2 → r' = r) := by
  unfold submapPairMatch at e e'
  cases h1 : regSetSource k ⟨none, none⟩ (some s) with
  | abort => rw [h1, Outcome.bind_abort] at e; cases e
  | ub => rw [h1, Outcome.bind_ub] at e; cases e
  | ok st1 =>
    rw [h1, Outcome.bind_ok] at e e'
    cases h2 : regSetTarget k st1 (some t) with
    | abort => rw [h2, Outcome.bind_abort] at e; cases e
    | ub => rw [h2, Outcome.bind_ub] at e; cases e
    | ok st2 =>
      rw [h2, Outcome.bind_ok] at e e'
      cases h3 : regAlign k st2 with
      | abort => rw [h3, Outcome.bind_abort] at e; cases e
      | ub => rw [h3, Outcome.bind_ub] at e; cases e
      | ok used =>
        rw [h3, Outcome.bind_ok] at e e'
        cases used with
        | none => cases e
        | some q =>
          dsimp only at e e'
          obtain ⟨a, ha⟩ : ∃ a, a = alignScore expNeg useNdt E k q.1 q.2 guess := ⟨_, rfl⟩
          rw [← ha] at e e'
          by_cases c : least ≤ a.2.2
          · rw [if_pos c] at e
            have er : (normalise a.2.1, a.2.2) = r := Outcome.ok.inj e
            by_cases c' : least' ≤ a.2.2
            · rw [if_pos c'] at e'
              have er' : (normalise a.2.1, a.2.2) = r' := Outcome.ok.inj e'
              rw [← er, ← er']
              exact ⟨rfl, fun hh => absurd c (not_le.mpr hh), fun _ => rfl⟩
            · rw [if_neg c'] at e'
              have er' : (guess, a.2.2) = r' := Outcome.ok.inj e'
              rw [← er, ← er']
              exact ⟨rfl, fun hh => absurd c (not_le.mpr hh), fun hh => absurd hh c'⟩
          · rw [if_neg c] at e
            have er : (guess, a.2.2) = r := Outcome.ok.inj e
            have c' : ¬ least' ≤ a.2.2 := fun hh => c (le_trans h hh)
            rw [if_neg c'] at e'
            have er' : (guess, a.2.2) = r' := Outcome.ok.inj e'
            rw [← er, ← er']
            exact ⟨rfl, fun _ => ⟨rfl, rfl⟩, fun hh => absurd hh c'⟩

/-! ### where it is false -/

/-- C144 is false for a chain with a random sample: with a greater least range a point is kept that was not kept before, as the random numbers
now go to other points. -/
theorem C144_chain_fails : ∃ (draws : Nat → Rat) (a : InnerCloud Rat) (p : InnerPoint Rat),
    p ∈ (factoryFilter [stageOf (rangeFilter (fun x => x) 4 100) {}, stageOf (randomFilter (999 / 1000) (1 / 2) draws) {}] { input := some a } freshCloud).2.points ∧
    p ∉ (factoryFilter [stageOf (rangeFilter (fun x => x) 1 100) {}, stageOf (randomFilter (999 / 1000) (1 / 2) draws) {}] { input := some a } freshCloud).2.points :=
  ⟨fun i => if i = 0 then 0 else 1, { stamp := ⟨0, 0, 1⟩, points := [⟨1, 0, 0, 0, 0⟩, ⟨3, 0, 0, 0, 0⟩] }, ⟨3, 0, 0, 0, 0⟩,
    by decide +kernel, by decide +kernel⟩

noncomputable section
/-- A move along the first axis, without a turn. -/
def alongFirst (d : ℝ) : RTransform := ⟨1, ![d, 0, 0]⟩

theorem alongFirst_mul (a b : ℝ) : (alongFirst a).mul (alongFirst b) = alongFirst (b + a) := by
  unfold RTransform.mul alongFirst
  congr 1
  · exact Matrix.one_mul 1
  · rw [Matrix.one_mulVec]
    funext i
    fin_cases i <;> simp

theorem alongFirst_key (r d e : ℝ) : keyCondition (fun x => x) { translationRange := r, angleRange := 0 } e (alongFirst d) ↔ r ≤ |d| := by
  unfold keyCondition norm3d alongFirst angleOff
  have : Real.sqrt (d ^ 2 + 0 ^ 2 + 0 ^ 2) = |d| := by
    rw [show d ^ 2 + 0 ^ 2 + 0 ^ 2 = d ^ 2 by ring, Real.sqrt_sq_eq_abs]
  simp only [Matrix.cons_val_zero, Matrix.cons_val_one, Matrix.cons_val, this]
  constructor
  · rintro (h | ⟨h, _⟩)
    · exact h
    · norm_num at h
  · exact Or.inl

theorem alongFirst_zero : (⟨1, 0⟩ : RTransform) = alongFirst 0 := by
  unfold alongFirst
  congr 1
  funext i
  fin_cases i <;> rfl

/-- C144 is false for key frames: on the way to 2, 7/2, 1/2 and 7/2 metres, key frames every 2 metres are one, key frames every 3 metres are three. -/
theorem C144_key_fails : ∃ (near far : List (RTransform × ℝ)),
    (keyRounds (fun x => x) { translationRange := 2, angleRange := 0 } ⟨1, 0⟩ near).map Prod.fst = [alongFirst 2, alongFirst (7 / 2), alongFirst (1 / 2), alongFirst (7 / 2)] ∧
    (keyRounds (fun x => x) { translationRange := 3, angleRange := 0 } ⟨1, 0⟩ far).map Prod.fst = [alongFirst 2, alongFirst (7 / 2), alongFirst (1 / 2), alongFirst (7 / 2)] ∧
    (keyRounds (fun x => x) { translationRange := 2, angleRange := 0 } ⟨1, 0⟩ near).map Prod.snd = [true, false, false, false] ∧
    (keyRounds (fun x => x) { translationRange := 3, angleRange := 0 } ⟨1, 0⟩ far).map Prod.snd = [false, true, true, true] := by
  have n : keyRounds (fun x => x) { translationRange := 2, angleRange := 0 } (alongFirst 0)
      [(alongFirst 2, 0), (alongFirst (3 / 2), 0), (alongFirst (-3 / 2), 0), (alongFirst (3 / 2), 0)] =
      [(alongFirst 2, true), (alongFirst (7 / 2), false), (alongFirst (1 / 2), false), (alongFirst (7 / 2), false)] := by
    rw [keyRounds, if_pos ((alongFirst_key 2 2 0).mpr (by norm_num)), alongFirst_mul,
      keyRounds, if_neg (fun h => absurd ((alongFirst_key 2 (3 / 2) 0).mp h) (by norm_num [abs_of_pos])), alongFirst_mul,
      keyRounds, if_neg (fun h => absurd ((alongFirst_key 2 (-3 / 2) 0).mp h) (by norm_num [abs_of_neg, abs_of_pos])), alongFirst_mul,
      keyRounds, if_neg (fun h => absurd ((alongFirst_key 2 (3 / 2) 0).mp h) (by norm_num [abs_of_pos])), alongFirst_mul, keyRounds]
    norm_num
  have f : keyRounds (fun x => x) { translationRange := 3, angleRange := 0 } (alongFirst 0)
      [(alongFirst 2, 0), (alongFirst (7 / 2), 0), (alongFirst (-3), 0), (alongFirst 3, 0)] =
      [(alongFirst 2, false), (alongFirst (7 / 2), true), (alongFirst (1 / 2), true), (alongFirst (7 / 2), true)] := by
    rw [keyRounds, if_neg (fun h => absurd ((alongFirst_key 3 2 0).mp h) (by norm_num [abs_of_pos])), alongFirst_mul,
      keyRounds, if_pos ((alongFirst_key 3 (7 / 2) 0).mpr (by norm_num [abs_of_pos])), alongFirst_mul,
      keyRounds, if_pos ((alongFirst_key 3 (-3) 0).mpr (by norm_num [abs_of_neg, abs_of_pos])), alongFirst_mul,
      keyRounds, if_pos ((alongFirst_key 3 3 0).mpr (by norm_num [abs_of_pos])), alongFirst_mul, keyRounds]
    norm_num
  rw [alongFirst_zero]
  refine ⟨[(alongFirst 2, 0), (alongFirst (3 / 2), 0), (alongFirst (-3 / 2), 0), (alongFirst (3 / 2), 0)],
    [(alongFirst 2, 0), (alongFirst (7 / 2), 0), (alongFirst (-3), 0), (alongFirst 3, 0)], ?_, ?_, ?_, ?_⟩
  · rw [n]
    rfl
  · rw [f]
    rfl
  · rw [n]
    rfl
  · rw [f]
    rfl
end

/-! ### examples -/

example : (rangeFilter (fun x : Rat => x) 4 100 { input := some { stamp := ⟨0, 0, 1⟩, points := [⟨1, 0, 0, 0, 0⟩, ⟨3, 0, 0, 0, 0⟩] } } freshCloud).2.points =
    [⟨3, 0, 0, 0, 0⟩] := by decide +kernel

example : outputCloud { maxPoints := 1, hit := 7 / 10, miss := 4 / 10, resolution := 1, zOffset := 0 } (1 / 2)
    [(⟨0, 0, 0⟩, { prob := 200, points := [⟨0, 0, 0, 0, 0⟩] })] =
    .ok ([⟨0, 0, 0, 0, 0⟩], [(⟨0, 0, 0⟩, { prob := 200, points := [⟨0, 0, 0, 0, 0⟩] })]) := by decide +kernel
end Verif
