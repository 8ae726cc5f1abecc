import Verif.Proofs.PlaneSampler
/-! Property theorems C98: the sampler that keeps plane points. -/
namespace Verif
open Spec

/-- Settings of a sampler that has not filtered yet. -/
def FreshSampler (s : PlaneSampler) : Prop :=
  s.det.voxels = [] ∧ toF32 s.rate = s.rate ∧ 0 ≤ s.rate ∧ s.rate ≤ 1

/-- A sampler as constructed, with any settings, is fresh. -/
theorem fresh_settings (rate leaf : Rat) (n : Nat) (hr : toF32 rate = rate) :
    FreshSampler (((PlaneSampler.new.setRate rate).setLeaf leaf).setMin n) := by
  have h1 : (toF32 1 : Rat) = 1 := by decide +kernel
  have h2 : toF32 (toF32 (1 / 1000000)) = toF32 (1 / 1000000) ∧ 0 ≤ toF32 (1 / 1000000) ∧
    toF32 (1 / 1000000) ≤ 1 ∧ (0 : Rat) < toF64 (1 / 1000000) := by decide +kernel
  have hd : ∀ (s : PlaneSampler), FreshSampler s → FreshSampler ((s.setLeaf leaf).setMin n) := by
    intro s hs
    unfold PlaneSampler.setMin PlaneSampler.setLeaf PlaneDetector.setMin PlaneDetector.setLeaf
    dsimp only
    split <;> exact hs
  apply hd
  have hn : PlaneSampler.new.det.voxels = [] := rfl
  unfold PlaneSampler.setRate
  split
  · exact ⟨hn, h1, by norm_num, by norm_num⟩
  · rename_i ha
    split
    · exact ⟨hn, h2.1, h2.2.1, h2.2.2.1⟩
    · rename_i hb
      exact ⟨hn, hr, (h2.2.2.2.le).trans (not_lt.1 hb), not_lt.1 ha⟩

theorem sorted_planes (r : List Nat) (h : r.Nodup) :
    (r.insertionSort (· ≤ ·)).Pairwise (· < ·) ∧ ∀ i, i ∈ r.insertionSort (· ≤ ·) ↔ i ∈ r := by
  have hp := List.perm_insertionSort (· ≤ ·) r
  have hs : (r.insertionSort (· ≤ ·)).Pairwise (· ≤ ·) := List.pairwise_insertionSort (· ≤ ·) r
  refine ⟨?_, fun i => hp.mem_iff⟩
  have hn : (r.insertionSort (· ≤ ·)).Nodup := hp.nodup_iff.2 h
  exact (hs.and hn).imp (fun hab => lt_of_le_of_ne hab.1 hab.2)

/-- C98, the part that holds.  On the first call, with a rate below 0.999999 and a cloud whose last point is
a plane point, the sampler returns every plane point and, of the others, the configured share, spread evenly;
all in the order of the input. -/
theorem C98_first_partial (seg : List (Vec3 Rat) → List Nat) (hseg : Segmentation seg) (s : PlaneSampler)
    (hs : FreshSampler s) (hrate : s.rate ≤ toF64 (999999 / 1000000)) (c : List (Vec3 Rat))
    (hlen : c.length ≤ 2 ^ 24) (hr : CellsInReach s.det.leaf c)
    (hlast : onPlane seg s.det.leaf s.det.minPoints s.height c (c.length - 1) = true) (out : List (Vec3 Rat)) :
    ∃ s' out', (s.setInput (some c)).filter seg out = .ok (s', out') ∧
      Sampled (onPlane seg s.det.leaf s.det.minPoints s.height c) s.rate c out' := by
  cases c with
  | nil => simp [onPlane] at hlast
  | cons p ps =>
    obtain ⟨hv, hf, h0, h1⟩ := hs
    obtain ⟨d, r, hd, hdet, hn, hmem⟩ := detect_fresh hseg s.det hv (p :: ps) (by simp) hr s.height
    obtain ⟨hsort, hsm⟩ := sorted_planes r hn
    obtain ⟨keep, hk, hkP, hkn⟩ := planeLoop_ok h0 h1 hf (p :: ps) 0 (r.insertionSort (· ≤ ·)) 0 0 hsort
      (fun f hfm => by have := ((hmem f).1 ((hsm f).1 hfm)).1; omega)
      (fun _ => (hsm _).2 ((hmem _).2 ⟨by simp, by simpa using hlast⟩))
      ⟨by simp, by simp⟩ (le_refl _) (by simpa using hlen)
    refine ⟨{ s.setInput (some (p :: ps)) with det := d }, _, ?_, keep, rfl, ?_, ?_⟩
    · unfold PlaneSampler.setInput PlaneSampler.filter
      dsimp only
      rw [if_neg (not_lt.2 hrate), hd]
      simp only [Outcome.bind_ok]
      rw [hdet]
      simp only [Outcome.bind_ok]
      rw [hk]
      rfl
    · intro i hi ho
      exact hkP i ((hsm i).2 ((hmem i).2 ⟨hi, ho⟩))
    · intro n hnl
      have h := hkn n hnl
      have hiff : ∀ j ∈ List.range n, decide (j ∉ r.insertionSort (· ≤ ·)) =
          !onPlane seg s.det.leaf s.det.minPoints s.height (p :: ps) j := by
        intro j hj
        have hj' : j < (p :: ps).length := lt_of_lt_of_le (List.mem_range.1 hj) hnl
        cases ho : onPlane seg s.det.leaf s.det.minPoints s.height (p :: ps) j with
        | true =>
          have : j ∈ r.insertionSort (· ≤ ·) := (hsm j).2 ((hmem j).2 ⟨hj', ho⟩)
          simp [(hsm j).1 this]
        | false =>
          have : j ∉ r.insertionSort (· ≤ ·) := by
            intro hc
            have := ((hmem j).1 ((hsm j).1 hc)).2
            rw [ho] at this; cases this
          simp only [this, not_false_eq_true, decide_true, Bool.not_false]
      rw [← List.range_eq_range', Nat.zero_add, Nat.zero_add] at h
      have e1 : (List.range n).countP (fun j => decide (j ∉ r.insertionSort (· ≤ ·))) =
          (List.range n).countP (fun i => !onPlane seg s.det.leaf s.det.minPoints s.height (p :: ps) i) := by
        apply List.countP_congr
        intro j hj
        rw [hiff j hj]
      have e2 : (List.range n).countP (fun j => decide (j ∉ r.insertionSort (· ≤ ·)) && keep j) =
          (List.range n).countP (fun i => !onPlane seg s.det.leaf s.det.minPoints s.height (p :: ps) i && keep i) := by
        apply List.countP_congr
        intro j hj
        rw [hiff j hj]
      rw [e1, e2] at h
      exact h

/-- C98, what is missing: in every other case of a first call below that rate, that is, whenever the last
point of the cloud is not a plane point, the sampler reads the front of an empty vector. -/
theorem C98_last_fails (seg : List (Vec3 Rat) → List Nat) (hseg : Segmentation seg) (s : PlaneSampler)
    (hs : FreshSampler s) (hrate : s.rate ≤ toF64 (999999 / 1000000)) (c : List (Vec3 Rat)) (hne : c ≠ [])
    (hr : CellsInReach s.det.leaf c)
    (hlast : onPlane seg s.det.leaf s.det.minPoints s.height c (c.length - 1) = false) (out : List (Vec3 Rat)) :
    (s.setInput (some c)).filter seg out = .ub := by
  cases c with
  | nil => exact absurd rfl hne
  | cons p ps =>
    obtain ⟨hv, hf, h0, h1⟩ := hs
    obtain ⟨d, r, hd, hdet, hn, hmem⟩ := detect_fresh hseg s.det hv (p :: ps) (by simp) hr s.height
    obtain ⟨hsort, hsm⟩ := sorted_planes r hn
    have hub := planeLoop_ub (rate := s.rate) (p :: ps) 0 (r.insertionSort (· ≤ ·)) 0 0 hsort
      (fun f hfm => by have := ((hmem f).1 ((hsm f).1 hfm)).1; omega) (by simp)
      (fun hc => by
        have := ((hmem _).1 ((hsm _).1 hc)).2
        rw [Nat.zero_add, hlast] at this
        cases this)
    unfold PlaneSampler.setInput PlaneSampler.filter
    dsimp only
    rw [if_neg (not_lt.2 hrate), hd]
    simp only [Outcome.bind_ok]
    rw [hdet]
    simp only [Outcome.bind_ok]
    rw [hub]
    rfl

/-- In particular for every cloud with fewer points than a voxel needs. -/
theorem C98_small_fails (seg : List (Vec3 Rat) → List Nat) (hseg : Segmentation seg) (s : PlaneSampler)
    (hs : FreshSampler s) (hrate : s.rate ≤ toF64 (999999 / 1000000)) (c : List (Vec3 Rat)) (hne : c ≠ [])
    (hr : CellsInReach s.det.leaf c) (hsm : c.length < s.det.minPoints) (out : List (Vec3 Rat)) :
    (s.setInput (some c)).filter seg out = .ub := by
  apply C98_last_fails seg hseg s hs hrate c hne hr
  unfold onPlane
  cases hc : c[c.length - 1]? with
  | none => rfl
  | some p =>
    dsimp only
    rw [decide_eq_false_iff_not]
    rintro ⟨_, h, _⟩
    have : (cellMates s.det.leaf c (planeCell s.det.leaf p)).length ≤ c.length := by
      unfold cellMates
      have := List.length_filter_le (fun i => decide (c[i]?.map (planeCell s.det.leaf) = some (planeCell s.det.leaf p)))
        (List.range c.length)
      simpa using this
    omega

/-- C98: with a rate above 0.999999 the output is the input; without an input it is left alone. -/
theorem C98_all (seg : List (Vec3 Rat) → List Nat) (s : PlaneSampler) (out : List (Vec3 Rat)) :
    (∀ c, c ≠ [] → toF64 (999999 / 1000000) < s.rate →
      ∃ s', (s.setInput (some c)).filter seg out = .ok (s', c)) ∧
    (s.setInput none).filter seg out = .ok (s.setInput none, out) ∧
    (s.setInput (some [])).filter seg out = .ok (s.setInput none, out) := by
  refine ⟨?_, rfl, rfl⟩
  intro c hne hr
  cases c with
  | nil => exact absurd rfl hne
  | cons p ps =>
    refine ⟨{ s with cloud := some (p :: ps) }, ?_⟩
    unfold PlaneSampler.setInput PlaneSampler.filter
    dsimp only
    rw [if_pos hr]

/-! ### Witnesses -/

/-- A patch of floor: `n` points on the ground within one cell. -/
def floorPatch (n : Nat) : List (Vec3 Rat) := (List.range n).map fun i => ⟨i / 32, 0, -1 / 2⟩

/-- A sampler for a eighth of the points. -/
def eighth : PlaneSampler := ((PlaneSampler.new.setRate (1 / 8)).setMin 5)

/-- The output, if there is one. -/
def sampledPoints (o : Outcome (PlaneSampler × List (Vec3 Rat))) : Option (List (Vec3 Rat)) :=
  match o with
  | .ok r => some r.2
  | _ => none

/-- The hypotheses of `C98_first_partial` are met by two far points followed by a patch of floor; one of the
two points is kept and all of the floor. -/
example : FreshSampler eighth ∧ eighth.rate ≤ toF64 (999999 / 1000000) ∧
    onPlane (fun _ => []) eighth.det.leaf eighth.det.minPoints eighth.height
      (⟨20, 0, 0⟩ :: ⟨30, 0, 0⟩ :: floorPatch 6) 7 = true ∧
    sampledPoints ((eighth.setInput (some (⟨20, 0, 0⟩ :: ⟨30, 0, 0⟩ :: floorPatch 6))).filter (fun _ => []) []) =
      some (⟨20, 0, 0⟩ :: floorPatch 6) := by
  unfold FreshSampler
  decide +kernel

example : CellsInReach eighth.det.leaf (⟨20, 0, 0⟩ :: ⟨30, 0, 0⟩ :: floorPatch 6) := by
  refine ⟨by decide +kernel, ?_⟩
  have : ∀ p ∈ (⟨20, 0, 0⟩ :: ⟨30, 0, 0⟩ :: floorPatch 6 : List (Vec3 Rat)), |p.z| ≤ 10 ^ 9 ∧
      (|toF32 (p.x / eighth.det.leaf)| < 2147483648 ∧ |toF32 (p.y / eighth.det.leaf)| < 2147483648 ∧
        |toF32 (p.z / eighth.det.leaf)| < 2147483648) := by decide +kernel
  intro p hp
  obtain ⟨h1, h2, h3, h4⟩ := this p hp
  refine ⟨h1, ?_⟩
  rintro v (rfl | rfl | rfl) <;> assumption

/-- Filtering the same cloud twice with one sampler: the voxels of the first call are still there, so every
plane point is listed twice, and all but the first are then treated as ordinary points. -/
def filterTwice (c c' : List (Vec3 Rat)) : Outcome (PlaneSampler × List (Vec3 Rat)) := do
  let r ← (eighth.setInput (some c)).filter (fun _ => []) []
  (r.1.setInput (some c')).filter (fun _ => []) []

/-- C98 does not hold on the second call: the same patch of floor is kept whole the first time, two of its
six points the second. -/
theorem C98_again_fails :
    sampledPoints ((eighth.setInput (some (floorPatch 6))).filter (fun _ => []) []) = some (floorPatch 6) ∧
    sampledPoints (filterTwice (floorPatch 6) (floorPatch 6)) = some (floorPatch 2) := by
  decide +kernel

/-- A second, shorter cloud is even read outside its bounds. -/
theorem C98_shorter_fails : (match filterTwice (floorPatch 8) (floorPatch 6) with | .ub => true | _ => false) = true := by
  decide +kernel

/-- C98.  Whatever least number of points is asked for, cells of fewer than five are never taken for planes,
so that a sampler given fewer points than that reads past its list of plane points. -/
theorem C98_least_fails (seg : List (Vec3 Rat) → List Nat) (hseg : Segmentation seg) (rate leaf : Rat) (n : Nat)
    (hr : toF32 rate = rate) (hrate : rate ≤ toF64 (999999 / 1000000)) (c : List (Vec3 Rat)) (hne : c ≠ [])
    (hcells : CellsInReach leaf c) (hsm : c.length < max n 5) (out : List (Vec3 Rat)) :
    (((((PlaneSampler.new.setRate rate).setLeaf leaf).setMin n).setInput (some c)).filter seg out) = .ub := by
  have hk : toF32 (1 / 1000000) ≤ toF64 (999999 / 1000000) ∧ ¬ (1 : Rat) ≤ toF64 (999999 / 1000000) := by decide +kernel
  have hset : ∀ s : PlaneSampler, ((s.setLeaf leaf).setMin n).rate = s.rate ∧
      ((s.setLeaf leaf).setMin n).det.leaf = leaf ∧ ((s.setLeaf leaf).setMin n).det.minPoints = max n 5 := by
    intro s
    unfold PlaneSampler.setMin PlaneSampler.setLeaf PlaneDetector.setMin PlaneDetector.setLeaf
    dsimp only
    split
    · exact ⟨rfl, rfl, by dsimp only; omega⟩
    · exact ⟨rfl, rfl, by dsimp only; omega⟩
  obtain ⟨e1, e2, e3⟩ := hset (PlaneSampler.new.setRate rate)
  refine C98_small_fails seg hseg _ (fresh_settings rate leaf n hr) ?_ c hne (by rw [e2]; exact hcells) (by rw [e3]; exact hsm) out
  rw [e1]
  unfold PlaneSampler.setRate
  split
  · rename_i h
    exact absurd (le_trans (le_of_lt h) hrate) hk.2
  · split
    · exact hk.1
    · exact hrate

example : toF32 (1 / 8 : Rat) = 1 / 8 ∧ (1 / 8 : Rat) ≤ toF64 (999999 / 1000000) ∧ (floorPatch 4).length < max 3 5 := by
  decide +kernel

/-- C98.  Without settings of the user a cell at or below the height of the sensor is a plane if it holds at
least ten points within 0.2 of each other in height; cells are 0.8 wide. -/
theorem C98_default (seg : List (Vec3 Rat) → List Nat) (c : List (Vec3 Rat)) (i : Nat) (p : Vec3 Rat) (hp : c[i]? = some p)
    (hz : p.z ≤ 0) :
    onPlane seg PlaneSampler.new.det.leaf PlaneSampler.new.det.minPoints PlaneSampler.new.height c i = true ↔
      10 ≤ (cellMates (toF32 (4 / 5)) c (planeCell (toF32 (4 / 5)) p)).length ∧
      ∀ a ∈ pointsAt c (cellMates (toF32 (4 / 5)) c (planeCell (toF32 (4 / 5)) p)),
        ∀ b ∈ pointsAt c (cellMates (toF32 (4 / 5)) c (planeCell (toF32 (4 / 5)) p)), toF32 (a.z - b.z) ≤ toF32 (1 / 5) := by
  have hleaf : PlaneSampler.new.det.leaf = toF32 (4 / 5) ∧ PlaneSampler.new.det.minPoints = 10 ∧
      PlaneSampler.new.height = toF32 (1 / 5) := ⟨rfl, rfl, rfl⟩
  have hlt : toF32 (1 / 5) < toF32 (4 / 5) ∧ (0 : Rat) < toF32 (4 / 5) := by decide +kernel
  have hk : (planeCell (toF32 (4 / 5)) p).2.2 ≤ 0 := by
    have h1 : p.z / toF32 (4 / 5) ≤ 0 := div_nonpos_of_nonpos_of_nonneg hz (le_of_lt hlt.2)
    have h2 : toF32 (p.z / toF32 (4 / 5)) ≤ 0 := by
      have := toF32_mono h1
      rwa [show toF32 (0 : Rat) = 0 from by decide +kernel] at this
    unfold planeCell
    dsimp only
    unfold truncInt
    split
    · rename_i h
      rw [le_antisymm h2 h]
      simp
    · exact_mod_cast (Int.ceil_le.2 (by simpa using h2))
  rw [hleaf.1, hleaf.2.1, hleaf.2.2]
  unfold onPlane
  rw [hp]
  dsimp only
  rw [decide_eq_true_iff]
  constructor
  · rintro ⟨_, h, h' | h'⟩
    · exact ⟨h, h'.2⟩
    · omega
  · rintro ⟨h, h'⟩
    exact ⟨hlt.1, h, Or.inl ⟨hk, h'⟩⟩

example : onPlane (fun _ => []) PlaneSampler.new.det.leaf PlaneSampler.new.det.minPoints PlaneSampler.new.height
    (floorPatch 10) 3 = true := by decide +kernel

end Verif
