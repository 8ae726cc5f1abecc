import Verif.Proofs.FrontEnd
import Verif.Model.Collector
import Verif.Model.Filters
import Mathlib.Tactic.NormNum
import Mathlib.Tactic.FinCases
import Verif.Proofs.Filters2
import Mathlib.Algebra.Order.Field.Rat
/-! Property theorems C57 (motion compensation) and C58 (placing clouds). -/
namespace Verif
open Spec

section
variable {R : Type} [Field R] [LinearOrder R] [IsStrictOrderedRing R]

/-- C57: for every cloud whose scan fractions lie in [0,1] and every motion, compensation succeeds,
keeps the stamp, the number and order of the points, their intensities and fractions, and moves the
point at fraction `f` by the rotation at `f` between none and the full rotation and by `f` times the
translation; whatever the output cloud held before is gone. -/
theorem C57_points (slerp : Matrix (Fin 3) (Fin 3) R → Matrix (Fin 3) (Fin 3) R → R →
    Matrix (Fin 3) (Fin 3) R) (raw out : InnerCloud R) (delta : Rigid R)
    (h : ∀ p ∈ raw.points, 0 ≤ p.factor ∧ p.factor ≤ 1) :
    ∃ c, motionCompensation slerp raw delta out = .ok c ∧ c.stamp = raw.stamp ∧
      c.points.length = raw.points.length ∧
      ∀ (i : Nat) (p : InnerPoint R), raw.points[i]? = some p → ∃ q : InnerPoint R, c.points[i]? = some q ∧
        q.intensity = p.intensity ∧ q.factor = p.factor ∧
        ∀ k : Fin 3, (![q.x, q.y, q.z] k) =
          ((slerp 1 delta.rot p.factor).mulVec ![p.x, p.y, p.z]) k + p.factor * delta.trans k := by
  have e := compensatePoints_ok slerp delta _ h
  simp only [motionCompensation, e, Outcome.bind_ok, Outcome.pure_eq]
  refine ⟨_, rfl, rfl, by simp, ?_⟩
  intro i p hp
  rw [List.getElem?_map, hp, Option.map_some]
  refine ⟨_, rfl, rfl, rfl, ?_⟩
  intro k
  fin_cases k <;> simp [mul_comm]

/-- C57: the point taken at the start of the scan stays where it is. -/
theorem C57_start (slerp : Matrix (Fin 3) (Fin 3) R → Matrix (Fin 3) (Fin 3) R → R →
    Matrix (Fin 3) (Fin 3) R) (h0 : ∀ a b, slerp a b 0 = a) (delta : Rigid R) (p : InnerPoint R)
    (hf : p.factor = 0) : compensatePoint slerp delta p = .ok p := by
  have hc : (0 : R) ≤ p.factor ∧ p.factor ≤ 1 := by rw [hf]; exact ⟨le_refl _, zero_le_one⟩
  obtain ⟨px, py, pz, pi, pf⟩ := p
  simp only at hf
  subst hf
  simp only [compensatePoint, interpolateTransform, Outcome.check_pos hc, Outcome.bind_ok,
    Outcome.pure_eq]
  simp [Rigid.id, h0]

/-- C57: the point taken at the end of the scan moves by the whole motion. -/
theorem C57_end (slerp : Matrix (Fin 3) (Fin 3) R → Matrix (Fin 3) (Fin 3) R → R →
    Matrix (Fin 3) (Fin 3) R) (h1 : ∀ a b, slerp a b 1 = b) (delta : Rigid R) (p : InnerPoint R)
    (hf : p.factor = 1) : ∃ q, compensatePoint slerp delta p = .ok q ∧
      q.intensity = p.intensity ∧ q.factor = p.factor ∧
      ∀ k : Fin 3, (![q.x, q.y, q.z] k) = (delta.rot.mulVec ![p.x, p.y, p.z]) k + delta.trans k := by
  have hc : (0 : R) ≤ p.factor ∧ p.factor ≤ 1 := by rw [hf]; exact ⟨zero_le_one, le_refl _⟩
  simp only [compensatePoint, interpolateTransform, Outcome.check_pos hc, Outcome.bind_ok,
    Outcome.pure_eq]
  refine ⟨_, rfl, rfl, rfl, ?_⟩
  intro k
  fin_cases k <;> simp [Rigid.id, hf, h1]

/-- C57: a fraction outside [0,1] would stop the program. -/
theorem C57_stops (slerp : Matrix (Fin 3) (Fin 3) R → Matrix (Fin 3) (Fin 3) R → R →
    Matrix (Fin 3) (Fin 3) R) (raw out : InnerCloud R) (delta : Rigid R)
    (h : ∃ p ∈ raw.points, ¬ (0 ≤ p.factor ∧ p.factor ≤ 1)) :
    motionCompensation slerp raw delta out = .abort := by
  rw [motionCompensation, compensatePoints_abort slerp delta _ h]; rfl

omit [IsStrictOrderedRing R] in
theorem chainLoop_factors (ss : List (Stage R))
    (hs : ∀ s ∈ ss, ∀ c out p, p ∈ (s c out).points →
      p ∈ c.points ∨ p ∈ out.points ∨ p.factor = 0) (good : R → Prop) (h0 : good 0) :
    ∀ m1 m2 : InnerCloud R, (∀ p ∈ m1.points, good p.factor) → (∀ p ∈ m2.points, good p.factor) →
      ∀ p ∈ (chainLoop ss m1 m2).points, good p.factor := by
  induction ss with
  | nil => intro m1 m2 _ h2; exact h2
  | cons s ss ih =>
    intro m1 m2 h1 h2
    have : ∀ p ∈ (s m1 m2).points, good p.factor := by
      intro p hp
      rcases hs s (by simp) m1 m2 p hp with h | h | h
      · exact h1 p h
      · exact h2 p h
      · rw [h]; exact h0
    exact ih (fun t ht => hs t (List.mem_cons_of_mem _ ht)) _ _ this this
end

/-- C57: no cloud that comes through the collector and a chain of filters stops the compensation:
the collector writes fractions in [0,1), and filters that pass on points or put new ones with
fraction 0 keep them there. -/
theorem C57_factors {P : Type} (mk : P × Rat → InnerPoint Rat) (hmk : ∀ p, (mk p).factor = p.2)
    (stamp : SimpleTime) (pts : List P) (stages : List (Stage Rat)) (st : FState Rat)
    (hs : ∀ s ∈ stages, ∀ c out p, p ∈ (s c out).points →
      p ∈ c.points ∨ p ∈ out.points ∨ p.factor = 0) (raw : RawTime) (out : InnerCloud Rat)
    (hout : out.points = []) :
    ∀ p ∈ (factoryFilter stages (st.setInput (some ⟨raw, (withFactors stamp pts).points.map mk⟩))
      out).2.points, 0 ≤ p.factor ∧ p.factor ≤ 1 := by
  have hw : ∀ p ∈ (withFactors stamp pts).points, 0 ≤ p.2 ∧ p.2 ≤ 1 := by
    intro p hp
    simp only [withFactors, List.mem_map] at hp
    obtain ⟨⟨a, i⟩, hm, rfl⟩ := hp
    have hi : i < pts.length := by
      have := List.mem_zipIdx hm
      omega
    have hl : (0 : Rat) < (pts.length : Rat) := by exact_mod_cast (by omega : 0 < pts.length)
    constructor
    · exact div_nonneg (by exact_mod_cast Nat.zero_le i) (le_of_lt hl)
    · rw [div_le_one hl]; exact_mod_cast le_of_lt hi
  intro p hp
  unfold factoryFilter at hp
  cases hin : (st.setInput (some ⟨raw, (withFactors stamp pts).points.map mk⟩)).input with
  | none => rw [hin] at hp; simp [hout] at hp
  | some c =>
    have hc : ∀ q ∈ c.points, 0 ≤ q.factor ∧ q.factor ≤ 1 := by
      have : c = ⟨raw, (withFactors stamp pts).points.map mk⟩ := by
        simp only [FState.setInput] at hin
        split at hin <;> simp_all
      subst this
      intro q hq
      simp only [List.mem_map] at hq
      obtain ⟨a, ha, rfl⟩ := hq
      rw [hmk]; exact hw a ha
    rw [hin] at hp
    dsimp only at hp
    cases stages with
    | nil => exact hc p hp
    | cons s ss =>
      exact chainLoop_factors (s :: ss) hs (fun f => 0 ≤ f ∧ f ≤ 1) ⟨le_refl _, zero_le_one⟩ c
        freshCloud hc (by intro q hq; simp [freshCloud] at hq) p hp

/-- C57: the hypothesis on filters holds of every filter that decides point by point (range, axis,
random, bounding box, ...), whatever it decides. -/
theorem C57_scan_stage (keep : Nat → InnerPoint Rat → Bool) (st : FState Rat)
    (c out : InnerCloud Rat) (p : InnerPoint Rat)
    (hp : p ∈ (stageOf (runScan keep) st c out).points) : p ∈ c.points ∨ p ∈ out.points ∨ p.factor = 0 := by
  have hscan : ∀ (ps : List (InnerPoint Rat)) (i : Nat),
      ∀ q ∈ (scanFrom (fun (_ : Unit) i p => (keep i p, ())) () i ps).1.pts, q ∈ ps := by
    intro ps
    induction ps with
    | nil => intro i q hq; simp [scanFrom] at hq
    | cons a ps ih =>
      intro i q hq
      simp only [scanFrom] at hq
      by_cases hk : keep i a = true
      · simp only [hk, if_true, List.mem_cons] at hq
        rcases hq with rfl | hq
        · simp
        · exact List.mem_cons_of_mem _ (ih _ q hq)
      · simp only [hk, Bool.false_eq_true, if_false] at hq
        exact List.mem_cons_of_mem _ (ih _ q hq)
  unfold stageOf runScan at hp
  cases hin : (st.setInput (some c)).input with
  | none => rw [hin] at hp; exact Or.inr (Or.inl hp)
  | some d =>
    have hd : d = c := by
      simp only [FState.setInput] at hin
      split at hin <;> simp_all
    subst hd
    rw [hin] at hp
    simp only [filterPrepare, List.nil_append] at hp
    exact Or.inl (hscan _ _ p hp)

theorem averageAll_factor : ∀ (t : List (Voxel × List (InnerPoint Rat))) (l : List (InnerPoint Rat)),
    averageAll t = .ok l → ∀ p ∈ l, p.factor = 0
  | [], l, h, p, hp => by
    simp only [averageAll, Outcome.ok.injEq] at h
    subst h; simp at hp
  | (v, ps) :: t, l, h, p, hp => by
    simp only [averageAll] at h
    rw [Outcome.bind_eq_ok] at h
    obtain ⟨a, hq, h⟩ := h
    rw [Outcome.bind_eq_ok] at h
    obtain ⟨as, ha, h⟩ := h
    simp only [Outcome.pure_eq, Outcome.ok.injEq] at h
    subst h
    simp only [averagePoint] at hq
    rw [Outcome.check_bind_eq_ok] at hq
    simp only [Outcome.pure_eq, Outcome.ok.injEq] at hq
    rcases List.mem_cons.1 hp with rfl | hp
    · rw [← hq.2]
    · exact averageAll_factor t as ha p hp

/-- C57 is false behind a voxel-grid filter: it resets every fraction to 0, so that compensation
moves no point at all, whatever the motion. -/
theorem C57_voxel_grid_fails (slerp : Matrix (Fin 3) (Fin 3) Rat → Matrix (Fin 3) (Fin 3) Rat → Rat →
    Matrix (Fin 3) (Fin 3) Rat) (h0 : ∀ a b, slerp a b 0 = a)
    (size : Rat) (io : IterOrder (Voxel × List (InnerPoint Rat))) (st : FState Rat)
    (c out : InnerCloud Rat) (hc : c.points ≠ []) (r : FState Rat × InnerCloud Rat)
    (h : voxelGridFilter size io (st.setInput (some c)) out = .ok r) (delta : Rigid Rat)
    (out' : InnerCloud Rat) : motionCompensation slerp r.2 delta out' = .ok r.2 := by
  rw [setInput_input st c hc] at h
  simp only [voxelGridFilter, filterPrepare, List.nil_append] at h
  rw [Outcome.bind_eq_ok] at h
  obtain ⟨pts, hp, h⟩ := h
  simp only [Outcome.pure_eq, Outcome.ok.injEq] at h
  subst h
  have hf := averageAll_factor _ _ hp
  have : ∀ ps : List (InnerPoint Rat), (∀ p ∈ ps, p.factor = 0) →
      compensatePoints slerp delta ps = .ok ps := by
    intro ps
    induction ps with
    | nil => intro _; rfl
    | cons p ps ih =>
      intro h
      have h1 := C57_start slerp h0 delta p (h p (by simp))
      simp [compensatePoints, ih fun q hq => h q (List.mem_cons_of_mem _ hq), h1]
  simp only [motionCompensation, this pts hf, Outcome.bind_ok, Outcome.pure_eq]

-- a cloud of two points, one at the start and one in the middle of the scan; pure translation
example : (match motionCompensation (fun a _ (_ : Rat) => a)
      (⟨⟨0, 0, 1⟩, [⟨1, 0, 0, 7, 0⟩, ⟨1, 0, 0, 8, 1 / 2⟩]⟩ : InnerCloud Rat)
      { rot := 1, trans := ![2, 4, 0] } freshCloud with
    | .ok c => c.points.map (fun p => (p.intensity, p.factor))
    | _ => []) = [(7, 0), (8, 1 / 2)] := by
  rw [motionCompensation, compensatePoints_ok _ _ _ (by intro p hp; simp at hp; rcases hp with rfl | rfl <;> norm_num)]
  rfl

section
variable {G C : Type} [Group G]

/-- C58: for every configuration, every sequence of arriving clouds in time order (any number at equal
stamps) interleaved in any way with the rounds of the matching thread, any predictions and any answers
of the matcher, the thread does not stop; the clouds not older than the first pose are placed in the
order they arrived, each as `PlacedWell` says, and the stored frames are exactly the key frames. -/
theorem C58_placed_partial (cfg : FeCfg G C) (es : List (FeEvent G C)) (start : Nat)
    (hn : cfg.fastIcp = true → ∀ c, cfg.normals c = .ok true)
    (hc : ∀ a ∈ arrivals es, cfg.compensate = true → ∀ m, ∃ c', cfg.comp m a.1 = .ok c')
    (ht : (arrivals es).Pairwise (fun a b => a.2 ≤ b.2)) :
    ∃ st log, feRun cfg es (feInit start) = .ok (st, log) ∧
      AllPlacedWell cfg (predictions es) [] log ∧
      log.map rawOf ++ st.waiting.map Prod.fst =
        ((arrivals es).filter fun a => decide (start ≤ a.2)).map Prod.fst ∧
      st.frames = keyFrames log := by
  have h : FeInv cfg start es [] (feInit start : FeState G C) :=
    { got := rfl, key := fun h => absurd rfl h, init := fun _ => ⟨rfl, rfl⟩, frames := rfl
      sorted := List.Pairwise.nil, ge := fun w hw => by simp [feInit] at hw
      future := fun w hw => by simp [feInit] at hw, begin_le := le_refl _, lastOk := Or.inl rfl
      arr := ht, good := fun w hw => by simp [feInit] at hw, goodArr := hc }
  obtain ⟨st, log, hr, hi, hp, hl⟩ := feRun_ok cfg start hn es [] _ h
  refine ⟨st, log, hr, hp, by simpa [feInit] using hl, ?_⟩
  simpa using hi.frames

end

/-- A configuration over the integers under addition, with clouds named by numbers. -/
def feDemo (fast : Bool) : FeCfg (Multiplicative Int) Nat :=
  { fastIcp := fast, compensate := false, average := none, comp := fun _ c => .ok c
    align := fun a b _ => Multiplicative.ofAdd ((b : Int) - a), key := fun m => decide (2 ≤ m.toAdd.natAbs)
    normals := fun _ => .ok true }

-- three clouds in order; the third becomes a key frame at 2
example : (match feRun (feDemo true) [.arrive 0 10, .round 1, .arrive 1 11, .arrive 2 12, .round 1, .round 1]
      (feInit 0) with
    | .ok r => r.1.frames.map (fun f => (f.1, f.2.toAdd))
    | _ => []) = [(0, 0), (2, 2)] := by decide

/-- C58 is false for clouds out of order: the cloud that arrives second, older than the first, is not
placed but becomes the reference of the next match, while the pose of the next cloud is still computed
from the pose of the key frame. -/
theorem C58_late_fails : (match feRun (feDemo false)
      [.arrive 0 10, .arrive 5 9, .arrive 7 11, .round 1, .round 1, .round 1] (feInit 0) with
    | .ok (st, [.placed 0 none _ _ true, .late 5, .placed 7 (some 5) pose _ true]) =>
      decide (st.frames.map Prod.fst = [0, 7] ∧ pose.toAdd = 2)
    | _ => false) = true := by decide

/-- C58 is false for clouds out of order: with the fast ICP the program stops, because the late cloud
becomes the target without normals. -/
theorem C58_late_stops_fails : (match feRun (feDemo true)
      [.arrive 0 10, .arrive 5 9, .arrive 7 11, .round 1, .round 1, .round 1] (feInit 0) with
    | .abort => true
    | _ => false) = true := by decide

end Verif
