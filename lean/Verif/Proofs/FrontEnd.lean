import Verif.Spec.FrontEnd
import Mathlib.Tactic.Ring
namespace Verif
open Spec

section
variable {G C : Type} [Group G]

/-- The cloud can be motion-compensated, whatever the motion. -/
def FeGood (cfg : FeCfg G C) (c : C) : Prop :=
  cfg.compensate = true → ∀ m, ∃ c', cfg.comp m c = .ok c'

structure FeInv (cfg : FeCfg G C) (start : Nat) (es : List (FeEvent G C))
    (hist : List (FeEntry G C)) (st : FeState G C) : Prop where
  got : st.got = !hist.isEmpty
  key : hist ≠ [] → ∃ ref n, newestKey hist = some (ref, st.poseTarget) ∧
    st.target = some (ref, n) ∧ (cfg.fastIcp = true → n = true) ∧
    newestPose hist = some (st.poseTarget * st.acc)
  init : hist = [] → st.poseTarget = 1 ∧ st.acc = 1
  frames : st.frames = keyFrames hist.reverse
  sorted : st.waiting.Pairwise (fun a b => a.2 ≤ b.2)
  ge : ∀ w ∈ st.waiting, st.last ≤ w.2
  future : ∀ w ∈ st.waiting, ∀ a ∈ arrivals es, w.2 ≤ a.2
  begin_le : start ≤ st.last
  lastOk : st.last = start ∨ ∀ a ∈ arrivals es, st.last ≤ a.2
  arr : (arrivals es).Pairwise (fun a b => a.2 ≤ b.2)
  good : ∀ w ∈ st.waiting, FeGood cfg w.1
  goodArr : ∀ a ∈ arrivals es, FeGood cfg a.1

theorem keyFrames_append (l m : List (FeEntry G C)) :
    keyFrames (l ++ m) = keyFrames l ++ keyFrames m := by
  induction l with
  | nil => rfl
  | cons e l ih =>
    cases e with
    | late raw => simpa [keyFrames] using ih
    | placed raw r p c b => cases b <;> simp [keyFrames, ih]

theorem feTarget_ok (cfg : FeCfg G C) (hn : cfg.fastIcp = true → ∀ c, cfg.normals c = .ok true)
    (c : C) : ∃ n, feTarget cfg c = .ok (c, n) ∧ (cfg.fastIcp = true → n = true) := by
  unfold feTarget
  cases hf : cfg.fastIcp with
  | false => exact ⟨false, by simp, by simp⟩
  | true =>
    refine ⟨true, ?_, fun _ => rfl⟩
    simp [hn hf c]

theorem feSource_ok (cfg : FeCfg G C) (m : G) (c : C) (h : FeGood cfg c) :
    ∃ c', feSource cfg m c = .ok c' ∧ Moved cfg m c c' := by
  unfold feSource Moved
  cases hc : cfg.compensate with
  | false => exact ⟨c, by simp, by simp⟩
  | true =>
    obtain ⟨c', h'⟩ := h hc m
    exact ⟨c', by simpa using h', by simpa using h'⟩

theorem feResult_kept (cfg : FeCfg G C) (a g : G) : Kept cfg a g (feResult cfg a g) := by
  unfold Kept feResult
  cases cfg.compensate <;> cases cfg.average <;> simp

/-- One processed cloud. -/
theorem feProcess_ok (cfg : FeCfg G C) (start : Nat)
    (hn : cfg.fastIcp = true → ∀ c, cfg.normals c = .ok true) (pred : G) (es : List (FeEvent G C))
    (hist : List (FeEntry G C)) (st : FeState G C) (c : C) (t : Nat) (rest : List (C × Nat))
    (hw : st.waiting = (c, t) :: rest) (h : FeInv cfg start es hist st) :
    ∃ st' e, feProcess cfg pred c t { st with waiting := rest } = .ok (st', e) ∧
      FeInv cfg start es (e :: hist) st' ∧ PlacedWell cfg hist pred e ∧ rawOf e = c ∧
      st'.waiting = rest := by
  have hge : st.last ≤ t := h.ge (c, t) (by rw [hw]; simp)
  have hgood : FeGood cfg c := h.good (c, t) (by rw [hw]; simp)
  have hs := h.sorted
  rw [hw, List.pairwise_cons] at hs
  have hfut : ∀ a ∈ arrivals es, t ≤ a.2 := h.future (c, t) (by rw [hw]; simp)
  have hrest : ∀ w ∈ rest, w ∈ st.waiting := fun w hw' => by rw [hw]; simp [hw']
  unfold feProcess
  dsimp only
  by_cases hh : hist = []
  · have hg : st.got = false := by rw [h.got, hh]; rfl
    obtain ⟨n, ht, hnn⟩ := feTarget_ok cfg hn c
    rw [if_pos hg, ht]
    refine ⟨_, _, rfl, ?_, Or.inl ⟨hh, rfl, rfl, rfl, rfl⟩, rfl, rfl⟩
    obtain ⟨hp, ha⟩ := h.init hh
    refine { got := rfl, key := fun _ => ⟨c, n, ?_, rfl, hnn, ?_⟩, init := fun h => by simp at h,
             frames := ?_, sorted := hs.2, ge := fun w hw' => hs.1 w hw',
             future := fun w hw' => h.future w (hrest w hw'), begin_le := le_trans h.begin_le hge,
             lastOk := Or.inr hfut, arr := h.arr, good := fun w hw' => h.good w (hrest w hw'),
             goodArr := h.goodArr }
    · simp [newestKey, hp]
    · simp [newestPose, hp, ha]
    · simp [keyFrames_append, h.frames, keyFrames]
  · have hg : st.got = true := by rw [h.got]; cases hist with
      | nil => exact absurd rfl hh
      | cons _ _ => rfl
    obtain ⟨ref, n, hk, ht, hnn, hpose⟩ := h.key hh
    rw [if_neg (by simp [hg]), if_neg (by omega), ht]
    dsimp only
    obtain ⟨src, hsrc, hmsrc⟩ := feSource_ok cfg (st.acc⁻¹ * (st.poseTarget⁻¹ * pred)) c hgood
    generalize hres : feResult cfg (cfg.align ref src (st.poseTarget⁻¹ * pred))
      (st.poseTarget⁻¹ * pred) = res
    obtain ⟨cl, hcl, hmcl⟩ := feSource_ok cfg (st.acc⁻¹ * res) c hgood
    have hbef : ∀ x : G, (st.poseTarget * st.acc)⁻¹ * (st.poseTarget * x) = st.acc⁻¹ * x := by
      intro x; simp [mul_assoc]
    have hkey : st.poseTarget⁻¹ * (st.poseTarget * res) = res := by simp
    have hpw : ∀ b, cfg.key res = b →
        PlacedWell cfg hist pred (.placed c (some ref) (st.poseTarget * res) cl b) := by
      intro b hb
      refine Or.inr ⟨ref, st.poseTarget, st.poseTarget * st.acc, src, res, hk, hpose, rfl, ?_, ?_,
        rfl, ?_, ?_⟩
      · have := hbef (st.poseTarget⁻¹ * pred)
        rw [mul_inv_cancel_left] at this
        rw [this]; exact hmsrc
      · rw [← hres]; exact feResult_kept cfg _ _
      · rw [hbef]; exact hmcl
      · rw [hkey, hb]
    rw [Outcome.check_pos hnn]
    simp only [Outcome.bind_ok, hsrc, hres, hcl, Outcome.pure_eq]
    cases hkb : cfg.key res with
    | true =>
      obtain ⟨n', ht', hnn'⟩ := feTarget_ok cfg hn cl
      simp only [if_true, ht', Outcome.bind_ok]
      refine ⟨_, _, rfl, ?_, hpw _ hkb, rfl, rfl⟩
      refine { got := ?_, key := fun _ => ⟨cl, n', ?_, rfl, hnn', ?_⟩, init := fun h => by simp at h,
               frames := ?_, sorted := hs.2, ge := fun w hw' => hs.1 w hw',
               future := fun w hw' => h.future w (hrest w hw'), begin_le := le_trans h.begin_le hge,
               lastOk := Or.inr hfut, arr := h.arr, good := fun w hw' => h.good w (hrest w hw'),
               goodArr := h.goodArr }
      · simp [hg]
      · rfl
      · simp [newestPose]
      · simp [keyFrames_append, h.frames, keyFrames]
    | false =>
      simp only [Bool.false_eq_true, if_false]
      refine ⟨_, _, rfl, ?_, hpw _ hkb, rfl, rfl⟩
      refine { got := ?_, key := fun _ => ⟨ref, n, ?_, ?_, hnn, ?_⟩, init := fun h => by simp at h,
               frames := ?_, sorted := hs.2, ge := fun w hw' => hs.1 w hw',
               future := fun w hw' => h.future w (hrest w hw'), begin_le := le_trans h.begin_le hge,
               lastOk := Or.inr hfut, arr := h.arr, good := fun w hw' => h.good w (hrest w hw'),
               goodArr := h.goodArr }
      · simp [hg]
      · simpa [newestKey] using hk
      · simpa using ht
      · simp [newestPose]
      · simp [keyFrames_append, h.frames, keyFrames]

theorem allPlaced_mono (cfg : FeCfg G C) {p q : List G} (hpq : ∀ x ∈ p, x ∈ q) :
    ∀ (l hist : List (FeEntry G C)), AllPlacedWell cfg p hist l → AllPlacedWell cfg q hist l
  | [], _, _ => trivial
  | e :: l, hist, h => by
    obtain ⟨⟨pr, hp, hw⟩, h2⟩ := h
    exact ⟨⟨pr, hpq pr hp, hw⟩, allPlaced_mono cfg hpq l (e :: hist) h2⟩

theorem feRun_ok (cfg : FeCfg G C) (start : Nat)
    (hn : cfg.fastIcp = true → ∀ c, cfg.normals c = .ok true) :
    ∀ (es : List (FeEvent G C)) (hist : List (FeEntry G C)) (st : FeState G C),
      FeInv cfg start es hist st →
      ∃ st' log, feRun cfg es st = .ok (st', log) ∧ FeInv cfg start [] (log.reverse ++ hist) st' ∧
        AllPlacedWell cfg (predictions es) hist log ∧
        log.map rawOf ++ st'.waiting.map Prod.fst = st.waiting.map Prod.fst ++
          ((arrivals es).filter fun a => decide (start ≤ a.2)).map Prod.fst
  | [], hist, st, h => ⟨st, [], rfl, by simpa using h, trivial, by simp [arrivals]⟩
  | .arrive c t :: es, hist, st, h => by
    have ha := h.arr
    simp only [arrivals, List.pairwise_cons] at ha
    have hinv : FeInv cfg start es hist (feArrive c t st) := by
      unfold feArrive
      by_cases htl : t < st.last
      · rw [if_pos htl]
        exact { h with
          future := fun w hw a ha' => h.future w hw a (by simp [arrivals, ha'])
          lastOk := h.lastOk.imp (fun x => x) fun h2 a ha' => h2 a (by simp [arrivals, ha'])
          arr := ha.2
          goodArr := fun a ha' => h.goodArr a (by simp [arrivals, ha']) }
      · rw [if_neg htl]
        refine { got := h.got, key := h.key, init := h.init, frames := h.frames, sorted := ?_,
                 ge := ?_, future := ?_, begin_le := h.begin_le, lastOk := ?_, arr := ha.2, good := ?_,
                 goodArr := fun a ha' => h.goodArr a (by simp [arrivals, ha']) }
        · rw [List.pairwise_append]
          refine ⟨h.sorted, by simp, fun a hm b hb => ?_⟩
          simp only [List.mem_singleton] at hb
          subst hb
          exact h.future a hm (c, t) (by simp [arrivals])
        · intro w hw
          rcases List.mem_append.1 hw with hw | hw
          · exact h.ge w hw
          · simp only [List.mem_singleton] at hw; subst hw; simp only; omega
        · intro w hw a ha'
          rcases List.mem_append.1 hw with hw | hw
          · exact h.future w hw a (by simp [arrivals, ha'])
          · simp only [List.mem_singleton] at hw; subst hw; exact ha.1 a ha'
        · exact h.lastOk.imp (fun x => x) fun h2 a ha' => h2 a (by simp [arrivals, ha'])
        · intro w hw
          rcases List.mem_append.1 hw with hw | hw
          · exact h.good w hw
          · simp only [List.mem_singleton] at hw; subst hw
            exact h.goodArr (c, t) (by simp [arrivals])
    obtain ⟨st', log, hr, hi, hp, hl⟩ := feRun_ok cfg start hn es hist _ hinv
    refine ⟨st', log, by simpa [feRun] using hr, hi, hp, ?_⟩
    rw [hl]
    have hst := h.begin_le
    by_cases htl : t < st.last
    · have : ¬ start ≤ t := by
        rcases h.lastOk with h2 | h2
        · omega
        · have := h2 (c, t) (by simp [arrivals]); simp only at this; omega
      simp [feArrive, if_pos htl, arrivals, this]
    · have : start ≤ t := by omega
      simp [feArrive, if_neg htl, arrivals, this]
  | .round pred :: es, hist, st, h => by
    have h' : FeInv cfg start es hist st := { h with }
    cases hw : st.waiting with
    | nil =>
      obtain ⟨st', log, hr, hi, hp, hl⟩ := feRun_ok cfg start hn es hist st h'
      refine ⟨st', log, ?_, hi, allPlaced_mono cfg (fun x hx => by simp [predictions, hx]) _ _ hp, ?_⟩
      · simp [feRun, feRound, hw, hr]
      · rw [hl, hw]; rfl
    | cons w rest =>
      obtain ⟨c, t⟩ := w
      obtain ⟨st1, e, h1, hi1, hp1, hc1, hw1⟩ :=
        feProcess_ok cfg start hn pred es hist st c t rest hw h'
      obtain ⟨st', log, hr, hi, hp, hl⟩ := feRun_ok cfg start hn es (e :: hist) st1 hi1
      refine ⟨st', e :: log, ?_, ?_, ⟨⟨pred, by simp [predictions], hp1⟩,
        allPlaced_mono cfg (fun x hx => by simp [predictions, hx]) _ _ hp⟩, ?_⟩
      · simp [feRun, feRound, hw, h1, hr]
      · simpa using hi
      · simp [hl, hw1, hc1, arrivals]

end

section
variable {R : Type} [Field R] [LinearOrder R] [IsStrictOrderedRing R]

theorem compensatePoints_ok (slerp : Matrix (Fin 3) (Fin 3) R → Matrix (Fin 3) (Fin 3) R → R →
    Matrix (Fin 3) (Fin 3) R) (delta : Rigid R) :
    ∀ ps : List (InnerPoint R), (∀ p ∈ ps, 0 ≤ p.factor ∧ p.factor ≤ 1) →
      compensatePoints slerp delta ps = .ok (ps.map fun p =>
        { x := ((slerp 1 delta.rot p.factor).mulVec ![p.x, p.y, p.z]) 0 + delta.trans 0 * p.factor
          y := ((slerp 1 delta.rot p.factor).mulVec ![p.x, p.y, p.z]) 1 + delta.trans 1 * p.factor
          z := ((slerp 1 delta.rot p.factor).mulVec ![p.x, p.y, p.z]) 2 + delta.trans 2 * p.factor
          intensity := p.intensity
          factor := p.factor })
  | [], _ => rfl
  | p :: ps, h => by
    have ih := compensatePoints_ok slerp delta ps fun q hq => h q (List.mem_cons_of_mem _ hq)
    have hp := h p (List.mem_cons_self ..)
    simp only [compensatePoints, compensatePoint, interpolateTransform, Outcome.check_pos hp,
      Outcome.bind_ok, Outcome.pure_eq, ih, List.map_cons, Rigid.id, Pi.zero_apply, sub_zero, zero_add]

theorem compensatePoints_abort (slerp : Matrix (Fin 3) (Fin 3) R → Matrix (Fin 3) (Fin 3) R → R →
    Matrix (Fin 3) (Fin 3) R) (delta : Rigid R) :
    ∀ ps : List (InnerPoint R), (∃ p ∈ ps, ¬ (0 ≤ p.factor ∧ p.factor ≤ 1)) →
      compensatePoints slerp delta ps = .abort
  | [], h => by simp at h
  | p :: ps, h => by
    by_cases hp : 0 ≤ p.factor ∧ p.factor ≤ 1
    · have ih := compensatePoints_abort slerp delta ps (by
        obtain ⟨q, hq, hn⟩ := h
        rcases List.mem_cons.1 hq with rfl | hq
        · exact absurd hp hn
        · exact ⟨q, hq, hn⟩)
      simp only [compensatePoints, compensatePoint, interpolateTransform, Outcome.check_pos hp,
        Outcome.bind_ok, Outcome.pure_eq, ih, Outcome.bind_abort]
    · simp only [compensatePoints, compensatePoint, interpolateTransform, Outcome.check_neg hp,
        Outcome.bind_abort]
end
end Verif
