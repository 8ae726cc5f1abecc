import Verif.Model.Standing
import Verif.Props.NormalEst
import Verif.Props.LeastNorm
import Verif.Props.IcpFast
import Verif.Props.Normals
import Verif.Props.FrontEnd
/-! C134: a prediction that is right is kept; a standing sensor does not drift. -/
namespace Verif
open Spec Matrix

/-! ### steps and loops -/

theorem motionOf_apply (T : Mat3 × (Fin 3 → ℝ)) (h : Function.Bijective (icpMove T)) (p : Fin 3 → ℝ) :
    motionOf T p = icpMove T p := by
  unfold motionOf
  rw [dif_pos h]
  rfl

theorem icpMove_shift (v p : Fin 3 → ℝ) : icpMove (1, v) p = fun i => p i + v i := by
  funext i
  simp [icpMove]

theorem shift_bij (v : Fin 3 → ℝ) : Function.Bijective (icpMove (1, v)) := by
  constructor
  · intro a b h
    rw [icpMove_shift, icpMove_shift] at h
    funext i
    have := congrFun h i
    simpa using this
  · intro b
    refine ⟨fun i => b i - v i, ?_⟩
    rw [icpMove_shift]
    funext i
    simp

theorem shiftMotion_apply (v p : Fin 3 → ℝ) : shiftMotion v p = fun i => p i + v i := by
  unfold shiftMotion
  rw [motionOf_apply _ (shift_bij v), icpMove_shift]

theorem shiftMotion_inv (v p : Fin 3 → ℝ) : (shiftMotion v)⁻¹ p = fun i => p i - v i := by
  rw [Equiv.Perm.inv_eq_iff_eq, shiftMotion_apply]
  funext i
  simp

theorem shiftMotion_zero : shiftMotion 0 = 1 := by
  ext p
  rw [shiftMotion_apply]
  simp

theorem icpMotion_of (r t : Fin 3 → ℝ) (hr : r = 0) : icpMotion ![r 0, r 1, r 2, t 0, t 1, t 2] = (1, t) := by
  subst hr
  unfold icpMotion
  dsimp only
  rw [if_pos (by simp [norm3])]
  refine Prod.ext rfl ?_
  funext i
  fin_cases i <;> rfl

theorem sq_sum3_zero (v : Fin 3 → ℝ) (h : ∑ i, v i ^ 2 ≤ 0) : v = 0 := by
  rw [Fin.sum_univ_three] at h
  funext i
  fin_cases i
  · exact pow_eq_zero_iff two_ne_zero |>.1 (by show v 0 ^ 2 = 0; nlinarith [sq_nonneg (v 0), sq_nonneg (v 1), sq_nonneg (v 2)])
  · exact pow_eq_zero_iff two_ne_zero |>.1 (by show v 1 ^ 2 = 0; nlinarith [sq_nonneg (v 0), sq_nonneg (v 1), sq_nonneg (v 2)])
  · exact pow_eq_zero_iff two_ne_zero |>.1 (by show v 2 ^ 2 = 0; nlinarith [sq_nonneg (v 0), sq_nonneg (v 1), sq_nonneg (v 2)])

theorem planeCost_nonneg (comp : Bool) (l : List IcpPair) (hw : ∀ e ∈ l, 0 ≤ e.w) (r t : Fin 3 → ℝ) : 0 ≤ planeCost comp l r t := by
  unfold planeCost
  apply List.sum_nonneg
  intro x hx
  obtain ⟨e, he, rfl⟩ := List.mem_map.1 hx
  exact mul_nonneg (hw e he) (sq_nonneg _)

/-- Pairs on their planes: no step. -/
theorem step_still (L : LinLib) (hL : LibOk L) (comp : Bool) (l : List IcpPair) (hw : ∀ e ∈ l, e.w = 1)
    (h : ∀ e ∈ l, e.n ⬝ᵥ (fun i => e.p i - e.q i) = 0) : planeStep L comp l = (1, 0) := by
  have hw' : ∀ e ∈ l, 0 ≤ e.w := fun e he => by rw [hw e he]; norm_num
  obtain ⟨r, t, -, h2, h3⟩ := C109_step L hL comp l hw'
  have hz : planeCost comp l 0 0 = 0 := by
    unfold planeCost
    have : l.map (fun e => e.w * (e.n ⬝ᵥ (fun i => e.p i + (if comp then e.f else 1) * smallMotion 0 0 e.p i - e.q i)) ^ 2) =
        l.map fun _ => (0 : ℝ) := by
      refine List.map_congr_left fun e he => ?_
      have e0 : (fun i => e.p i + (if comp then e.f else 1) * smallMotion 0 0 e.p i - e.q i) = fun i => e.p i - e.q i := by
        funext i
        simp [smallMotion]
      rw [e0, h e he]
      ring
    rw [this]
    simp
  have := h2 0 0 fun r' t' => by rw [hz]; exact planeCost_nonneg comp l hw' r' t'
  simp only [Pi.zero_apply, ne_eq, OfNat.ofNat_ne_zero, not_false_eq_true, zero_pow, Finset.sum_const_zero, add_zero] at this
  have ha : 0 ≤ ∑ i, r i ^ 2 := Finset.sum_nonneg fun i _ => sq_nonneg _
  have hb : 0 ≤ ∑ i, t i ^ 2 := Finset.sum_nonneg fun i _ => sq_nonneg _
  have hr := sq_sum3_zero r (by linarith)
  have ht := sq_sum3_zero t (by linarith)
  rw [h3, icpMotion_of r t hr, ht]

/-- An increment that is the identity ends the motion. -/
theorem loop_still {G : Type} [Group G] (inc : G → Outcome G) (conv : List G → Bool) (maxIt : Int) (T : G)
    (h : inc T = .ok 1) : ∀ (fuel : Nat) (hist : List G) (it : Int), maxIt ≤ it + fuel → 0 < fuel →
      ∃ h', icpLoop inc conv maxIt fuel T hist it = some (.ok (T, h')) := by
  intro fuel
  induction fuel with
  | zero => intro _ _ _ h; cases h
  | succ fuel ih =>
    intro hist it hm _
    unfold icpLoop
    rw [h]
    dsimp only
    rw [one_mul]
    split
    · exact ⟨_, rfl⟩
    · rename_i hc
      simp only [Bool.or_eq_true, decide_eq_true_eq, not_or] at hc
      exact ih _ _ (by push_cast at hm; omega) (by push_cast at hm; omega)

/-- From the pairs to the increment. -/
theorem increment_still (s : IcpSetup) (hL : LibOk s.lib) (h0 : 0 ≤ s.ratio) (h1 : s.ratio ≤ 1)
    (tgt : List ((Fin 3 → ℝ) × (Fin 3 → ℝ))) (ht : tgt ≠ []) (src : List ((Fin 3 → ℝ) × ℝ)) (hs : src ≠ [])
    (hsearch : ∀ p, (s.search (tgt.map Prod.fst) p).dist ≠ none ∧ (s.search (tgt.map Prod.fst) p).id < tgt.length)
    (start T : Motion3)
    (h : ∀ p ∈ src, ∀ t, tgt[(s.search (tgt.map Prod.fst) ((if s.comp then s.share p.2 T else T) (start p.1))).id]? = some t →
      t.2 ⬝ᵥ (fun i => (if s.comp then s.share p.2 T else T) (start p.1) i - t.1 i) = 0) :
    icpIncrement s tgt src start T = .ok 1 := by
  unfold icpIncrement
  dsimp only
  obtain ⟨pts, hpts⟩ : ∃ pts, pts = src.map fun p => ((if s.comp then s.share p.2 T else T) (start p.1), p.2) := ⟨_, rfl⟩
  rw [← hpts]
  obtain ⟨ms, hms⟩ : ∃ ms, ms = pts.map fun p => s.search (tgt.map Prod.fst) p.1 := ⟨_, rfl⟩
  rw [← hms]
  have hlen : ms.length = pts.length := by rw [hms, List.length_map]
  have hmm : ∀ m ∈ ms, ∃ p, m = s.search (tgt.map Prod.fst) p := by
    intro m hm
    rw [hms] at hm
    obtain ⟨p, -, rfl⟩ := List.mem_map.1 hm
    exact ⟨_, rfl⟩
  obtain ⟨limit, pairs, e1, -, -, -, e5, -, -⟩ := C42_selection (tgt := tgt) h0 h1 hlen
    (fun m hm _ => by obtain ⟨p, rfl⟩ := hmm m hm; exact (hsearch p).2)
    (by
      have hne : ms ≠ [] := by
        intro hc
        have hl0 : ms.length = 0 := by rw [hc]; rfl
        rw [hlen, hpts, List.length_map] at hl0
        exact hs (List.length_eq_zero_iff.1 hl0)
      obtain ⟨m, hm⟩ := List.exists_mem_of_ne_nil ms hne
      obtain ⟨p, rfl⟩ := hmm m hm
      exact ⟨_, hm, (hsearch p).1⟩)
  rw [e1]
  simp only [bind, Outcome.bind, pure]
  have hp : ∀ e ∈ pairs, e.2.2 ⬝ᵥ (fun i => e.1.1 i - e.2.1 i) = 0 := by
    intro e he
    have : (e.1, some e.2) ∈ pairs.map (fun x => (x.1, some x.2)) := List.mem_map.2 ⟨e, he, rfl⟩
    rw [e5] at this
    obtain ⟨x, hx, hxe⟩ := List.mem_map.1 this
    have hx1 := (List.mem_filter.1 hx).1
    obtain ⟨a, m⟩ := x
    simp only [Prod.mk.injEq] at hxe
    obtain ⟨rfl, hxe⟩ := hxe
    have hz : ∀ (l : List ((Fin 3 → ℝ) × ℝ)) (f : (Fin 3 → ℝ) × ℝ → IcpMatch) (a : (Fin 3 → ℝ) × ℝ) (m : IcpMatch),
        (a, m) ∈ l.zip (l.map f) → a ∈ l ∧ m = f a := by
      intro l f a m
      induction l with
      | nil => intro h; simp at h
      | cons b l ih =>
        intro h
        simp only [List.map_cons, List.zip_cons_cons, List.mem_cons, Prod.mk.injEq] at h
        rcases h with ⟨rfl, rfl⟩ | h
        · exact ⟨by simp, rfl⟩
        · exact ⟨by simp [(ih h).1], (ih h).2⟩
    rw [hms] at hx1
    obtain ⟨ha, rfl⟩ := hz _ _ _ _ hx1
    rw [hpts] at ha
    obtain ⟨p, hp, hpe⟩ := List.mem_map.1 ha
    rw [← hpe] at hxe ⊢
    exact h p hp e.2 hxe
  rw [step_still s.lib hL s.comp _ (by
    intro e he
    obtain ⟨x, -, rfl⟩ := List.mem_map.1 he
    rfl) (by
    intro e he
    obtain ⟨x, hx, rfl⟩ := List.mem_map.1 he
    exact hp x hx)]
  show Outcome.ok (shiftMotion 0) = _
  rw [shiftMotion_zero]

/-- C134, a right prediction is kept: if the predicted pose puts every point of the scan on the plane of the target point
that the search finds for it, the result is the prediction, whatever the limit of iterations and the test of convergence. -/
theorem C134_kept (s : IcpSetup) (hL : LibOk s.lib) (h0 : 0 ≤ s.ratio) (h1 : s.ratio ≤ 1) (hshare : ∀ f, s.share f 1 = 1)
    (tgt : List ((Fin 3 → ℝ) × (Fin 3 → ℝ))) (ht : tgt ≠ []) (src : List ((Fin 3 → ℝ) × ℝ)) (hs : src ≠ [])
    (hsearch : ∀ ts p, ts ≠ [] → (s.search ts p).dist ≠ none ∧ (s.search ts p).id < ts.length) (guess : Motion3)
    (h : ∀ p ∈ src, ∀ t, tgt[(s.search ((aroundMean tgt).map Prod.fst)
        (fun i => guess p.1 i - groupMean (tgt.map Prod.fst) i)).id]? = some t → t.2 ⬝ᵥ (fun i => guess p.1 i - t.1 i) = 0)
    (fuel : Nat) (hf : max 1 s.maxIt ≤ fuel) :
    ∃ hist, fastAlign s tgt src guess fuel = some (.ok (guess, hist)) := by
  unfold fastAlign icpAlign
  dsimp only
  obtain ⟨m, hm⟩ : ∃ m, m = groupMean (tgt.map Prod.fst) := ⟨_, rfl⟩
  have hc : aroundMean tgt ≠ [] := by
    unfold aroundMean
    simpa using ht
  have hinc : icpIncrement s (aroundMean tgt) src ((shiftMotion m)⁻¹ * guess) 1 = .ok 1 := by
    refine increment_still s hL h0 h1 _ hc src hs (fun p => ?_) _ _ ?_
    · obtain ⟨a, b⟩ := hsearch ((aroundMean tgt).map Prod.fst) p (by simpa using hc)
      exact ⟨a, by simpa using b⟩
    · intro p hp t htt
      have e : (if s.comp then s.share p.2 1 else 1) (((shiftMotion m)⁻¹ * guess) p.1) = fun i => guess p.1 i - m i := by
        have : (if s.comp then s.share p.2 1 else 1) = (1 : Motion3) := by
          split
          · exact hshare _
          · rfl
        rw [this, Equiv.Perm.one_apply, Equiv.Perm.mul_apply, shiftMotion_inv]
      rw [e] at htt ⊢
      rw [hm] at htt
      unfold aroundMean at htt
      rw [List.getElem?_map] at htt
      obtain ⟨t', ht', rfl⟩ := Option.map_eq_some_iff.1 htt
      have := h p hp t' (by unfold aroundMean; exact ht')
      rw [← this, hm]
      congr 1
      funext i
      ring
  rw [← hm]
  obtain ⟨hist, hh⟩ := loop_still (icpIncrement s (aroundMean tgt) src ((shiftMotion m)⁻¹ * guess)) s.conv s.maxIt 1 hinc fuel [1] 0
    (by omega) (by omega)
  rw [hh]
  refine ⟨hist, ?_⟩
  dsimp only
  rw [mul_one, mul_inv_cancel_left]

/-! ### scans of a plane -/

theorem scanSource_mem (pts : List (Fin 3 → ℝ)) (p : (Fin 3 → ℝ) × ℝ) (h : p ∈ scanSource pts) : p.1 ∈ pts := by
  unfold scanSource at h
  obtain ⟨x, hx, rfl⟩ := List.mem_map.1 h
  obtain ⟨x, i⟩ := x
  obtain ⟨-, -, h⟩ := List.mem_zipIdx hx
  rw [h]
  exact List.getElem_mem _

/-- C134, the part that holds: in a scene that is one plane (not through the sensor), every patch of the target has the
normal of the plane, and every predicted motion along the plane is kept exactly, whatever the search finds; in particular
the sensor that stands still stays where it is. -/
theorem C134_flat_partial (S : Selection) (pts : List (Fin 3 → ℝ)) (hne : pts ≠ []) (n : Fin 3 → ℝ) (c : ℝ) (hc : 0 < c)
    (hflat : Flat n c pts) :
    ∃ st, calculateNormals S realEstimator none (fromPoints pts) = .ok st ∧ st.normals = st.points.map (fun _ => some n) ∧
      ∀ s : IcpSetup, LibOk s.lib → 0 ≤ s.ratio → s.ratio ≤ 1 → (∀ f, s.share f 1 = 1) →
        (∀ ts p, ts ≠ [] → (s.search ts p).dist ≠ none ∧ (s.search ts p).id < ts.length) → st.points ≠ [] →
        ∀ guess : Motion3, (∀ p ∈ pts, n ⬝ᵥ guess p = c) → ∀ fuel : Nat, max 1 s.maxIt ≤ fuel →
          ∃ hist, fastAlign s (st.points.map fun q => (q, n)) (scanSource pts) guess fuel = some (.ok (guess, hist)) := by
  obtain ⟨groups, st, h1, h2, -, -⟩ := C14_normals S realEstimator none pts hne
  obtain ⟨chosen, -, c2, c3, c4⟩ := h2.output
  have hch : ∀ x ∈ chosen, realEstimator.normal x.2 = some n ∧ n ⬝ᵥ realEstimator.mean x.2 = c := by
    intro x hx
    obtain ⟨k, ps⟩ := x
    obtain ⟨g, hg, hk, hps, hr⟩ := (c2 k ps).1 hx
    have hsub : ∀ p ∈ ps, n ⬝ᵥ p = c := by
      intro p hp
      apply hflat.onPlane
      have : some p ∈ ps.map some := List.mem_map.2 ⟨p, hp, rfl⟩
      rw [← hps] at this
      obtain ⟨i, -, hi⟩ := List.mem_map.1 this
      exact List.mem_of_getElem? hi
    have hps0 : ps ≠ [] := by
      rintro rfl
      have : g = [] := by simpa using hps
      rw [this] at hk
      cases hk
    have hr' : ¬ (groupCov ps).rank + 1 < 3 := by
      have hr2 : (!decide ((groupCov ps).rank + 1 < 3)) = true := hr
      simpa using hr2
    have hd := flat_regular n c hc.ne' ps hps0 hsub hr'
    refine ⟨?_, groupMean_dot n c ps hps0 hsub⟩
    have hx : waveM ps *ᵥ (fun i => c⁻¹ * n i) = waveB ps := by
      funext i
      rw [waveM_mul]
      have : ps.map (fun p => ((fun i => c⁻¹ * n i) ⬝ᵥ p) * p i) = ps.map fun p => p i := by
        refine List.map_congr_left fun p hp => ?_
        have h1 : (fun i => c⁻¹ * n i) ⬝ᵥ p = c⁻¹ * (n ⬝ᵥ p) := by rw [dotThree, dotThree]; ring
        rw [h1, hsub p hp, inv_mul_cancel₀ hc.ne', one_mul]
      rw [this]
      rfl
    show groupNormal ps = some n
    rw [normal_of_solution ps hd _ hx, unitNormal_scale n hflat.unit c⁻¹ (by positivity)]
  refine ⟨st, h1, ?_, ?_⟩
  · rw [c3, c4, List.map_map]
    exact List.map_congr_left fun x hx => (hch x hx).1
  · intro s hL h0 hr1 hshare hsearch hst guess hg fuel hf
    refine C134_kept s hL h0 hr1 hshare _ (by simpa using hst) _ ?_ hsearch guess ?_ fuel hf
    · unfold scanSource
      simpa using hne
    · intro p hp t ht
      rw [List.getElem?_map] at ht
      obtain ⟨q, hq, rfl⟩ := Option.map_eq_some_iff.1 ht
      have hqm : n ⬝ᵥ q = c := by
        have := List.mem_of_getElem? hq
        rw [c3] at this
        obtain ⟨x, hx, rfl⟩ := List.mem_map.1 this
        exact (hch x hx).2
      have hgp := hg p.1 (scanSource_mem pts p hp)
      show n ⬝ᵥ (fun i => guess p.1 i - q i) = 0
      have : n ⬝ᵥ (fun i => guess p.1 i - q i) = n ⬝ᵥ guess p.1 - n ⬝ᵥ q := by
        rw [dotThree, dotThree, dotThree]; ring
      rw [this, hgp, hqm, sub_self]

/-! ### the run of a standing sensor -/

section
variable {G C : Type} [Group G]

/-- What stays true while the sensor stands still and sees `c` again and again. -/
structure StillState (c : C) (st : FeState G C) : Prop where
  target : ∀ tg, st.target = some tg → tg.1 = c
  pose : st.poseTarget = 1
  acc : st.acc = 1
  frames : ∀ f ∈ st.frames, f = (c, 1)
  waiting : ∀ w ∈ st.waiting, w.1 = c

/-- An entry of a cloud that was placed where the sensor is. -/
def StillEntry (c : C) : FeEntry G C → Prop
  | .late raw => raw = c
  | .placed raw ref pose cloud _ => raw = c ∧ (∀ r, ref = some r → r = c) ∧ pose = 1 ∧ cloud = c

theorem feTarget_same (cfg : FeCfg G C) (c : C) (tg : C × Bool) (h : feTarget cfg c = .ok tg) : tg.1 = c := by
  unfold feTarget at h
  split at h
  · cases hn : cfg.normals c with
    | ok n => rw [hn] at h; simp only [bind, Outcome.bind, pure, Outcome.ok.injEq] at h; rw [← h]
    | abort => rw [hn] at h; simp [bind, Outcome.bind] at h
    | ub => rw [hn] at h; simp [bind, Outcome.bind] at h
  · rw [Outcome.ok.injEq] at h
    rw [← h]

theorem feProcess_still (cfg : FeCfg G C) (c : C) (halign : cfg.align c c 1 = 1)
    (hcomp : cfg.comp 1 c = .ok c) (havg : ∀ a, cfg.average = some a → a 1 1 = 1) (t : Nat) (st st' : FeState G C)
    (e : FeEntry G C) (hi : StillState c st) (h : feProcess cfg 1 c t st = .ok (st', e)) : StillState c st' ∧ StillEntry c e := by
  unfold feProcess at h
  split at h
  · cases ht : feTarget cfg c with
    | abort => rw [ht] at h; simp [bind, Outcome.bind] at h
    | ub => rw [ht] at h; simp [bind, Outcome.bind] at h
    | ok tg =>
      rw [ht] at h
      simp only [bind, Outcome.bind, pure, Outcome.ok.injEq, Prod.mk.injEq] at h
      obtain ⟨rfl, rfl⟩ := h
      refine ⟨⟨?_, hi.pose, hi.acc, ?_, hi.waiting⟩, rfl, (by intro r hr; cases hr), rfl, rfl⟩
      · intro tg' htg
        simp only [Option.some.injEq] at htg
        rw [← htg]
        exact feTarget_same cfg c tg ht
      · intro f hf
        rcases List.mem_append.1 hf with hf | hf
        · exact hi.frames f hf
        · simpa using hf
  split at h
  · rw [Outcome.ok.injEq, Prod.mk.injEq] at h
    obtain ⟨rfl, rfl⟩ := h
    refine ⟨⟨?_, hi.pose, hi.acc, hi.frames, hi.waiting⟩, rfl⟩
    intro tg htg
    simp only [Option.some.injEq] at htg
    rw [← htg]
  cases htg : st.target with
  | none => rw [htg] at h; cases h
  | some tg =>
    rw [htg] at h
    dsimp only at h
    have htc := hi.target tg htg
    have hsrc : feSource cfg (1 : G) c = .ok c := by
      unfold feSource
      split
      · exact hcomp
      · rfl
    have hres : feResult cfg (1 : G) 1 = 1 := by
      unfold feResult
      split
      · split
        · rename_i a ha
          exact havg a ha
        · rfl
      · rfl
    rw [hi.pose, hi.acc, inv_one, one_mul, one_mul, hsrc, htc] at h
    by_cases hck : cfg.fastIcp = true → tg.2 = true
    · rw [Outcome.check_pos hck] at h
      simp only [Outcome.bind_ok] at h
      rw [halign, hres, one_mul, hsrc] at h
      simp only [Outcome.bind_ok] at h
      split at h
      · cases ht : feTarget cfg c with
        | abort => rw [ht] at h; simp [bind, Outcome.bind] at h
        | ub => rw [ht] at h; simp [bind, Outcome.bind] at h
        | ok tg' =>
          rw [ht] at h
          simp only [bind, Outcome.bind, pure, Outcome.ok.injEq, Prod.mk.injEq] at h
          obtain ⟨rfl, rfl⟩ := h
          refine ⟨⟨?_, by simp, rfl, ?_, hi.waiting⟩, rfl, ?_, by simp, rfl⟩
          · intro x hx
            simp only [Option.some.injEq] at hx
            rw [← hx]
            exact feTarget_same cfg c tg' ht
          · intro f hf
            rcases List.mem_append.1 hf with hf | hf
            · exact hi.frames f hf
            · simp only [List.mem_singleton] at hf
              exact hf
          · intro r hr
            simpa using hr.symm
      · simp only [pure, Outcome.ok.injEq, Prod.mk.injEq] at h
        obtain ⟨rfl, rfl⟩ := h
        refine ⟨⟨?_, by simp [hi.pose], rfl, hi.frames, hi.waiting⟩, rfl, ?_, by simp, rfl⟩
        · intro x hx
          exact hi.target x (htg.trans hx)
        · intro r hr
          simpa using hr.symm
    · rw [Outcome.check_neg hck] at h
      cases h

theorem feRun_still (cfg : FeCfg G C) (c : C) (halign : cfg.align c c 1 = 1) (hcomp : cfg.comp 1 c = .ok c)
    (havg : ∀ a, cfg.average = some a → a 1 1 = 1) : ∀ (es : List (FeEvent G C)) (st st' : FeState G C) (log : List (FeEntry G C)),
    (∀ e ∈ es, (∃ t, e = .arrive c t) ∨ e = .round 1) → StillState c st → feRun cfg es st = .ok (st', log) →
      StillState c st' ∧ ∀ e ∈ log, StillEntry c e := by
  intro es
  induction es with
  | nil =>
    intro st st' log _ hi h
    simp only [feRun, Outcome.ok.injEq, Prod.mk.injEq] at h
    obtain ⟨rfl, rfl⟩ := h
    exact ⟨hi, by intro e he; cases he⟩
  | cons e es ih =>
    intro st st' log hes hi h
    have hes' : ∀ e ∈ es, (∃ t, e = .arrive c t) ∨ e = .round 1 := fun x hx => hes x (by simp [hx])
    rcases hes e (by simp) with ⟨t, rfl⟩ | rfl
    · rw [feRun] at h
      refine ih _ _ _ hes' ?_ h
      unfold feArrive
      split
      · exact hi
      · refine ⟨hi.target, hi.pose, hi.acc, hi.frames, ?_⟩
        intro w hw
        rcases List.mem_append.1 hw with hw | hw
        · exact hi.waiting w hw
        · rw [List.mem_singleton.1 hw]
    · rw [feRun] at h
      unfold feRound at h
      cases hw : st.waiting with
      | nil =>
        rw [hw] at h
        simp only [Outcome.bind_ok] at h
        cases hr : feRun cfg es st with
        | abort => rw [hr] at h; simp [bind, Outcome.bind] at h
        | ub => rw [hr] at h; simp [bind, Outcome.bind] at h
        | ok r =>
          rw [hr] at h
          simp only [bind, Outcome.bind, pure, Outcome.ok.injEq, Prod.mk.injEq, List.nil_append] at h
          obtain ⟨rfl, rfl⟩ := h
          exact ih _ _ _ hes' hi hr
      | cons w rest =>
        obtain ⟨c', t⟩ := w
        have hc' : c' = c := hi.waiting (c', t) (by rw [hw]; simp)
        subst hc'
        rw [hw] at h
        dsimp only at h
        have hi1 : StillState c' { st with waiting := rest } :=
          ⟨hi.target, hi.pose, hi.acc, hi.frames, fun w hw' => hi.waiting w (by rw [hw]; simp [hw'])⟩
        cases hp : feProcess cfg 1 c' t { st with waiting := rest } with
        | abort => rw [hp] at h; simp [bind, Outcome.bind] at h
        | ub => rw [hp] at h; simp [bind, Outcome.bind] at h
        | ok r =>
          obtain ⟨st1, e1⟩ := r
          obtain ⟨hi2, he⟩ := feProcess_still cfg c' halign hcomp havg t _ _ _ hi1 hp
          rw [hp] at h
          simp only [bind, Outcome.bind, pure] at h
          cases hr : feRun cfg es st1 with
          | abort => rw [hr] at h; simp at h
          | ub => rw [hr] at h; simp at h
          | ok r2 =>
            rw [hr] at h
            simp only [Outcome.ok.injEq, Prod.mk.injEq] at h
            obtain ⟨rfl, rfl⟩ := h
            obtain ⟨a, b⟩ := ih _ _ _ hes' hi2 hr
            refine ⟨a, ?_⟩
            intro x hx
            rcases List.mem_append.1 hx with hx | hx
            · rw [List.mem_singleton.1 hx]
              exact he
            · exact b x hx

/-- C134, the whole run: the sensor sees the same scan again and again, the prediction is that it stands, and the matcher
keeps that prediction (C134_flat_partial).  Then every scan is placed at the start, matched with that same scan, and every
key frame is at the start, in every run that does not stop, with and without motion compensation and averaging. -/
theorem C134_run_partial (cfg : FeCfg G C) (c : C) (halign : cfg.align c c 1 = 1) (hcomp : cfg.comp 1 c = .ok c)
    (havg : ∀ a, cfg.average = some a → a 1 1 = 1) (es : List (FeEvent G C))
    (hes : ∀ e ∈ es, (∃ t, e = .arrive c t) ∨ e = .round 1) (start : Nat) (st : FeState G C) (log : List (FeEntry G C))
    (h : feRun cfg es (feInit start) = .ok (st, log)) :
    (∀ f ∈ st.frames, f = (c, 1)) ∧ ∀ raw ref pose cloud ins, FeEntry.placed raw ref pose cloud ins ∈ log →
      pose = 1 ∧ cloud = c ∧ ∀ r, ref = some r → r = c := by
  obtain ⟨a, b⟩ := feRun_still cfg c halign hcomp havg es (feInit start) st log hes
    ⟨(by intro tg h; cases h), rfl, rfl, (by intro f hf; simp [feInit] at hf), (by intro w hw; simp [feInit] at hw)⟩ h
  refine ⟨a.frames, fun raw ref pose cloud ins he => ?_⟩
  have := b _ he
  exact ⟨this.2.2.1, this.2.2.2, this.2.1⟩
end

/-- Two scans of a standing sensor: two key frames, at the start. -/
example : (match feRun ({
      fastIcp := true, compensate := false, average := none, comp := fun _ c => .ok c,
      align := fun a b g => g * Multiplicative.ofAdd (b - a), key := fun _ => true, normals := fun _ => .ok true } :
        FeCfg (Multiplicative Int) Int)
      [.arrive 3 10, .round 1, .arrive 3 11, .round 1] (feInit 0) with
    | .ok (st, _) => decide (st.frames.map (fun f => (f.1, f.2.toAdd)) = [(3, 0), (3, 0)])
    | _ => false) = true := by decide

/-! ### a scan that moves although nothing moves -/

theorem select_post {P Q : Type} (ratio : Rat) (hr : 3 / 5 ≤ ratio) (hr' : ratio < 4 / 5) (p1 p2 p3 p4 p5 : P) (t : Q)
    (a b : Rat) (hab : a < b) :
    icpSelect ratio [p1, p2, p3, p4, p5] [t] [⟨some a, 0⟩, ⟨some a, 0⟩, ⟨some a, 0⟩, ⟨some a, 0⟩, ⟨some b, 0⟩] =
      .ok (a, [(p1, t), (p2, t), (p3, t), (p4, t)]) := by
  have hq : distQuantile ratio [⟨some a, 0⟩, ⟨some a, 0⟩, ⟨some a, 0⟩, ⟨some a, 0⟩, ⟨some b, 0⟩] = .ok a := by
    unfold distQuantile
    rw [Outcome.check_pos ⟨by linarith, by linarith⟩]
    simp only [Outcome.bind_ok]
    have hv : List.filterMap IcpMatch.dist [⟨some a, 0⟩, ⟨some a, 0⟩, ⟨some a, 0⟩, ⟨some a, 0⟩, ⟨some b, 0⟩] = [a, a, a, a, b] := rfl
    rw [hv, Outcome.check_pos (by simp)]
    simp only [Outcome.bind_ok]
    rw [if_neg (by intro h; rw [h] at hr'; norm_num at hr')]
    have hs : List.insertionSort (· ≤ ·) [a, a, a, a, b] = [a, a, a, a, b] := by
      simp [List.insertionSort, List.orderedInsert, hab.le]
    have ht : (truncInt (([a, a, a, a, b].length : Rat) * ratio)).toNat = 3 := by
      have h5 : (([a, a, a, a, b].length : Nat) : Rat) = 5 := by norm_num
      rw [h5]
      unfold truncInt
      rw [if_pos (by linarith)]
      have : ⌊(5 : Rat) * ratio⌋ = 3 := by
        rw [Int.floor_eq_iff]
        constructor <;> push_cast <;> linarith
      rw [this]
      rfl
    rw [hs, ht]
    rfl
  unfold icpSelect
  rw [hq]
  simp only [Outcome.bind_ok]
  have hw : icpWeights a [⟨some a, 0⟩, ⟨some a, 0⟩, ⟨some a, 0⟩, ⟨some a, 0⟩, ⟨some b, 0⟩] = [true, true, true, true, false] := by
    simp [icpWeights, hab]
  rw [hw]
  rfl

/-- The four points of the ground seen from the middle of the target patch, `z` above it. -/
theorem step_post (L : LinLib) (hL : LibOk L) (f1 f2 f3 f4 : ℝ) :
    planeStep L false [⟨![1, 0, -1], 0, ![0, 0, 1], 1, f1⟩, ⟨![-1, 0, -1], 0, ![0, 0, 1], 1, f2⟩,
      ⟨![0, 1, -1], 0, ![0, 0, 1], 1, f3⟩, ⟨![0, -1, -1], 0, ![0, 0, 1], 1, f4⟩] = (1, ![0, 0, 1]) := by
  obtain ⟨r, t, h1, h2, h3⟩ := C109_step L hL false [⟨![1, 0, -1], 0, ![0, 0, 1], 1, f1⟩, ⟨![-1, 0, -1], 0, ![0, 0, 1], 1, f2⟩,
      ⟨![0, 1, -1], 0, ![0, 0, 1], 1, f3⟩, ⟨![0, -1, -1], 0, ![0, 0, 1], 1, f4⟩] (by simp)
  have hcost : ∀ r t : Fin 3 → ℝ, planeCost false [⟨![1, 0, -1], 0, ![0, 0, 1], 1, f1⟩, ⟨![-1, 0, -1], 0, ![0, 0, 1], 1, f2⟩,
      ⟨![0, 1, -1], 0, ![0, 0, 1], 1, f3⟩, ⟨![0, -1, -1], 0, ![0, 0, 1], 1, f4⟩] r t =
      (t 2 - r 1 - 1) ^ 2 + (t 2 + r 1 - 1) ^ 2 + (t 2 + r 0 - 1) ^ 2 + (t 2 - r 0 - 1) ^ 2 := by
    intro r t
    simp [planeCost, smallMotion, crossProduct, dotProduct, Fin.sum_univ_three]
    ring
  have hz : planeCost false [⟨![1, 0, -1], 0, ![0, 0, 1], 1, f1⟩, ⟨![-1, 0, -1], 0, ![0, 0, 1], 1, f2⟩,
      ⟨![0, 1, -1], 0, ![0, 0, 1], 1, f3⟩, ⟨![0, -1, -1], 0, ![0, 0, 1], 1, f4⟩] 0 ![0, 0, 1] = 0 := by
    rw [hcost]
    simp
  have ha := h1 0 ![0, 0, 1]
  rw [hz, hcost] at ha
  have hb := h2 0 ![0, 0, 1] fun r' t' => by
    rw [hz]
    exact planeCost_nonneg false _ (by simp) r' t'
  simp only [Fin.sum_univ_three] at hb
  simp at hb
  have q1 := sq_nonneg (t 2 - r 1 - 1)
  have q2 := sq_nonneg (t 2 + r 1 - 1)
  have q3 := sq_nonneg (t 2 + r 0 - 1)
  have q4 := sq_nonneg (t 2 - r 0 - 1)
  have e1 : t 2 - r 1 - 1 = 0 := pow_eq_zero_iff two_ne_zero |>.1 (by linarith)
  have e2 : t 2 + r 1 - 1 = 0 := pow_eq_zero_iff two_ne_zero |>.1 (by linarith)
  have e3 : t 2 + r 0 - 1 = 0 := pow_eq_zero_iff two_ne_zero |>.1 (by linarith)
  have et : t 2 = 1 := by linarith
  rw [et] at hb
  have hr : r = 0 := sq_sum3_zero r (by
    rw [Fin.sum_univ_three]
    nlinarith [sq_nonneg (t 0), sq_nonneg (t 1)])
  have ht0 : t 0 = 0 := pow_eq_zero_iff two_ne_zero |>.1 (by
    nlinarith [sq_nonneg (t 0), sq_nonneg (t 1), sq_nonneg (r 0), sq_nonneg (r 1), sq_nonneg (r 2)])
  have ht1 : t 1 = 0 := pow_eq_zero_iff two_ne_zero |>.1 (by
    nlinarith [sq_nonneg (t 0), sq_nonneg (t 1), sq_nonneg (r 0), sq_nonneg (r 1), sq_nonneg (r 2)])
  rw [h3, icpMotion_of r t hr]
  refine Prod.ext rfl ?_
  funext i
  fin_cases i
  · exact ht0
  · exact ht1
  · exact et

/-- The search of a cloud of one point: it is found, with its squared distance. -/
def OnlyPoint (search : List (Fin 3 → ℝ) → (Fin 3 → ℝ) → IcpMatch) : Prop :=
  ∀ (q p : Fin 3 → ℝ) (d : Rat), (d : ℝ) = ∑ i, (p i - q i) ^ 2 → search [q] p = ⟨some d, 0⟩

theorem groupMean_one (q : Fin 3 → ℝ) : groupMean [q] = q := by
  funext i
  simp [groupMean, waveB]

theorem postSource : scanSource (postPatch 0) =
    [(![1, 0, 1], 0 / 5), (![-1, 0, 1], 1 / 5), (![0, 1, 1], 2 / 5), (![0, -1, 1], 3 / 5), (![0, 0, 6], 4 / 5)] := by
  simp [scanSource, postPatch, List.zipIdx]

/-- C134 is false for a scene that is not flat: four points of the ground and a post.  The scan is matched with itself, the
prediction is that nothing moves, and the result is one metre up. -/
theorem C134_standing_fails (S : Selection) :
    (∃ st, calculateNormals S realEstimator none (fromPoints (postPatch 0)) = .ok st ∧ st.points = [![0, 0, 2]] ∧
      st.normals = [some ![0, 0, 1]]) ∧
    ∀ s : IcpSetup, LibOk s.lib → OnlyPoint s.search → 3 / 5 ≤ s.ratio → s.ratio < 4 / 5 → s.comp = false →
      ∀ fuel : Nat, max 2 s.maxIt ≤ fuel → ∃ hist,
        fastAlign s [(![0, 0, 2], ![0, 0, 1])] (scanSource (postPatch 0)) 1 fuel = some (.ok (shiftMotion ![0, 0, 1], hist)) := by
  constructor
  · obtain ⟨groups, st, h1, h2, -, -⟩ := C14_normals S realEstimator none (postPatch 0) (by simp [postPatch])
    have hn : NotOnALine (postPatch 0) := by
      refine ⟨![1 + 0, 0, 1], by simp [postPatch], ![-1 + 0, 0, 1], by simp [postPatch], ![0, 1, 1], by simp [postPatch], ?_⟩
      rintro ⟨a, b, hab, h⟩
      have h1 := h 0
      have h2 := h 1
      simp at h1 h2
      rw [h2] at h1
      rcases hab with h | h
      · apply h; linarith
      · exact h h2
    have hr : realEstimator.rankOk (postPatch 0) = true := by
      show (!decide ((groupCov (postPatch 0)).rank + 1 < 3)) = true
      simpa using rank_of_notOnALine _ hn
    have hm : groupMean (postPatch 0) = ![0, 0, 2] := by
      funext i
      rw [groupMean, postPatch_B]
      fin_cases i <;> simp [postPatch] <;> norm_num
    refine ⟨st, h1, ?_⟩
    have hb : buildNormals S realEstimator 0 [0, 1, 2, 3, 4]
        ({ points := postPatch 0, normals := List.replicate 5 none, indices := [0, 1, 2, 3, 4], toKeep := [] } :
          NormalState (Fin 3 → ℝ) (Option (Fin 3 → ℝ))) =
        .ok ([0, 1, 2, 3, 4], { points := List.set (postPatch 0) 0 (![0, 0, 2]), normals := List.set (List.replicate 5 none) 0 (some (![0, 0, 1])), indices := [0, 1, 2, 3, 4], toKeep := [0] }) := by
      rw [buildNormals, dif_pos (by simp)]
      unfold normalLeaf
      have hcol : columns (postPatch 0) [0, 1, 2, 3, 4] = .ok (postPatch 0) := rfl
      dsimp only
      rw [hcol]
      simp only [Outcome.bind_ok]
      rw [hr]
      have e1 : realEstimator.mean (postPatch 0) = ![0, 0, 2] := hm
      rw [e1, postPatch_normal0]
      rfl
    have hcalc : calculateNormals S realEstimator none (fromPoints (postPatch 0)) =
        .ok { points := [![0, 0, 2]], normals := [some ![0, 0, 1]], indices := [0, 1, 2, 3, 4], toKeep := [0] } := by
      unfold calculateNormals fromPoints
      have hlen : (postPatch 0).length = 5 := rfl
      have hrange : List.range 5 = [0, 1, 2, 3, 4] := by decide
      dsimp only
      rw [hlen, hrange]
      rw [if_neg (by norm_num), if_neg (by norm_num)]
      have htake : List.take 5 [0, 1, 2, 3, 4] = [0, 1, 2, 3, 4] := rfl
      rw [htake, hb]
      simp only [Outcome.bind_ok, List.mergeSort_singleton]
      rfl
    rw [hcalc, Outcome.ok.injEq] at h1
    rw [← h1]
    exact ⟨rfl, rfl⟩
  · intro s hL hs hr hr' hcomp fuel hf
    unfold fastAlign icpAlign
    have hmean : groupMean (List.map Prod.fst [((![0, 0, 2] : Fin 3 → ℝ), (![0, 0, 1] : Fin 3 → ℝ))]) = ![0, 0, 2] := groupMean_one _
    have hcent : aroundMean [((![0, 0, 2] : Fin 3 → ℝ), (![0, 0, 1] : Fin 3 → ℝ))] = [(0, ![0, 0, 1])] := by
      unfold aroundMean
      rw [hmean]
      simp only [List.map_cons, List.map_nil, sub_self]
      rfl
    rw [hmean, hcent]
    dsimp only
    rw [mul_one]
    have hmove : ∀ (T : Motion3) (z : ℝ) (hT : ∀ p : Fin 3 → ℝ, T p = fun i => p i + ![0, 0, z] i) (a b : Rat),
        (a : ℝ) = 1 + (z - 1) ^ 2 → (b : ℝ) = (z + 4) ^ 2 → a < b →
        icpIncrement s [(0, ![0, 0, 1])] (scanSource (postPatch 0)) (shiftMotion ![0, 0, 2])⁻¹ T =
          .ok (motionOf (planeStep s.lib false [⟨![1, 0, z - 1], 0, ![0, 0, 1], 1, 0 / 5⟩, ⟨![-1, 0, z - 1], 0, ![0, 0, 1], 1, 1 / 5⟩,
            ⟨![0, 1, z - 1], 0, ![0, 0, 1], 1, 2 / 5⟩, ⟨![0, -1, z - 1], 0, ![0, 0, 1], 1, 3 / 5⟩])) := by
      intro T z hT a b ha hb hab
      unfold icpIncrement
      rw [postSource, hcomp]
      have e : ∀ x y w : ℝ, T ((shiftMotion ![0, 0, 2])⁻¹ ![x, y, w]) = ![x, y, w - 2 + z] := by
        intro x y w
        rw [shiftMotion_inv, hT]
        funext i
        fin_cases i <;> simp
      have m1 : ∀ x y : ℝ, x ^ 2 + y ^ 2 = 1 → s.search [0] ![x, y, z - 1] = ⟨some a, 0⟩ := by
        intro x y hxy
        refine hs _ _ a ?_
        rw [ha, Fin.sum_univ_three]
        simp
        linarith
      have m2 : s.search [0] ![0, 0, z + 4] = ⟨some b, 0⟩ := by
        refine hs _ _ b ?_
        rw [hb, Fin.sum_univ_three]
        simp
      simp only [List.map_cons, List.map_nil, Bool.false_eq_true, if_false, e]
      have z1 : (1 : ℝ) - 2 + z = z - 1 := by ring
      have z6 : (6 : ℝ) - 2 + z = z + 4 := by ring
      rw [z1, z6, m1 1 0 (by norm_num), m1 (-1) 0 (by norm_num), m1 0 1 (by norm_num), m1 0 (-1) (by norm_num), m2,
        select_post s.ratio hr hr' _ _ _ _ _ _ a b hab]
      rfl
    have i1 : icpIncrement s [(0, ![0, 0, 1])] (scanSource (postPatch 0)) (shiftMotion ![0, 0, 2])⁻¹ 1 =
        .ok (shiftMotion ![0, 0, 1]) := by
      have h := hmove 1 0 (fun p => by funext i; fin_cases i <;> simp) 2 16 (by norm_num) (by norm_num) (by norm_num)
      rw [h, show (0 : ℝ) - 1 = -1 by norm_num, step_post s.lib hL]
      rfl
    have i2 : icpIncrement s [(0, ![0, 0, 1])] (scanSource (postPatch 0)) (shiftMotion ![0, 0, 2])⁻¹ (shiftMotion ![0, 0, 1]) =
        .ok 1 := by
      have h := hmove (shiftMotion ![0, 0, 1]) 1 (fun p => shiftMotion_apply _ _) 1 25 (by norm_num) (by norm_num) (by norm_num)
      rw [h, step_still s.lib hL false _ (by simp) (by simp [dotProduct, Fin.sum_univ_three])]
      show Outcome.ok (shiftMotion 0) = _
      rw [shiftMotion_zero]
    obtain ⟨k, rfl⟩ : ∃ k, fuel = k + 2 := ⟨fuel - 2, by omega⟩
    have hcomm : shiftMotion ![0, 0, 2] * shiftMotion ![0, 0, 1] * (shiftMotion ![0, 0, 2])⁻¹ = shiftMotion ![0, 0, 1] := by
      ext p i
      rw [Equiv.Perm.mul_apply, Equiv.Perm.mul_apply, shiftMotion_inv, shiftMotion_apply, shiftMotion_apply, shiftMotion_apply]
      ring
    have hloop : ∃ hist, icpLoop (icpIncrement s [(0, ![0, 0, 1])] (scanSource (postPatch 0)) (shiftMotion ![0, 0, 2])⁻¹) s.conv
        s.maxIt (k + 2) 1 [1] 0 = some (.ok (shiftMotion ![0, 0, 1], hist)) := by
      rw [icpLoop, i1]
      dsimp only
      rw [mul_one]
      split
      · exact ⟨_, rfl⟩
      · exact loop_still _ s.conv s.maxIt _ i2 (k + 1) _ _ (by push_cast at hf ⊢; omega) (by omega)
    obtain ⟨hist, hh⟩ := hloop
    rw [hh]
    exact ⟨hist, by dsimp only; rw [hcomm]⟩

/-! ### such settings exist -/

open Classical in
/-- A search among points: the first one, with its squared distance where that is a fraction. -/
noncomputable def firstSearch (ts : List (Fin 3 → ℝ)) (p : Fin 3 → ℝ) : IcpMatch :=
  ⟨some (if h : ∃ d : Rat, (d : ℝ) = ∑ i, (p i - ts.headD 0 i) ^ 2 then h.choose else 0), 0⟩

theorem firstSearch_only : OnlyPoint firstSearch := by
  intro q p d hd
  unfold firstSearch
  have h : ∃ d : Rat, (d : ℝ) = ∑ i, (p i - [q].headD 0 i) ^ 2 := ⟨d, hd⟩
  rw [dif_pos h]
  have := h.choose_spec
  have e : (h.choose : ℝ) = (d : ℝ) := by rw [this, hd]; rfl
  rw [Rat.cast_injective e]

/-- A setup that meets the conditions, with the default share of outliers; a wall two metres ahead, and its target. -/
example : ∃ s : IcpSetup, LibOk s.lib ∧ 0 ≤ s.ratio ∧ s.ratio ≤ 1 ∧ (∀ f, s.share f 1 = 1) ∧
    (∀ ts p, ts ≠ [] → (s.search ts p).dist ≠ none ∧ (s.search ts p).id < ts.length) ∧ OnlyPoint s.search ∧
    3 / 5 ≤ s.ratio ∧ s.ratio < 4 / 5 ∧ s.comp = false ∧ max 2 s.maxIt ≤ (100 : Nat) ∧ shiftMotion ![0, 0, 1] ≠ 1 ∧
    Flat ![1, 0, 0] 2 [![2, 0, 0], ![2, 1, 0], ![2, 0, 1]] := by
  obtain ⟨L, hL⟩ := exists_lib
  refine ⟨⟨L, firstSearch, 7 / 10, false, fun _ T => T, fun _ => false, 100⟩, hL, by norm_num, by norm_num, fun _ => rfl,
    fun ts p h => ⟨by simp [firstSearch], ?_⟩, firstSearch_only, by norm_num, by norm_num, rfl, by norm_num, ?_,
    ⟨by simp [dotProduct, Fin.sum_univ_three], by simp [dotProduct, Fin.sum_univ_three]⟩⟩
  · show 0 < ts.length
    exact List.length_pos_iff.2 h
  · intro h
    have := congrFun (congrArg (fun T : Motion3 => T 0) h) 2
    simp only [shiftMotion_apply] at this
    simp at this

end Verif
