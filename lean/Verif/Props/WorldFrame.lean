import Verif.Spec.WorldFrame
/-! C139: closing loops does not depend on where the map begins. -/
namespace Verif
open Spec

theorem between_moved (g a b : Rigid ℝ) (hg : TurnsRigidly g) : (g.mul a).between (g.mul b) = a.between b := by
  unfold TurnsRigidly at hg
  unfold Rigid.between Rigid.mul
  have h1 : (g.rot * a.rot).transpose * (g.rot * b.rot) = a.rot.transpose * b.rot := by
    rw [Matrix.transpose_mul, Matrix.mul_assoc, ← Matrix.mul_assoc g.rot.transpose, hg, Matrix.one_mul]
  have h2 : ((fun i => g.rot.mulVec b.trans i + g.trans i) - fun i => g.rot.mulVec a.trans i + g.trans i) =
      g.rot.mulVec (b.trans - a.trans) := by
    rw [Matrix.mulVec_sub]
    funext i
    simp
  simp only
  rw [h1, h2, Matrix.transpose_mul, Matrix.mulVec_mulVec, Matrix.mul_assoc, hg, Matrix.mul_one]

theorem mul_moved (g a b : Rigid ℝ) : (g.mul a).mul b = g.mul (a.mul b) := by
  unfold Rigid.mul
  simp only [Rigid.mk.injEq]
  refine ⟨Matrix.mul_assoc _ _ _, ?_⟩
  funext i
  rw [← Matrix.mulVec_mulVec]
  have : (fun i => a.rot.mulVec b.trans i + a.trans i) = a.rot.mulVec b.trans + a.trans := rfl
  rw [this, Matrix.mulVec_add]
  simp only [Pi.add_apply]
  ring

theorem loopGuess_moved (g a b : Rigid ℝ) (hg : TurnsRigidly g) : loopGuess (g.mul a) (g.mul b) = loopGuess a b := by
  unfold loopGuess
  rw [between_moved g a b hg]

theorem frameAt_moved (g : Rigid ℝ) (poses : List (Rigid ℝ)) (i : Int) :
    frameAt (poses.map g.mul) i = (frameAt poses i).bind fun p => .ok (g.mul p) := by
  unfold frameAt
  by_cases h : 0 ≤ i
  · rw [if_pos h, if_pos h, List.getElem?_map]
    cases poses[i.toNat]? <;> rfl
  · rw [if_neg h, if_neg h]
    rfl

/-- C139, the match of a candidate: with all poses moved by any rigid motion of the world, the first guess, the match, its score and
whether it is accepted are the same, or the same failure comes. -/
theorem C139_match (g : Rigid ℝ) (hg : TurnsRigidly g) (accept : ℝ) (poses : List (Rigid ℝ)) (hasCloud : Nat → Bool)
    (align : Nat → Nat → Rigid ℝ → Rigid ℝ × ℝ) (p : Int × Int) :
    closeLoop accept (poses.map g.mul) hasCloud align p = closeLoop accept poses hasCloud align p := by
  unfold closeLoop
  rw [frameAt_moved, frameAt_moved]
  cases frameAt poses p.1 with
  | abort => rfl
  | ub => rfl
  | ok t =>
    cases frameAt poses p.2 with
    | abort => rfl
    | ub => rfl
    | ok s =>
      simp only [Outcome.bind, Outcome.bind_ok]
      rw [loopGuess_moved g t s hg]

theorem C139_matches (g : Rigid ℝ) (hg : TurnsRigidly g) (accept : ℝ) (poses : List (Rigid ℝ)) (hasCloud : Nat → Bool)
    (align : Nat → Nat → Rigid ℝ → Rigid ℝ × ℝ) : ∀ ps : List (Int × Int),
    closeLoops accept (poses.map g.mul) hasCloud align ps = closeLoops accept poses hasCloud align ps
  | [] => rfl
  | p :: ps => by
    rw [closeLoops, closeLoops, C139_match g hg, C139_matches g hg accept poses hasCloud align ps]

/-- C139, the check of the edges against each other: the same verdict. -/
theorem C139_agree (g : Rigid ℝ) (hg : TurnsRigidly g) (euler : Matrix (Fin 3) (Fin 3) ℝ → ℝ) (poses : Nat → Rigid ℝ) (es : List ClosedEdge) :
    closeSucceeds euler (fun i => g.mul (poses i)) es = closeSucceeds euler poses es := by
  have hs : ∀ e : LoopEdge ℝ, e.source (fun i => g.mul (poses i)) = g.mul (e.source poses) := fun e => mul_moved g _ _
  have ha : ∀ a b : Rigid ℝ, edgeAgrees euler (g.mul a) (g.mul b) = edgeAgrees euler a b := by
    intro a b
    unfold edgeAgrees
    rw [between_moved g a b hg]
  have hc : ∀ l : List (LoopEdge ℝ), checkResult euler (fun i => g.mul (poses i)) l = checkResult euler poses l := by
    intro l
    match l with
    | [] => rfl
    | [_] => rfl
    | e :: e2 :: es =>
      simp only [checkResult, hs, ha]
  unfold closeSucceeds
  rw [hc]

theorem sees_moved {g : Rigid ℝ} (hg : KeepsVertical g) {f f' : LoopFrame} {pos : Nat → Fin 3 → ℝ} {n : Nat} (h : SeesPositions f pos n)
    (h' : SeesPositions f' (fun i => movedTo g (pos i)) n) : f'.xy = f.xy ∧ f'.z = f.z := by
  obtain ⟨c, s, hcs, hr⟩ := hg
  have e0 : ∀ p : Fin 3 → ℝ, movedTo g p 0 = c * p 0 - s * p 1 + g.trans 0 := by
    intro p
    simp [movedTo, hr, Matrix.mulVec, dotProduct, Fin.sum_univ_three]
    ring
  have e1 : ∀ p : Fin 3 → ℝ, movedTo g p 1 = s * p 0 + c * p 1 + g.trans 1 := by
    intro p
    simp [movedTo, hr, Matrix.mulVec, dotProduct, Fin.sum_univ_three]
  have e2 : ∀ p : Fin 3 → ℝ, movedTo g p 2 = p 2 + g.trans 2 := by
    intro p
    simp [movedTo, hr, Matrix.mulVec, dotProduct, Fin.sum_univ_three]
  refine ⟨?_, ?_⟩
  · funext i
    have a := h.xy i
    have b := h'.xy i
    have : (f'.xy i : ℝ) = (f.xy i : ℝ) := by
      rw [a, b]
      congr 1
      simp only [e0, e1]
      linear_combination ((pos n 0 - pos i 0) ^ 2 + (pos n 1 - pos i 1) ^ 2) * hcs
    exact_mod_cast this
  · funext i
    have a := h.z i
    have b := h'.z i
    have : (f'.z i : ℝ) = (f.z i : ℝ) := by
      rw [a, b]
      congr 1
      simp only [e2]
      ring
    exact_mod_cast this

theorem addLoopFrame_size (s : LoopSettings) (st st' : LoopState) (f : LoopFrame) (r : LoopResult) (h : addLoopFrame s st f = .ok (st', r)) :
    st'.size = st.size + 1 := by
  unfold addLoopFrame at h
  dsimp only at h
  split at h
  · simp only [Outcome.ok.injEq, Prod.mk.injEq] at h
    rw [← h.1]
  · rw [Outcome.bind_eq_ok] at h
    obtain ⟨pairs, -, h⟩ := h
    split at h
    · rw [Outcome.check_bind_eq_ok] at h
      obtain ⟨-, h⟩ := h
      simp only [Outcome.pure_eq, Outcome.ok.injEq, Prod.mk.injEq] at h
      rw [← h.1]
    · simp only [Outcome.pure_eq, Outcome.ok.injEq, Prod.mk.injEq] at h
      rw [← h.1]

/-- C139, the detector: with the map shifted anywhere and turned about the vertical, every frame leads to the same candidates, the same
state of the detector and the same accepted loops, or to the same failure. -/
theorem C139_loops_partial (g : Rigid ℝ) (hg : KeepsVertical g) (s : LoopSettings) : ∀ {n : Nat} {es es' : List LoopEv}, SameLoops g n es es' →
    ∀ st : LoopState, st.size = n → runLoop s st es' = runLoop s st es := by
  intro n es es' h
  induction h with
  | nil n => exact fun st _ => rfl
  | window a b _ ih =>
    intro st hn
    rw [runLoop, runLoop]
    congr 1
    funext _
    exact ih _ hn
  | frame f f' pos h1 h2 h3 h4 h5 _ ih =>
    intro st hn
    obtain ⟨hx, hz⟩ := sees_moved hg h1 h2
    have hf : f' = f := by
      cases f
      cases f'
      simp only at h3 h4 h5 hx hz
      rw [h3, h4, h5, hx, hz]
    rw [hf, runLoop, runLoop]
    cases ha : addLoopFrame s st f with
    | abort => rfl
    | ub => rfl
    | ok r =>
      obtain ⟨st1, r⟩ := r
      simp only [Outcome.bind_ok]
      rw [ih st1 (by rw [addLoopFrame_size s st st1 f r ha, hn])]

/-! ### examples -/

/-- A quarter turn to the left and a shift. -/
noncomputable def turnedLeft : Rigid ℝ := ⟨!![0, -1, 0; 1, 0, 0; 0, 0, 1], ![100, 200, 5]⟩

example : KeepsVertical turnedLeft := ⟨0, 1, by norm_num, rfl⟩

example : TurnsRigidly turnedLeft := by
  unfold TurnsRigidly turnedLeft
  ext i j
  fin_cases i <;> fin_cases j <;> simp [Matrix.mul_apply, Fin.sum_univ_three]

/-- A frame two metres away from every other one, to the side or above. -/
def sideFrame (cur : Nat) : LoopFrame := ⟨true, fun i => if i = cur then 0 else 2, fun _ => 0, fun _ => 0, fun _ => true⟩
def aboveFrame (cur : Nat) : LoopFrame := ⟨true, fun _ => 0, fun i => if i = cur then 0 else 2, fun _ => 0, fun _ => true⟩

/-- The first frame is at the origin, the others two metres to the side. -/
noncomputable def sidePos (cur : Nat) (i : Nat) : Fin 3 → ℝ := if i = cur then ![0, 2, 0] else 0

theorem sideFrame_sees (cur : Nat) : SeesPositions (sideFrame cur) (sidePos cur) cur := by
  refine ⟨fun i => ?_, fun i => ?_⟩
  · by_cases h : i = cur
    · simp [sideFrame, h]
    · simp only [sideFrame, sidePos, if_neg h, if_true]
      have : Real.sqrt 4 = 2 := by
        rw [show (4 : ℝ) = 2 ^ 2 by norm_num, Real.sqrt_sq (by norm_num)]
      norm_num [this]
  · by_cases h : i = cur
    · simp [sideFrame, sidePos, h]
    · simp [sideFrame, sidePos, h]

/-- A map that lies on its side. -/
noncomputable def tipped : Rigid ℝ := ⟨!![1, 0, 0; 0, 0, -1; 0, 1, 0], 0⟩

theorem aboveFrame_sees (cur : Nat) : SeesPositions (aboveFrame cur) (fun i => movedTo tipped (sidePos cur i)) cur := by
  have e : ∀ p : Fin 3 → ℝ, movedTo tipped p = ![p 0, -p 2, p 1] := by
    intro p
    funext i
    fin_cases i <;> simp [movedTo, tipped, Matrix.mulVec, dotProduct, Fin.sum_univ_three]
  refine ⟨fun i => ?_, fun i => ?_⟩
  · by_cases h : i = cur
    · simp [aboveFrame, sidePos, e, h]
    · simp [aboveFrame, sidePos, e, h]
  · by_cases h : i = cur
    · simp [aboveFrame, h]
    · have e2 : ∀ p : Fin 3 → ℝ, movedTo tipped p 2 = p 1 := fun p => by rw [e]; rfl
      simp only [aboveFrame, sidePos, e2, if_neg h, if_true]
      norm_num

/-- What the detector says. -/
def foundPairs (o : Outcome (LoopState × List LoopResult)) : Option (List (List (Nat × Nat))) :=
  match o with
  | .ok r => some (r.2.map LoopResult.pairs)
  | _ => none

/-- C139 is false for a map that is tipped over: the distance along the vertical has a bound of its own, which is smaller.  The same frames
are candidates in one map and not in the other. -/
theorem C139_tipped_fails : ∃ (g : Rigid ℝ) (s : LoopSettings) (es es' : List LoopEv), TurnsRigidly g ∧ SameLoops g 0 es es' ∧
    foundPairs (runLoop s LoopState.init es') ≠ foundPairs (runLoop s LoopState.init es) := by
  refine ⟨tipped, { ignore := 0 }, [.frame (sideFrame 0), .frame (sideFrame 1)], [.frame (aboveFrame 0), .frame (aboveFrame 1)], ?_, ?_, by decide +kernel⟩
  · unfold TurnsRigidly tipped
    ext i j
    fin_cases i <;> fin_cases j <;> simp [Matrix.mul_apply, Fin.sum_univ_three]
  · refine .frame _ _ (sidePos 0) (sideFrame_sees 0) (aboveFrame_sees 0) rfl rfl rfl ?_
    exact .frame _ _ (sidePos 1) (sideFrame_sees 1) (aboveFrame_sees 1) rfl rfl rfl (.nil _)

example : foundPairs (runLoop { ignore := 0 } LoopState.init [.frame (sideFrame 0), .frame (sideFrame 1)]) = some [[], [(0, 1)]] := by decide +kernel

theorem sideFrame_turned (cur : Nat) : SeesPositions (sideFrame cur) (fun i => movedTo turnedLeft (sidePos cur i)) cur := by
  have e : ∀ p : Fin 3 → ℝ, movedTo turnedLeft p = ![-p 1 + 100, p 0 + 200, p 2 + 5] := by
    intro p
    funext i
    fin_cases i <;> simp [movedTo, turnedLeft, Matrix.mulVec, dotProduct, Fin.sum_univ_three]
  refine ⟨fun i => ?_, fun i => ?_⟩
  · by_cases h : i = cur
    · simp [sideFrame, h]
    · simp only [sideFrame, sidePos, e, if_neg h, if_true]
      have : Real.sqrt 4 = 2 := by
        rw [show (4 : ℝ) = 2 ^ 2 by norm_num, Real.sqrt_sq (by norm_num)]
      norm_num [this]
  · by_cases h : i = cur
    · simp [sideFrame, sidePos, h]
    · simp [sideFrame, sidePos, e, h]

example : SameLoops turnedLeft 0 [.frame (sideFrame 0), .frame (sideFrame 1)] [.frame (sideFrame 0), .frame (sideFrame 1)] :=
  .frame _ _ (sidePos 0) (sideFrame_sees 0) (sideFrame_turned 0) rfl rfl rfl
    (.frame _ _ (sidePos 1) (sideFrame_sees 1) (sideFrame_turned 1) rfl rfl rfl (.nil _))
end Verif
