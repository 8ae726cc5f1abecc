import Verif.Proofs.Isam
/-!
C41: GPS constraints.
English: every GPS observation given to the optimiser before the GPS coordinate frame is solved is
applied once when it is solved, and every later one is applied exactly when it falls on the sampling
step.

C54: the pose graph.
English: for every sequence of submaps the optimiser stops nowhere, and is given exactly one anchor
(the first submap's pose), exactly one constraint between each two consecutive submaps (the
transform stored with the later one) and exactly the edges of the accepted loops; the exported graph
and the submaps' connection lists contain exactly these constraints, and every submap has the
optimiser's latest pose.

`Spec.EdgesValid`: accepted loop edges join an earlier submap with the newest one (see C37).
-/
namespace Verif
open Spec
variable {T E : Type}

/-- Before the GPS frame is solved nothing is applied; once frame `k` solves it, all observations of
the frames before `k` are applied once, in order, and of the later frames exactly those on the
sampling step.  Missing: the observation of frame `k` itself (`C41_solving_frame_fails`). -/
theorem C41_gps_partial (o : IsamOpts) (hu : o.useGps = true) (fs : List (IsamFrame T E))
    (hv : EdgesValid 0 fs) :
    ∃ st, isamRun o fs (isamInit T E) = .ok st ∧
      ((∀ k, ¬ IsTrigger o fs k) → gpsApplied st.doneF = []) ∧
      ∀ k, IsTrigger o fs k → (∀ j < k, ¬ IsTrigger o fs j) →
        gpsApplied st.doneF = gpsOf 0 (fs.take k) ++
          (gpsOf (k + 1) (fs.drop (k + 1))).filter fun c => onStep o c.1 := by
  obtain ⟨st, h, hd⟩ := isamRun_done o fs hv
  refine ⟨st, h, ?_, ?_⟩
  · intro hn
    rcases hd.gps hu with ⟨_, _, _, a⟩ | ⟨_, k, t, _⟩
    · exact a
    · exact absurd t (hn k)
  · intro k hk hj
    rcases hd.gps hu with ⟨_, t, _⟩ | ⟨_, k', t, t2, a⟩
    · exact absurd hk (t k)
    · have : k' = k := by
        rcases Nat.lt_trichotomy k' k with h1 | h1 | h1
        · exact absurd t (hj k' h1)
        · exact h1
        · exact absurd hk (t2 k h1)
      rw [← this]
      exact a

/-- With GPS switched off no GPS constraint is ever applied. -/
theorem C41_off (o : IsamOpts) (hu : o.useGps = false) (fs : List (IsamFrame T E))
    (hv : EdgesValid 0 fs) :
    ∃ st, isamRun o fs (isamInit T E) = .ok st ∧ gpsApplied st.doneF = [] := by
  obtain ⟨st, h, hd⟩ := isamRun_done o fs hv
  exact ⟨st, h, hd.noGps hu⟩

def gpsOpts (init step : Int) : IsamOpts :=
  { useGps := true, useOdom := false, calib := false, initNum := init, sampleStep := step,
    initAngle := 1 }

def gpsFrame (e : Option Nat) (rot : Rat) : IsamFrame Unit Nat :=
  { pose := (), fromLast := (), gps := e, odom := none, edges := [], rotation := rot,
    estimate := fun _ => () }

def gpsView (o : IsamOpts) (fs : List (IsamFrame Unit Nat)) : Option (List (Nat × Nat)) :=
  match isamRun o fs (isamInit Unit Nat) with
  | .ok st => some (gpsApplied st.doneF)
  | _ => none

/-- The frame at which the GPS frame is solved loses its own observation: it is neither among the
observations added at that moment nor on the sampling step afterwards. -/
theorem C41_solving_frame_fails :
    gpsView (gpsOpts 1 1) [gpsFrame (some 10) 0, gpsFrame (some 11) 2, gpsFrame (some 12) 2] =
      some [(0, 10), (2, 12)] := by
  decide +kernel

/-- Instance: three cached observations (one frame without GPS between), solving frame 4, then a
sampling step of 3. -/
example :
    gpsView (gpsOpts 2 3) [gpsFrame (some 10) 0, gpsFrame (some 11) 0, gpsFrame none 0,
      gpsFrame (some 13) 0, gpsFrame (some 14) 2, gpsFrame (some 15) 2, gpsFrame (some 16) 2,
      gpsFrame (some 17) 2] = some [(0, 10), (1, 11), (3, 13), (6, 16)] := by
  decide +kernel

/-- The constraints given to the optimiser. -/
theorem C54_constraints (o : IsamOpts) (fs : List (IsamFrame T E)) (hv : EdgesValid 0 fs) :
    ∃ st, isamRun o fs (isamInit T E) = .ok st ∧
      priorFactors st.doneF = (fs.head?.map fun f => (0, f.pose)).toList ∧
      stepFactors st.doneF = stepsOf 0 fs ∧
      loopFactors st.doneF = fs.flatMap (fun f => f.edges) ∧
      st.pendF = [] := by
  obtain ⟨st, h, hd⟩ := isamRun_done o fs hv
  exact ⟨st, h, hd.priors, hd.steps, hd.loops, hd.inv.pendF⟩

/-- The exported graph: a vertex for each submap and no other, at the pose the optimiser last gave
it, with exactly the constraints that start there. -/
theorem C54_exported_graph (o : IsamOpts) (fs : List (IsamFrame T E)) (hv : EdgesValid 0 fs)
    (pos : T → Rat × Rat) (big tiny : Rat) :
    ∃ st, isamRun o fs (isamInit T E) = .ok st ∧
      (∀ i < fs.length, ∃ f, fs.getLast? = some f ∧
        vgFind (i : Int) (vgRun pos big tiny st.graph).items =
          some ⟨f.estimate i, (leaving i st.doneF).map fun c => ((c.1 : Int), c.2)⟩) ∧
      (∀ j : Int, (∀ i < fs.length, j ≠ (i : Int)) →
        vgFind j (vgRun pos big tiny st.graph).items = none) := by
  obtain ⟨st, h, hd⟩ := isamRun_done o fs hv
  refine ⟨st, h, ?_, ?_⟩
  · intro i hi
    obtain ⟨p, hp, f, hf, rfl⟩ := hd.graphV i (by rw [hd.frames]; exact hi)
    refine ⟨f, hf, ?_⟩
    rw [(vgRun_items pos big tiny st.graph).2]
    unfold specItem
    rw [hp, hd.graphE]
    rfl
  · intro j hj
    rw [(vgRun_items pos big tiny st.graph).2]
    unfold specItem
    rw [hd.graphN j (by rw [hd.frames]; exact hj)]
    rfl

/-- The submaps' connection lists. -/
theorem C54_connected (o : IsamOpts) (fs : List (IsamFrame T E)) (hv : EdgesValid 0 fs) :
    ∃ st, isamRun o fs (isamInit T E) = .ok st ∧ ∀ i : Nat,
      (st.linked.filterMap fun c => if c.1 = i then some c.2 else none) =
        (leaving i st.doneF).map Prod.fst := by
  obtain ⟨st, h, hd⟩ := isamRun_done o fs hv
  exact ⟨st, h, hd.linked⟩

/-- Hence consecutive submaps are always linked, so every submap can be reached from the first. -/
theorem C54_chain (o : IsamOpts) (fs : List (IsamFrame T E)) (hv : EdgesValid 0 fs) :
    ∃ st, isamRun o fs (isamInit T E) = .ok st ∧
      ∀ i, i + 1 < fs.length → (i, i + 1) ∈ st.linked := by
  obtain ⟨st, h, hd⟩ := isamRun_done o fs hv
  refine ⟨st, h, fun i hi => ?_⟩
  have hmem : ∀ (k : Nat) (l : List (IsamFrame T E)) (j : Nat), k ≤ j → j < k + l.length → 0 < j →
      ∃ t, (j, t) ∈ stepsOf k l := by
    intro k l
    induction l generalizing k with
    | nil => intro j h1 h2; simp only [List.length_nil] at h2; omega
    | cons f l ih =>
      intro j h1 h2 h3
      simp only [List.length_cons] at h2
      rcases Nat.eq_or_lt_of_le h1 with rfl | hlt
      · exact ⟨f.fromLast, by simp only [stepsOf]; rw [if_neg (by omega)]; simp⟩
      · obtain ⟨t, ht⟩ := ih (k + 1) j hlt (by omega) h3
        exact ⟨t, by simp only [stepsOf]; exact List.mem_append_right _ ht⟩
  obtain ⟨t, ht⟩ := hmem 0 fs (i + 1) (Nat.zero_le _) (by omega) (by omega)
  rw [← hd.steps] at ht
  have hl : i + 1 ∈ (leaving i st.doneF).map Prod.fst := by
    unfold stepFactors at ht
    rw [List.mem_filterMap] at ht
    obtain ⟨g, hg, he⟩ := ht
    cases g with
    | step j u =>
      simp only [Option.some.injEq, Prod.mk.injEq] at he
      obtain ⟨rfl, rfl⟩ := he
      rw [List.mem_map]
      refine ⟨(i + 1, u), ?_, rfl⟩
      unfold leaving
      rw [List.mem_filterMap]
      exact ⟨_, hg, by simp⟩
    | _ => cases he
  rw [← hd.linked i, List.mem_filterMap] at hl
  obtain ⟨⟨a, b⟩, hc, he⟩ := hl
  simp only at he
  split at he
  · rename_i ha
    rw [Option.some.injEq] at he
    rw [← ha, ← he.trans (congrArg (· + 1) ha.symm)]
    exact hc
  · cases he

def graphView (o : IsamOpts) (fs : List (IsamFrame Nat Nat)) :
    List (Nat × Nat) × List (Nat × Nat) × List (Nat × Nat × Nat) × List (Nat × Nat) :=
  match isamRun o fs (isamInit Nat Nat) with
  | .ok st => (priorFactors st.doneF, stepFactors st.doneF, loopFactors st.doneF, st.linked)
  | _ => ([], [], [], [])

/-- Instance: three submaps, the third closing a loop with the first. -/
example :
    let f0 : IsamFrame Nat Nat := ⟨5, 0, none, none, [], 0, fun i => i⟩
    let f1 : IsamFrame Nat Nat := ⟨6, 1, none, some 7, [], 0, fun i => i + 10⟩
    let f2 : IsamFrame Nat Nat := ⟨7, 2, none, none, [(0, 2, 9)], 0, fun i => i + 20⟩
    EdgesValid 0 [f0, f1, f2] ∧
    graphView { gpsOpts 1 1 with useOdom := true } [f0, f1, f2] =
      ([(0, 5)], [(1, 1), (2, 2)], [(0, 2, 9)], [(0, 1), (1, 2), (0, 2)]) := by
  refine ⟨by simp [EdgesValid], by decide +kernel⟩

end Verif
