import Verif.Proofs.Lum
/-! Property theorems C106 (aligning many clouds at once). -/
namespace Verif
open Spec
variable {P T : Type} (act : T → P → P) (zero : T) (corr : List P → List P → List PointPair)

/-- The clouds that have been added, null pointers left out. -/
theorem addAll_frames (views : List (Option (List P) × T)) (fs : List (ViewFrame P T)) :
    views.foldl (fun fs v => addNewCloud fs v.1 v.2) fs =
      fs ++ views.filterMap fun v => v.1.map fun c => ⟨c, v.2⟩ := by
  induction views generalizing fs with
  | nil => simp
  | cons v vs ih =>
    rw [List.foldl_cons, ih]
    rcases v with ⟨_ | c, p⟩ <;> simp [addNewCloud]

theorem cloudAt_placed (frames : List (ViewFrame P T)) (G : LumGraph P T) (tl : List (List P))
    (h : G.verts.map Prod.fst = placed act frames ++ tl) (i : Nat) (hi : i < frames.length) :
    G.cloudAt i = frames[i].cloud.map (act frames[i].pose) := by
  unfold LumGraph.cloudAt
  rw [h, List.getD_append _ _ _ _ (by simpa [placed] using hi), List.getD_eq_getElem _ _ (by simpa [placed] using hi)]
  simp [placed]

/-- C106: the first call writes every cloud that was added once, in the order of adding, moved by the pose given
with it and by the correction found for it; the pairs of points are those found between the clouds where the
given poses put them. -/
theorem C106_first_partial (hcorr : PairsInside corr) (solve : LumGraph P T → Nat → T) (views : List (Option (List P) × T)) :
    ∃ frames : List (ViewFrame P T), frames = views.foldl (fun fs v => addNewCloud fs v.1 v.2) [] ∧
      frames = (views.filterMap fun v => v.1.map fun c => ⟨c, v.2⟩) ∧
      ∃ (g : LumGraph P T) (out : List P), alignAll act zero corr solve frames {} = .ok (g, out) ∧
        (frames = [] → out = []) ∧
        (frames ≠ [] → ∃ G : LumGraph P T,
          G.verts.map Prod.fst = (List.replicate 5 (placed act frames)).flatten ∧
          G.edges = pairsOf corr (placed act frames) (fun _ _ => none) ∧
          out = (frames.zipIdx.map fun f => f.1.cloud.map fun p => act (solve G f.2) (act f.1.pose p)).flatten) := by
  refine ⟨_, rfl, by rw [addAll_frames]; rfl, ?_⟩
  generalize views.foldl (fun fs v => addNewCloud fs v.1 v.2) [] = frames
  by_cases hne : frames = []
  · exact ⟨{}, [], by rw [alignAll, if_pos hne], fun _ => rfl, fun h => absurd hne h⟩
  · have hpl : ∀ a b ps, pairsOf corr (placed act frames) (fun _ _ => none) a b = some ps → ∀ p ∈ ps,
        p.query < ((placed act frames).getD a []).length ∧ p.mate < ((placed act frames).getD b []).length := by
      intro a b ps h p hp
      unfold pairsOf at h
      cases ha : (placed act frames)[a]? with
      | none => rw [ha] at h; cases h
      | some s =>
        cases hb : (placed act frames)[b]? with
        | none => rw [ha, hb] at h; cases h
        | some t =>
          rw [ha, hb] at h
          dsimp only at h
          split at h
          · cases h
            rw [List.getD_eq_getElem?_getD, List.getD_eq_getElem?_getD, ha, hb]
            exact hcorr t s p hp
          · cases h
    obtain ⟨g, hg⟩ := lumRounds_ok act zero corr solve frames 5 ({}, []) (Or.inl rfl) (by simpa using hpl)
    have hall : alignAll act zero corr solve frames {} =
        .ok (g, ((List.range frames.length).map (g.moved act)).flatten) := by
      unfold alignAll
      rw [if_neg hne, hg]
      rfl
    refine ⟨g, _, hall, fun h => absurd h hne, fun _ => ?_⟩
    obtain ⟨G, h1, h2, -, -, h5⟩ := alignAll_out act zero corr solve frames hne {} _ hall
    refine ⟨G, by simpa using h1, h2, ?_⟩
    dsimp only at h5
    rw [h5]
    congr 1
    refine List.ext_getElem (by simp) fun i hi _ => ?_
    have hi' : i < frames.length := by simpa using hi
    simp only [List.getElem_map, List.getElem_range, List.getElem_zipIdx, Nat.zero_add]
    have h6 : G.verts.map Prod.fst = placed act frames ++ (List.replicate 4 (placed act frames)).flatten := by
      rw [h1, List.replicate_succ, List.flatten_cons]
      rfl
    rw [cloudAt_placed act frames G _ h6 i hi', List.map_map]
    rfl

/-- The clouds of the first call stay in the graph: after it, further vertices come behind five copies. -/
theorem second_clouds (solve : LumGraph P T → Nat → T) (frames : List (ViewFrame P T)) (f : ViewFrame P T) (hf : frames.head? = some f)
    (g g2 : LumGraph P T) (out : List P) (h1 : alignAll act zero corr solve frames {} = .ok (g, out))
    (tl : List (List P)) (h2 : g2.verts.map Prod.fst = g.verts.map Prod.fst ++ tl) :
    ∃ tl', g2.verts.map Prod.fst = placed act (frames ++ [f]) ++ tl' := by
  have hne : frames ≠ [] := by rintro rfl; cases hf
  obtain ⟨G, k1, -, k3, -, -⟩ := alignAll_out act zero corr solve frames hne {} _ h1
  obtain ⟨fs, rfl⟩ : ∃ fs, frames = f :: fs := by
    cases frames with
    | nil => cases hf
    | cons a b => cases hf; exact ⟨b, rfl⟩
  dsimp only at k3
  rw [h2, k3, k1]
  simp [List.replicate_succ, placed]

/-- C106 is false for a second call: a cloud that was added in between is missing, whatever it is, and the first
cloud is there twice. -/
theorem C106_again_fails (solve : LumGraph P T → Nat → T) (frames : List (ViewFrame P T)) (f new : ViewFrame P T)
    (hf : frames.head? = some f) (g g2 : LumGraph P T) (out out2 : List P)
    (h1 : alignAll act zero corr solve frames {} = .ok (g, out))
    (h2 : alignAll act zero corr solve (frames ++ [new]) g = .ok (g2, out2)) :
    ∃ poses : Nat → T, out2 = ((frames ++ [f]).zipIdx.map fun f =>
      f.1.cloud.map fun p => act (poses f.2) (act f.1.pose p)).flatten := by
  obtain ⟨G, k1, -, -, -, k5⟩ := alignAll_out act zero corr solve _ (by simp) g _ h2
  obtain ⟨tl, k6⟩ := second_clouds act zero corr solve frames f hf g G out h1 _ k1
  refine ⟨solve G, ?_⟩
  dsimp only at k5
  rw [k5]
  congr 1
  refine List.ext_getElem (by simp) fun i hi _ => ?_
  have hi' : i < (frames ++ [f]).length := by simpa using hi
  simp only [List.getElem_map, List.getElem_range, List.getElem_zipIdx, Nat.zero_add]
  rw [cloudAt_placed act (frames ++ [f]) G _ k6 i hi', List.map_map]
  rfl

/-- C106: a second call can also read outside of a cloud: the pairs found for the new cloud are used with the first
cloud.  It does whenever three or more pairs are found between an earlier cloud and the new one and one of them has
a number that the first cloud does not have. -/
theorem C106_outside_fails (solve : LumGraph P T → Nat → T) (frames : List (ViewFrame P T)) (f new e : ViewFrame P T)
    (hf : frames.head? = some f) (g : LumGraph P T) (out : List P)
    (h1 : alignAll act zero corr solve frames {} = .ok (g, out)) (he : e ∈ frames)
    (hp : 3 ≤ (corr (new.cloud.map (act new.pose)) (e.cloud.map (act e.pose))).length)
    (hq : ∃ p ∈ corr (new.cloud.map (act new.pose)) (e.cloud.map (act e.pose)), f.cloud.length ≤ p.mate) :
    alignAll act zero corr solve (frames ++ [new]) g = .ub := by
  obtain ⟨i, hi, rfl⟩ := List.getElem_of_mem he
  obtain ⟨r1, r2, -⟩ := lumRound_all act zero corr (frames ++ [new]) (g, []) (Or.inl rfl)
  have hc : (lumRound act zero corr (frames ++ [new]) 0 (g, [])).1.compute solve = .ub := by
    generalize (lumRound act zero corr (frames ++ [new]) 0 (g, [])).1 = G at r1 r2
    obtain ⟨tl, k6⟩ := second_clouds act zero corr solve frames f hf g G out h1 _ r1
    have hl : ¬ G.verts.length < 2 := by
      have := congrArg List.length k6
      have h3 : 0 < frames.length := by omega
      simp [placed] at this
      omega
    unfold LumGraph.compute
    rw [if_neg hl, if_neg]
    intro hex
    obtain ⟨p, hp1, hp2⟩ := hq
    have := (hex i frames.length _ (by
      rw [r2]
      unfold pairsOf
      rw [List.getElem?_eq_getElem (show i < (placed act (frames ++ [new])).length by simp [placed]; omega),
        List.getElem?_eq_getElem (show frames.length < (placed act (frames ++ [new])).length by simp [placed])]
      have e1 : (placed act (frames ++ [new]))[i]'(by simp [placed]; omega) = frames[i].cloud.map (act frames[i].pose) := by
        simp [placed, List.getElem_append_left, hi]
      have e2 : (placed act (frames ++ [new]))[frames.length]'(by simp [placed]) = new.cloud.map (act new.pose) := by
        simp [placed]
      rw [e1, e2]
      exact if_pos ⟨hi, hp⟩) p hp1).2
    rw [cloudAt_placed act (frames ++ [f]) G _ k6 frames.length (by simp)] at this
    simp at this
    omega
  unfold alignAll
  rw [if_neg (by simp), lumRounds]
  simp only [hc, Outcome.bind_ub]

/-! Three pairs are found whenever both clouds have three points: the last of the target with the first of the source. -/

def endPairs (t s : List Nat) : List PointPair :=
  if 3 ≤ s.length ∧ 3 ≤ t.length then [⟨0, t.length - 1⟩, ⟨1, t.length - 2⟩, ⟨2, t.length - 3⟩] else []

theorem endPairs_inside : PairsInside endPairs := by
  intro t s p hp
  unfold endPairs at hp
  split at hp
  · simp only [List.mem_cons, List.not_mem_nil, or_false] at hp
    rcases hp with rfl | rfl | rfl <;> (constructor <;> dsimp only <;> omega)
  · cases hp

-- the hypotheses of the two theorems are met: a cloud of three points, aligned; then one of five
example : ∃ g out, alignAll (fun (k : Nat) p => p + k) 0 endPairs (fun _ v => v) [⟨[1, 2, 3], 10⟩] {} = .ok (g, out) ∧
    out = [11, 12, 13] ∧
    alignAll (fun (k : Nat) p => p + k) 0 endPairs (fun _ v => v) ([⟨[1, 2, 3], 10⟩] ++ [⟨[4, 5, 6, 7, 8], 0⟩]) g = .ub := by
  obtain ⟨fr, h0, -, g, out, h1, -, h2⟩ := C106_first_partial (fun (k : Nat) p => p + k) 0 endPairs endPairs_inside (fun _ v => v)
    [(some [1, 2, 3], 10), (none, 4)]
  have h0' : fr = [⟨[1, 2, 3], 10⟩] := h0.trans rfl
  subst h0'
  obtain ⟨G, -, -, h3⟩ := h2 (by simp)
  refine ⟨g, out, h1, h3.trans rfl, ?_⟩
  exact C106_outside_fails (fun (k : Nat) p => p + k) 0 endPairs (fun _ v => v) _ ⟨[1, 2, 3], 10⟩ _ ⟨[1, 2, 3], 10⟩ rfl g out h1
    (by simp) (by decide) (by decide)

-- with a smaller cloud the second call ends, and the new cloud is missing
example : ∃ g out g2 out2, alignAll (fun (k : Nat) p => p + k) 0 endPairs (fun _ v => v) [⟨[1, 2, 3], 10⟩] {} = .ok (g, out) ∧
    alignAll (fun (k : Nat) p => p + k) 0 endPairs (fun _ v => v) ([⟨[1, 2, 3], 10⟩] ++ [⟨[4], 0⟩]) g = .ok (g2, out2) ∧
    out2.length = 6 := by
  obtain ⟨fr, h0, -, g, out, h1, -, h2⟩ := C106_first_partial (fun (k : Nat) p => p + k) 0 endPairs endPairs_inside (fun _ v => v)
    [(some [1, 2, 3], 10)]
  have h0' : fr = [⟨[1, 2, 3], 10⟩] := h0.trans rfl
  subst h0'
  obtain ⟨G, -, k2, -, k4, -⟩ := alignAll_out (fun (k : Nat) p => p + k) 0 endPairs (fun _ v => v) _ (by simp) {} _ h1
  have hedge : ∀ a b, g.edges a b = none := by
    intro a b
    dsimp only at k4
    rw [k4, k2]
    unfold pairsOf
    cases a with
    | zero =>
      cases b with
      | zero => rfl
      | succ b => rfl
    | succ a => rfl
  obtain ⟨g2, hg2⟩ := lumRounds_ok (fun (k : Nat) p => p + k) 0 endPairs (fun _ v => v) ([⟨[1, 2, 3], 10⟩] ++ [⟨[4], 0⟩]) 5
    (g, []) (Or.inl rfl) (by
      intro a b ps h
      exfalso
      have : pairsOf endPairs (placed (fun (k : Nat) p => p + k) ([⟨[1, 2, 3], 10⟩] ++ [⟨[4], 0⟩])) g.edges a b = none := by
        unfold pairsOf
        split
        · rename_i s t hs ht
          rw [if_neg, hedge]
          rintro ⟨hab, h3⟩
          match a, b, hab with
          | 0, 1, _ => simp [placed] at hs ht; subst hs ht; simp [endPairs] at h3
          | 0, b + 2, _ => simp [placed] at ht
          | 1, b + 2, _ => simp [placed] at ht
          | a + 2, b, _ => simp [placed] at hs
        · exact hedge a b
      rw [this] at h
      cases h)
  have h4 : alignAll (fun (k : Nat) p => p + k) 0 endPairs (fun _ v => v) ([⟨[1, 2, 3], 10⟩] ++ [⟨[4], 0⟩]) g =
      .ok (g2, ((List.range 2).map (g2.moved fun (k : Nat) p => p + k)).flatten) := by
    unfold alignAll
    rw [if_neg (by simp), hg2]
    rfl
  refine ⟨g, out, g2, _, h1, h4, ?_⟩
  obtain ⟨poses, hp⟩ := C106_again_fails (fun (k : Nat) p => p + k) 0 endPairs (fun _ v => v) _ ⟨[1, 2, 3], 10⟩ _ rfl g g2 out _ h1 h4
  rw [hp]
  simp

end Verif
