import Verif.Spec.Lum
import Verif.Proofs.Outcome
import Mathlib.Tactic.Common
import Mathlib.Data.List.GetD
namespace Verif
open Spec
variable {P T : Type} (act : T → P → P) (zero : T) (corr : List P → List P → List PointPair)

theorem matchEarlier_verts (clouds : List (List P)) (i : Nat) (js : List Nat) (g : LumGraph P T) :
    (matchEarlier corr clouds i js g).verts = g.verts := by
  induction js generalizing g with
  | nil => rfl
  | cons j js ih =>
    rw [matchEarlier, ih]
    split <;> rfl

theorem matchEarlier_edges (clouds : List (List P)) (i : Nat) (js : List Nat) (g : LumGraph P T) (a b : Nat) :
    (matchEarlier corr clouds i js g).edges a b =
      if b = i ∧ a ∈ js ∧ 2 < (corr (clouds.getD i []) (clouds.getD a [])).length then
        some (corr (clouds.getD i []) (clouds.getD a []))
      else g.edges a b := by
  induction js generalizing g with
  | nil => simp [matchEarlier]
  | cons j js ih =>
    rw [matchEarlier, ih]
    by_cases h1 : b = i ∧ a ∈ js ∧ 2 < (corr (clouds.getD i []) (clouds.getD a [])).length
    · rw [if_pos h1, if_pos ⟨h1.1, List.mem_cons_of_mem _ h1.2.1, h1.2.2⟩]
    · rw [if_neg h1]
      by_cases h2 : b = i ∧ a = j ∧ 2 < (corr (clouds.getD i []) (clouds.getD a [])).length
      · obtain ⟨rfl, rfl, h3⟩ := h2
        rw [if_pos h3, if_pos (show b = b ∧ a ∈ a :: js ∧ _ from ⟨rfl, List.mem_cons_self, h3⟩)]
        exact if_pos ⟨rfl, rfl⟩
      · rw [if_neg (show ¬ (b = i ∧ a ∈ j :: js ∧ 2 < (corr (clouds.getD i []) (clouds.getD a [])).length) from ?_)]
        · split
          · rename_i h3
            refine if_neg ?_
            rintro ⟨rfl, rfl⟩
            exact h2 ⟨rfl, rfl, h3⟩
          · rfl
        · rintro ⟨rfl, hm, h3⟩
          rcases List.mem_cons.1 hm with rfl | hm
          · exact h2 ⟨rfl, rfl, h3⟩
          · exact h1 ⟨rfl, hm, h3⟩

theorem lumRound_verts (fs : List (ViewFrame P T)) (i : Nat) (s : LumGraph P T × List (List P)) :
    (lumRound act zero corr fs i s).1.verts = s.1.verts ++ (placed act fs).map (fun c => (c, zero)) ∧
    (lumRound act zero corr fs i s).2 = s.2 ++ placed act fs := by
  induction fs generalizing i s with
  | nil => simp [lumRound, placed]
  | cons f fs ih =>
    rw [lumRound]
    refine ⟨(ih _ _).1.trans ?_, (ih _ _).2.trans ?_⟩
    · rw [matchEarlier_verts]; simp [placed]
    · simp [placed]

theorem lumRound_edges (fs : List (ViewFrame P T)) (i : Nat) (s : LumGraph P T × List (List P)) (hi : i ≤ s.2.length)
    (M : List (List P)) (hM : ∃ tl, s.2 ++ placed act fs = M ++ tl) (hl : M.length = i + fs.length) (a b : Nat) :
    (lumRound act zero corr fs i s).1.edges a b =
      if i ≤ b then pairsOf corr M s.1.edges a b else s.1.edges a b := by
  induction fs generalizing i s with
  | nil =>
    rw [lumRound]
    split
    · rename_i h
      unfold pairsOf
      rw [List.getElem?_eq_none (l := M) (i := b) (by simp at hl; omega)]
      split <;> simp_all
    · rfl
  | cons f fs ih =>
    obtain ⟨tl, htl⟩ := hM
    have hp : placed act (f :: fs) = f.cloud.map (act f.pose) :: placed act fs := rfl
    have hcl : s.2 ++ [f.cloud.map (act f.pose)] ++ placed act fs = M ++ tl := by
      rw [← htl, hp]; simp
    have key : ∀ k, k ≤ i → k < M.length → (s.2 ++ [f.cloud.map (act f.pose)]).getD k [] = M.getD k [] := by
      intro k hk hkM
      have h1 : (s.2 ++ [f.cloud.map (act f.pose)] ++ placed act fs).getD k [] = (M ++ tl).getD k [] := by rw [hcl]
      rwa [List.getD_append _ _ _ _ (by simp; omega), List.getD_append _ _ _ _ hkM] at h1
    rw [lumRound]
    rw [ih (i + 1) _ (by simp; omega) ⟨tl, hcl⟩ (by simp at hl; omega)]
    have hiM : i < M.length := by simp at hl; omega
    simp only
    by_cases h1 : i + 1 ≤ b
    · rw [if_pos h1, if_pos (by omega)]
      unfold pairsOf
      have he : ∀ a, (matchEarlier corr (s.2 ++ [f.cloud.map (act f.pose)]) i (List.range i)
          { s.1 with verts := s.1.verts ++ [(f.cloud.map (act f.pose), zero)] }).edges a b = s.1.edges a b := by
        intro a
        rw [matchEarlier_edges, if_neg (by rintro ⟨rfl, -⟩; omega)]
      simp only [he]
    · rw [if_neg h1, matchEarlier_edges]
      by_cases h2 : i ≤ b
      · obtain rfl : b = i := by omega
        rw [if_pos h2, key b (Nat.le_refl b) hiM]
        unfold pairsOf
        rw [List.getElem?_eq_getElem hiM]
        by_cases ha : a < b
        · have haM : a < M.length := by omega
          rw [key a (by omega) haM, List.getElem?_eq_getElem haM]
          simp only [List.getD_eq_getElem _ _ hiM, List.getD_eq_getElem _ _ haM]
          simp only [List.mem_range, ha, true_and]
          rfl
        · rw [if_neg (by simp only [List.mem_range]; rintro ⟨-, h, -⟩; exact ha h)]
          cases M[a]? with
          | none => rfl
          | some c => exact (if_neg (by rintro ⟨h, -⟩; exact ha h)).symm
      · rw [if_neg h2, if_neg (by rintro ⟨rfl, -⟩; omega)]

theorem pairsOf_twice (M : List (List P)) (before : Nat → Nat → Option (List PointPair)) :
    pairsOf corr M (pairsOf corr M before) = pairsOf corr M before := by
  funext a b
  unfold pairsOf
  cases M[a]? with
  | none => rfl
  | some s =>
    cases M[b]? with
    | none => rfl
    | some t =>
      dsimp only
      split <;> rfl

theorem lumCompute_spec (solve : LumGraph P T → Nat → T) (g g' : LumGraph P T) (h : g.compute solve = .ok g') :
    g'.verts.map Prod.fst = g.verts.map Prod.fst ∧ g'.edges = g.edges := by
  unfold LumGraph.compute at h
  split at h
  · cases h; exact ⟨rfl, rfl⟩
  · split at h
    · cases h
      refine ⟨?_, rfl⟩
      rw [List.map_map]
      refine List.ext_getElem (by simp) fun n h1 h2 => ?_
      simp only [List.getElem_map, List.getElem_range, Function.comp_apply, LumGraph.cloudAt]
      rw [List.getD_eq_getElem _ _ (by simpa using h2)]
      simp
    · cases h

theorem lumRound_all (frames : List (ViewFrame P T)) (s : LumGraph P T × List (List P))
    (hs : s.2 = [] ∨ ∃ tl, s.2 = placed act frames ++ tl) :
    (lumRound act zero corr frames 0 s).1.verts.map Prod.fst = s.1.verts.map Prod.fst ++ placed act frames ∧
    (lumRound act zero corr frames 0 s).1.edges = pairsOf corr (placed act frames) s.1.edges ∧
    ∃ tl, (lumRound act zero corr frames 0 s).2 = placed act frames ++ tl := by
  have hv := lumRound_verts act zero corr frames 0 s
  refine ⟨?_, ?_, ?_⟩
  · rw [hv.1, List.map_append, List.map_map]
    congr 1
    exact List.map_id _
  · funext a b
    rw [lumRound_edges act zero corr frames 0 s (Nat.zero_le _) (placed act frames) ?_ (by simp [placed]), if_pos (Nat.zero_le _)]
    rcases hs with hs | ⟨tl, hs⟩
    · exact ⟨[], by rw [hs]; simp⟩
    · exact ⟨tl ++ placed act frames, by rw [hs]; simp⟩
  · rw [hv.2]
    rcases hs with hs | ⟨tl, hs⟩
    · exact ⟨[], by rw [hs]; simp⟩
    · exact ⟨tl ++ placed act frames, by rw [hs]; simp⟩

/-- What the rounds leave behind. -/
theorem lumRounds_spec (solve : LumGraph P T → Nat → T) (frames : List (ViewFrame P T)) (n : Nat)
    (s : LumGraph P T × List (List P)) (hs : s.2 = [] ∨ ∃ tl, s.2 = placed act frames ++ tl) (g : LumGraph P T)
    (h : lumRounds act zero corr solve frames (n + 1) s = .ok g) :
    ∃ G : LumGraph P T, G.compute solve = .ok g ∧
      G.verts.map Prod.fst = s.1.verts.map Prod.fst ++ (List.replicate (n + 1) (placed act frames)).flatten ∧
      G.edges = pairsOf corr (placed act frames) s.1.edges := by
  induction n generalizing s with
  | zero =>
    simp only [lumRounds, Outcome.bind_eq_ok, Outcome.ok.injEq] at h
    obtain ⟨g', h, rfl⟩ := h
    obtain ⟨h1, h2, -⟩ := lumRound_all act zero corr frames s hs
    exact ⟨_, h, by rw [h1]; simp, h2⟩
  | succ n ih =>
    rw [lumRounds] at h
    simp only [Outcome.bind_eq_ok] at h
    obtain ⟨g', h', h⟩ := h
    obtain ⟨h1, h2, h3⟩ := lumRound_all act zero corr frames s hs
    obtain ⟨c1, c2⟩ := lumCompute_spec solve _ _ h'
    obtain ⟨G, g1, g2, g3⟩ := ih (g', (lumRound act zero corr frames 0 s).2) (Or.inr h3) h
    refine ⟨G, g1, ?_, ?_⟩
    · rw [g2, c1, h1, List.replicate_succ (n := n + 1)]
      simp
    · rw [g3]
      dsimp only
      rw [c2, h2, pairsOf_twice]

/-- The rounds end when the pairs known stay inside of the clouds. -/
theorem lumRounds_ok (solve : LumGraph P T → Nat → T) (frames : List (ViewFrame P T)) (n : Nat)
    (s : LumGraph P T × List (List P)) (hs : s.2 = [] ∨ ∃ tl, s.2 = placed act frames ++ tl)
    (hok : ∀ a b ps, pairsOf corr (placed act frames) s.1.edges a b = some ps → ∀ p ∈ ps,
      p.query < ((s.1.verts.map Prod.fst ++ placed act frames).getD a []).length ∧
      p.mate < ((s.1.verts.map Prod.fst ++ placed act frames).getD b []).length) :
    ∃ g, lumRounds act zero corr solve frames n s = .ok g := by
  induction n generalizing s with
  | zero => exact ⟨_, rfl⟩
  | succ n ih =>
    obtain ⟨h1, h2, h3⟩ := lumRound_all act zero corr frames s hs
    have hc : ∃ g', (lumRound act zero corr frames 0 s).1.compute solve = .ok g' := by
      unfold LumGraph.compute
      split
      · exact ⟨_, rfl⟩
      · rw [if_pos]
        · exact ⟨_, rfl⟩
        · intro a b ps hps p hp
          rw [h2] at hps
          unfold LumGraph.cloudAt
          rw [h1]
          exact hok a b ps hps p hp
    obtain ⟨g', hg'⟩ := hc
    obtain ⟨c1, c2⟩ := lumCompute_spec solve _ _ hg'
    rw [lumRounds]
    simp only [hg', Outcome.bind_ok]
    refine ih (g', (lumRound act zero corr frames 0 s).2) (Or.inr h3) ?_
    intro a b ps hps p hp
    dsimp only at hps ⊢
    rw [c2, h2, pairsOf_twice] at hps
    have := hok a b ps hps p hp
    rw [c1, h1]
    generalize s.1.verts.map Prod.fst ++ placed act frames = A at this ⊢
    constructor
    · by_cases hl : a < A.length
      · rw [List.getD_append _ _ _ _ hl]; exact this.1
      · rw [List.getD_eq_default _ _ (by omega)] at this; simp at this
    · by_cases hl : b < A.length
      · rw [List.getD_append _ _ _ _ hl]; exact this.2
      · rw [List.getD_eq_default A _ (by omega : A.length ≤ b)] at this; simp at this

/-- The output of a call that ends. -/
theorem alignAll_out (solve : LumGraph P T → Nat → T) (frames : List (ViewFrame P T)) (hne : frames ≠ [])
    (g : LumGraph P T) (r : LumGraph P T × List P) (h : alignAll act zero corr solve frames g = .ok r) :
    ∃ G : LumGraph P T, G.verts.map Prod.fst = g.verts.map Prod.fst ++ (List.replicate 5 (placed act frames)).flatten ∧
      G.edges = pairsOf corr (placed act frames) g.edges ∧
      r.1.verts.map Prod.fst = G.verts.map Prod.fst ∧ r.1.edges = G.edges ∧
      r.2 = ((List.range frames.length).map fun v => (G.cloudAt v).map (act (solve G v))).flatten := by
  unfold alignAll at h
  rw [if_neg hne] at h
  simp only [Outcome.bind_eq_ok, Outcome.pure_eq, Outcome.ok.injEq] at h
  obtain ⟨g', h, rfl⟩ := h
  obtain ⟨G, h1, h2, h3⟩ := lumRounds_spec act zero corr solve frames 4 _ (Or.inl rfl) g' h
  obtain ⟨c1, c2⟩ := lumCompute_spec solve _ _ h1
  refine ⟨G, h2, h3, c1, c2, ?_⟩
  dsimp only
  have hlen : frames.length ≤ G.verts.length ∧ 2 ≤ G.verts.length := by
    have h4 := congrArg List.length h2
    have : 0 < frames.length := List.length_pos_iff.2 hne
    simp [placed] at h4
    omega
  unfold LumGraph.compute at h1
  rw [if_neg (show ¬ G.verts.length < 2 by omega)] at h1
  split at h1
  · cases h1
    congr 1
    refine List.map_congr_left fun v hv => ?_
    have hv' := List.mem_range.1 hv
    unfold LumGraph.moved
    dsimp only
    rw [List.getElem?_eq_getElem (by simp; omega)]
    simp
  · cases h1

end Verif
