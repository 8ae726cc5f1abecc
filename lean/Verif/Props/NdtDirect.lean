import Verif.Model.NdtDirect
import Verif.Spec.NdtDirect
import Verif.Props.NdtGrid
/-!
C117.  The direct search for cells near a point gives exactly the cells with enough points among those
asked for: the point's own cell (`DIRECT1`), it and its six face neighbours (`DIRECT7`), it and all
twenty-six cells that touch it (`DIRECT26`), each with the mean of its points.

Not so in the code: `DIRECT26` leaves out the cell the point is in (`C117_own_fails`), and after a
cloud that needs too many cells the search goes on in the previous cloud's cells (`C117_stale_fails`).
-/
namespace Verif
open Spec

section
variable {K : Type} [Field K] [LinearOrder K] [IsStrictOrderedRing K] [FloorRing K]

theorem filter_box (c : NdtGridConfig K) (num : NdtNumerics K) (g g' : NdtGrid K) (p : NVec K) (ps : List (NVec K))
    (hs : ndtExtent c 0 p ps * ndtExtent c 1 p ps * ndtExtent c 2 p ps ≤ 2147483647)
    (h : g.filter c num p ps = .ok g') : g'.box = ndtBox c p ps := by
  unfold NdtGrid.filter at h
  rw [if_neg (not_lt.2 hs)] at h
  simp only [Outcome.bind_eq_ok] at h
  obtain ⟨_, _, _, _, _, _, _, _, _, _, _, _, _, _, m, _, h⟩ := h
  simp only [Outcome.pure_eq, Outcome.ok.injEq] at h
  rw [← h]

theorem cellNumber_ok (b : NdtBox) (hb : Fits b) (v : Fin 3 → Int) (hv : ∀ i, b.lo i ≤ v i ∧ v i ≤ b.hi i) :
    cellNumber b v = .ok (mixedRadix b v) := by
  have h0 := hv 0; have h1 := hv 1; have h2 := hv 2
  obtain ⟨r1, r2, r3, r4, r5, r6, r7⟩ := radix_bounds (d0 := b.div 0) (d1 := b.div 1) (d2 := b.div 2)
    (i0 := v 0 - b.lo 0) (i1 := v 1 - b.lo 1) (i2 := v 2 - b.lo 2)
    ⟨by omega, by unfold NdtBox.div; omega⟩ ⟨by omega, by unfold NdtBox.div; omega⟩
    ⟨by omega, by unfold NdtBox.div; omega⟩
  have hbig := hb.2
  unfold cellNumber
  rw [ndtInt_of (by omega) (by omega), Outcome.bind_ok, ndtInt_of (by omega) (by omega), Outcome.bind_ok,
    ndtInt_of (by omega) (by omega), Outcome.bind_ok, ndtInt_of (by omega) (by omega)]
  rfl

/-- The point's cell is near enough to the grid for the differences to be `int`s. -/
def NearGrid (b : NdtBox) (u : Fin 3 → Int) : Prop :=
  ∀ i, (-2147483648 ≤ u i ∧ u i ≤ 2147483647) ∧ (-2147483648 ≤ b.lo i - u i ∧ b.lo i - u i ≤ 2147483647) ∧
    -2147483648 ≤ b.hi i - u i ∧ b.hi i - u i ≤ 2147483647

theorem toEnds_ok (b : NdtBox) (u : Fin 3 → Int) (h : NearGrid b u) (i : Fin 3) : toEnds b u i = .ok () := by
  obtain ⟨h1, h2, h3⟩ := h i
  unfold toEnds
  rw [ndtInt_of h1.1 h1.2, Outcome.bind_ok, ndtInt_of h2.1 h2.2, Outcome.bind_ok, ndtInt_of h3.1 h3.2,
    Outcome.bind_ok]
  rfl

theorem lookup_map_snd {L M : Type} (f : L → M) (m : List (Int × L)) (k : Int) :
    (m.map fun e => (e.1, f e.2)).lookup k = (m.lookup k).map f := by
  induction m with
  | nil => rfl
  | cons a r ih =>
    obtain ⟨k', l⟩ := a
    simp only [List.map_cons, List.lookup_cons]
    split
    · rfl
    · exact ih

/-- C117: after a cloud is set, the search gives, in the order of the steps, the cells with enough points
among those that the steps lead to, wherever the point is; each is the cell made from exactly the points
in its cube.  Missing: clouds that need too many cells, and steps that leave out the point's own cell. -/
theorem C117_cells_partial (c : NdtGridConfig K) (num : NdtNumerics K) (g g' : NdtGrid K) (p : NVec K)
    (ps : List (NVec K)) (hl : 0 < c.leaf) (hmin : 2 ≤ c.minPoints) (hm0 : 0 < c.mult) (hm1 : c.mult ≤ 1)
    (hs : ndtExtent c 0 p ps * ndtExtent c 1 p ps * ndtExtent c 2 p ps ≤ 2147483647)
    (he : ∀ q ∈ p :: ps, c.minPoints ≤ (inCube c.leaf (cubeOf c.leaf q) (p :: ps)).length →
      let A := cellMatrix (inCube c.leaf (cubeOf c.leaf q) (p :: ps))
      IsEigen A (num.eigenvalues A) (num.eigenvectors A))
    (hi : ∀ A : NMat K, IsUnit A.det → A * num.inverse A = 1)
    (hf : Fits (ndtBox c p ps)) (h : g.filter c num p ps = .ok g')
    (x : NVec K) (hx : NearGrid (ndtBox c p ps) (cubeOf c.leaf x)) (steps : List (Fin 3 → Int)) :
    g'.direct c steps x = .ok (steps.filterMap fun d =>
      let ms := inCube c.leaf (shiftCube (cubeOf c.leaf x) d) (p :: ps)
      if c.minPoints ≤ ms.length then some (finishLeaf c num (leafOf ms)) else none) ∧
    ∀ d, c.minPoints ≤ (inCube c.leaf (shiftCube (cubeOf c.leaf x) d) (p :: ps)).length →
      (finishLeaf c num (leafOf (inCube c.leaf (shiftCube (cubeOf c.leaf x) d) (p :: ps)))).mean =
        meanPoint (inCube c.leaf (shiftCube (cubeOf c.leaf x) d) (p :: ps)) := by
  obtain ⟨m, hm, k1, -⟩ := filter_result c num g g' p ps hs h
  have kb := filter_box c num g g' p ps hs h
  obtain ⟨f1, f2⟩ := first_pass_cells c hl p ps m hm
  -- a cube with points has a point of the cloud in it
  have hmem : ∀ v ms, ms = inCube c.leaf v (p :: ps) → ms ≠ [] → ∃ q ∈ p :: ps, cubeOf c.leaf q = v := by
    intro v ms hms hne
    obtain ⟨q, hq⟩ := List.exists_mem_of_ne_nil ms hne
    rw [hms] at hq
    unfold inCube at hq
    rw [List.mem_filter] at hq
    exact ⟨q, hq.1, by simpa using hq.2⟩
  have hbox : ∀ q ∈ p :: ps, ∀ i, (ndtBox c p ps).lo i ≤ cubeOf c.leaf q i ∧ cubeOf c.leaf q i ≤ (ndtBox c p ps).hi i := by
    intro q hq i
    rw [← floor_cube]
    exact ndtBox_holds c hl p ps q hq i
  -- the number of points of a finished cell
  have hfin : ∀ v, c.minPoints ≤ (inCube c.leaf v (p :: ps)).length →
      (finishLeaf c num (leafOf (inCube c.leaf v (p :: ps)))).n = (inCube c.leaf v (p :: ps)).length ∧
      (finishLeaf c num (leafOf (inCube c.leaf v (p :: ps)))).mean = meanPoint (inCube c.leaf v (p :: ps)) := by
    intro v hv
    obtain ⟨q, hq, rfl⟩ := hmem v _ rfl (by
      intro h0; rw [h0] at hv; simp at hv; omega)
    obtain ⟨a1, a2, -⟩ := finish_full c num _ hmin hv hm0 hm1 (he q hq hv) hi
    exact ⟨a1, a2⟩
  have hsmall : ∀ v, ¬ c.minPoints ≤ (inCube c.leaf v (p :: ps)).length →
      ¬ c.minPoints ≤ (finishLeaf c num (leafOf (inCube c.leaf v (p :: ps)))).n := by
    intro v hv
    have hn := (leafOf_values (inCube c.leaf v (p :: ps))).1
    unfold finishLeaf
    dsimp only
    rw [if_neg (by rw [hn]; exact hv)]
    dsimp only
    rw [hn]; exact hv
  refine ⟨?_, fun d hd => (hfin _ hd).2⟩
  have hcube : (fun i => ⌊x i / c.leaf⌋) = cubeOf c.leaf x := rfl
  have hone : ∀ d, oneStep c g' (cubeOf c.leaf x) d = .ok (
      if c.minPoints ≤ (inCube c.leaf (shiftCube (cubeOf c.leaf x) d) (p :: ps)).length
      then some (finishLeaf c num (leafOf (inCube c.leaf (shiftCube (cubeOf c.leaf x) d) (p :: ps)))) else none) := by
    intro d
    set v := shiftCube (cubeOf c.leaf x) d with hv
    unfold oneStep
    rw [kb]
    by_cases hin : (∀ i, (ndtBox c p ps).lo i - cubeOf c.leaf x i ≤ d i) ∧ ∀ i, d i ≤ (ndtBox c p ps).hi i - cubeOf c.leaf x i
    · rw [if_pos hin]
      have hvin : ∀ i, (ndtBox c p ps).lo i ≤ v i ∧ v i ≤ (ndtBox c p ps).hi i := by
        intro i
        have a := hin.1 i; have b := hin.2 i
        simp only [hv, shiftCube]
        omega
      rw [show (fun i => cubeOf c.leaf x i + d i) = v from rfl, cellNumber_ok _ hf v hvin, Outcome.bind_ok, k1,
        lookup_map_snd]
      by_cases hne : inCube c.leaf v (p :: ps) = []
      · have hnone : m.lookup (mixedRadix (ndtBox c p ps) v) = none := by
          cases hlk : m.lookup (mixedRadix (ndtBox c p ps) v) with
          | none => rfl
          | some l =>
            exfalso
            obtain ⟨q, hq, e1, -⟩ := (f2 _ _).1 ((lookup_mem m f1 _ _).1 hlk)
            have := mixedRadix_inj _ _ _ hvin (hbox q hq) e1
            have hqin : q ∈ inCube c.leaf v (p :: ps) := by
              unfold inCube
              rw [List.mem_filter]
              exact ⟨hq, by simpa using this.symm⟩
            rw [hne] at hqin
            cases hqin
        rw [hnone, if_neg (by rw [hne]; simp; omega)]
        rfl
      · obtain ⟨q, hq, hqv⟩ := hmem v _ rfl hne
        have hl1 : m.lookup (mixedRadix (ndtBox c p ps) v) = some (leafOf (inCube c.leaf v (p :: ps))) := by
          rw [lookup_mem m f1, f2]
          exact ⟨q, hq, by rw [hqv], by rw [hqv]⟩
        rw [hl1, Option.map_some]
        by_cases hc : c.minPoints ≤ (inCube c.leaf v (p :: ps)).length
        · rw [if_pos hc, Option.filter_some, if_pos (by rw [(hfin v hc).1]; simpa using hc)]
          rfl
        · rw [if_neg hc, Option.filter_some, if_neg (by simpa using hsmall v hc)]
          rfl
    · rw [if_neg hin, if_neg]
      intro hc
      obtain ⟨q, hq, hqv⟩ := hmem v _ rfl (by intro h0; rw [h0] at hc; simp at hc; omega)
      apply hin
      have := hbox q hq
      rw [hqv] at this
      constructor
      · intro i
        have := (this i).1
        simp only [hv, shiftCube] at this
        omega
      · intro i
        have := (this i).2
        simp only [hv, shiftCube] at this
        omega
  unfold NdtGrid.direct
  rw [hcube, kb, toEnds_ok _ _ hx 0, Outcome.bind_ok, toEnds_ok _ _ hx 1, Outcome.bind_ok, toEnds_ok _ _ hx 2,
    Outcome.bind_ok]
  clear hx
  induction steps with
  | nil => rfl
  | cons d ds ih =>
    rw [allSteps, hone d, Outcome.bind_ok, ih, Outcome.bind_ok, List.filterMap_cons]
    dsimp only
    split
    · rename_i hc
      split
      · rename_i h0; cases h0
      · rename_i b h0
        injection h0 with h0
        rw [← h0]; rfl
    · rename_i hc
      split
      · rfl
      · rename_i b h0; cases h0

/-- `DIRECT7`: the steps lead to exactly the point's cube and those that share a face with it, once each. -/
theorem C117_faces (u v : Fin 3 → Int) :
    (FaceNeighbours u v ↔ ∃ d ∈ steps7, v = shiftCube u d) ∧ (steps7.map (shiftCube u)).Nodup := by
  constructor
  · unfold FaceNeighbours
    rw [Fin.sum_univ_three]
    constructor
    · intro h
      have e : ∀ d : Fin 3 → Int, (v 0 = u 0 + d 0 ∧ v 1 = u 1 + d 1 ∧ v 2 = u 2 + d 2) → v = shiftCube u d := by
        intro d hd
        funext i
        fin_cases i
        · exact hd.1
        · exact hd.2.1
        · exact hd.2.2
      have a0 := le_abs_self (u 0 - v 0); have b0 := neg_le_abs (u 0 - v 0)
      have a1 := le_abs_self (u 1 - v 1); have b1 := neg_le_abs (u 1 - v 1)
      have a2 := le_abs_self (u 2 - v 2); have b2 := neg_le_abs (u 2 - v 2)
      have p0 := abs_nonneg (u 0 - v 0); have p1 := abs_nonneg (u 1 - v 1); have p2 := abs_nonneg (u 2 - v 2)
      have hcases : (v 0 = u 0 ∧ v 1 = u 1 ∧ v 2 = u 2) ∨ (v 0 = u 0 + 1 ∧ v 1 = u 1 ∧ v 2 = u 2) ∨
          (v 0 = u 0 - 1 ∧ v 1 = u 1 ∧ v 2 = u 2) ∨ (v 0 = u 0 ∧ v 1 = u 1 + 1 ∧ v 2 = u 2) ∨
          (v 0 = u 0 ∧ v 1 = u 1 - 1 ∧ v 2 = u 2) ∨ (v 0 = u 0 ∧ v 1 = u 1 ∧ v 2 = u 2 + 1) ∨
          (v 0 = u 0 ∧ v 1 = u 1 ∧ v 2 = u 2 - 1) := by omega
      rcases hcases with h | h | h | h | h | h | h
      · exact ⟨![0, 0, 0], by simp [steps7], e _ (by simpa using h)⟩
      · exact ⟨![1, 0, 0], by simp [steps7], e _ (by simpa using h)⟩
      · exact ⟨![-1, 0, 0], by simp [steps7], e _ (by simpa [← sub_eq_add_neg] using h)⟩
      · exact ⟨![0, 1, 0], by simp [steps7], e _ (by simpa using h)⟩
      · exact ⟨![0, -1, 0], by simp [steps7], e _ (by simpa [← sub_eq_add_neg] using h)⟩
      · exact ⟨![0, 0, 1], by simp [steps7], e _ (by simpa using h)⟩
      · exact ⟨![0, 0, -1], by simp [steps7], e _ (by simpa [← sub_eq_add_neg] using h)⟩
    · rintro ⟨d, hd, rfl⟩
      simp only [steps7, List.mem_cons, List.not_mem_nil, or_false] at hd
      rcases hd with rfl | rfl | rfl | rfl | rfl | rfl | rfl <;> simp [shiftCube]
  · refine List.Nodup.map ?_ (by decide)
    intro a b h
    funext i
    have := congrFun h i
    simp only [shiftCube] at this
    omega

/-- `DIRECT1`: the point's cube only. -/
theorem C117_own (u v : Fin 3 → Int) : (∃ d ∈ steps1, v = shiftCube u d) ↔ v = u := by
  have : shiftCube u ![0, 0, 0] = u := by
    funext i
    fin_cases i <;> simp [shiftCube]
  simp [steps1, this]

/-- `DIRECT26`: every cube that touches the point's cube, except that one, once each. -/
theorem C117_touching (u v : Fin 3 → Int) :
    ((Touching u v ∧ v ≠ u) ↔ ∃ d ∈ steps26, v = shiftCube u d) ∧ (steps26.map (shiftCube u)).Nodup := by
  constructor
  · constructor
    · rintro ⟨h, hne⟩
      refine ⟨fun i => v i - u i, ?_, by funext i; simp [shiftCube]⟩
      have h0 := h 0; have h1 := h 1; have h2 := h 2
      have all : ∀ a b c : Int, |a| ≤ 1 → |b| ≤ 1 → |c| ≤ 1 → ¬ (a = 0 ∧ b = 0 ∧ c = 0) → ![a, b, c] ∈ steps26 := by
        intro a b c ha hb hc hn
        rw [abs_le] at ha hb hc
        have ca : a = -1 ∨ a = 0 ∨ a = 1 := by omega
        have cb : b = -1 ∨ b = 0 ∨ b = 1 := by omega
        have cc : c = -1 ∨ c = 0 ∨ c = 1 := by omega
        rcases ca with rfl | rfl | rfl <;> rcases cb with rfl | rfl | rfl <;> rcases cc with rfl | rfl | rfl <;>
          first
          | decide
          | exact absurd ⟨rfl, rfl, rfl⟩ hn
      have e : (fun i => v i - u i) = ![v 0 - u 0, v 1 - u 1, v 2 - u 2] := by
        funext i; fin_cases i <;> rfl
      rw [e]
      refine all _ _ _ (by rw [abs_sub_comm]; exact h0) (by rw [abs_sub_comm]; exact h1)
        (by rw [abs_sub_comm]; exact h2) ?_
      rintro ⟨a, b, c⟩
      apply hne
      funext i
      fin_cases i
      · show v 0 = u 0; omega
      · show v 1 = u 1; omega
      · show v 2 = u 2; omega
    · rintro ⟨d, hd, rfl⟩
      have key : ∀ d ∈ steps26, (∀ i, |d i| ≤ 1) ∧ d ≠ 0 := by decide
      obtain ⟨k1, k2⟩ := key d hd
      refine ⟨fun i => ?_, fun h => k2 ?_⟩
      · have := k1 i
        simp only [shiftCube]
        rw [show u i - (u i + d i) = -d i by ring, abs_neg]
        exact this
      · funext i
        have := congrFun h i
        simp only [shiftCube] at this
        show d i = 0
        omega
  · refine List.Nodup.map ?_ (by decide)
    intro a b h
    funext i
    have := congrFun h i
    simp only [shiftCube] at this
    omega

/-- A cloud that needs too many cells leaves the search as it was: it goes on in the cells of the
previous cloud. -/
theorem C117_stale_fails (c : NdtGridConfig K) (num : NdtNumerics K) (g g' : NdtGrid K) (p : NVec K)
    (ps : List (NVec K)) (hs : 2147483647 < ndtExtent c 0 p ps * ndtExtent c 1 p ps * ndtExtent c 2 p ps)
    (h : g.filter c num p ps = .ok g') (steps : List (Fin 3 → Int)) (x : NVec K) :
    g'.direct c steps x = g.direct c steps x := by
  unfold NdtGrid.filter at h
  rw [if_pos hs] at h
  injection h with h
  subst h
  have : ∀ u l, allSteps c { g with indices := [] } u l = allSteps c g u l := by
    intro u l
    induction l with
    | nil => rfl
    | cons d r ih => simp only [allSteps, ih]; rfl
  unfold NdtGrid.direct
  simp only [this]

/-- Before any cloud is set nothing is found. -/
theorem C117_empty (c : NdtGridConfig K) (x : NVec K) (hx : NearGrid ⟨0, 0⟩ (cubeOf c.leaf x))
    (steps : List (Fin 3 → Int)) : (NdtGrid.new : NdtGrid K).direct c steps x = .ok [] := by
  unfold NdtGrid.direct
  rw [show (NdtGrid.new : NdtGrid K).box = ⟨0, 0⟩ from rfl, show (fun i => ⌊x i / c.leaf⌋) = cubeOf c.leaf x from rfl,
    toEnds_ok _ _ hx 0, Outcome.bind_ok, toEnds_ok _ _ hx 1, Outcome.bind_ok, toEnds_ok _ _ hx 2, Outcome.bind_ok]
  have hf : Fits ⟨0, 0⟩ := by unfold Fits; decide
  induction steps with
  | nil => rfl
  | cons d r ih =>
    have : oneStep c (NdtGrid.new : NdtGrid K) (cubeOf c.leaf x) d = .ok none := by
      unfold oneStep
      split
      · rename_i h
        rw [show (NdtGrid.new : NdtGrid K).box = ⟨0, 0⟩ from rfl] at h ⊢
        rw [cellNumber_ok _ hf _ (by
          intro i
          have a := h.1 i; have b := h.2 i
          constructor
          · show (0 : Int) ≤ _
            change (0 : Int) - _ ≤ _ at a
            omega
          · show _ ≤ (0 : Int)
            change _ ≤ (0 : Int) - _ at b
            omega), Outcome.bind_ok]
        rfl
      · rfl
    rw [allSteps, this, Outcome.bind_ok, ih, Outcome.bind_ok]
    rfl

end

/-- The six points of one cell and a query among them: `DIRECT1` and `DIRECT7` find the cell with the
mean of the points, `DIRECT26` finds nothing. -/
theorem C117_own_fails : ∃ g', (NdtGrid.new : NdtGrid ℚ).filter ndtDefault flatNum flatCell.head! flatCell.tail = .ok g' ∧
    g'.direct ndtDefault steps26 flatCell.head! = .ok [] ∧
    ∃ l, g'.direct ndtDefault steps1 flatCell.head! = .ok [l] ∧ g'.direct ndtDefault steps7 flatCell.head! = .ok [l] ∧
      l.mean = meanPoint flatCell := by
  obtain ⟨g', hg⟩ := flat_filter
  have hq : flatCell.head! ∈ flatCell := by decide +kernel
  have hcl : flatCell.head! :: flatCell.tail = flatCell := rfl
  have key := C117_cells_partial ndtDefault flatNum _ g' flatCell.head! flatCell.tail (by decide +kernel) (by decide +kernel)
    (by decide +kernel) (by decide +kernel) (by decide +kernel)
    (by
      rw [hcl]
      intro q hq _
      rw [flat_cube q hq]
      exact flat_eigen)
    (fun A h => Matrix.mul_nonsing_inv A h) (by unfold Fits; decide +kernel) hg flatCell.head!
    (by unfold NearGrid; decide +kernel)
  rw [hcl] at key
  have hzero : inCube ndtDefault.leaf (shiftCube (cubeOf ndtDefault.leaf flatCell.head!) ![0, 0, 0]) flatCell = flatCell := by
    decide +kernel
  refine ⟨g', hg, ?_, finishLeaf ndtDefault flatNum (leafOf flatCell), ?_, ?_, ?_⟩
  · rw [(key steps26).1]
    congr 1
    rw [List.filterMap_eq_nil_iff]
    intro d hd
    have : ∀ d ∈ steps26, ¬ ndtDefault.minPoints ≤
        (inCube ndtDefault.leaf (shiftCube (cubeOf ndtDefault.leaf flatCell.head!) d) flatCell).length := by
      decide +kernel
    dsimp only
    rw [if_neg (this d hd)]
  · rw [(key steps1).1]
    congr 1
    simp only [steps1, List.filterMap_cons, List.filterMap_nil, hzero]
    rw [if_pos (by decide +kernel)]
  · rw [(key steps7).1]
    congr 1
    have : ∀ d ∈ steps7.tail, ¬ ndtDefault.minPoints ≤
        (inCube ndtDefault.leaf (shiftCube (cubeOf ndtDefault.leaf flatCell.head!) d) flatCell).length := by
      decide +kernel
    rw [show steps7 = ![0, 0, 0] :: steps7.tail from rfl, List.filterMap_cons]
    dsimp only
    rw [hzero, if_pos (by decide +kernel)]
    dsimp only
    congr 1
    rw [List.filterMap_eq_nil_iff]
    intro d hd
    rw [if_neg (this d hd)]
  · have := (key steps1).2 ![0, 0, 0] (by rw [hzero]; decide +kernel)
    rw [hzero] at this
    exact this

/-- Two points three million metres apart after the six points of one cell: the cell of the six is still
found, though no point of the new cloud is in it. -/
example : ∃ g' g'' l, (NdtGrid.new : NdtGrid ℚ).filter ndtDefault flatNum flatCell.head! flatCell.tail = .ok g' ∧
    g'.filter ndtDefault flatNum ![3000000, 3000000, 3000000] [![6000000, 6000000, 6000000]] = .ok g'' ∧
    g''.direct ndtDefault steps7 flatCell.head! = .ok [l] ∧
    inCube ndtDefault.leaf (cubeOf ndtDefault.leaf flatCell.head!)
      [![3000000, 3000000, 3000000], ![6000000, 6000000, 6000000]] = [] := by
  obtain ⟨g', hg, -, l, -, h7, -⟩ := C117_own_fails
  have hs : 2147483647 < ndtExtent ndtDefault 0 (![3000000, 3000000, 3000000] : NVec ℚ) [![6000000, 6000000, 6000000]] *
      ndtExtent ndtDefault 1 (![3000000, 3000000, 3000000] : NVec ℚ) [![6000000, 6000000, 6000000]] *
      ndtExtent ndtDefault 2 (![3000000, 3000000, 3000000] : NVec ℚ) [![6000000, 6000000, 6000000]] := by decide +kernel
  have h2 : g'.filter ndtDefault flatNum ![3000000, 3000000, 3000000] [![6000000, 6000000, 6000000]] =
      .ok { g' with indices := [] } := by
    unfold NdtGrid.filter
    rw [if_pos hs]
  refine ⟨g', _, l, hg, h2, ?_, by decide +kernel⟩
  rw [C117_stale_fails ndtDefault flatNum g' _ _ _ hs h2]
  exact h7

end Verif
