import Mathlib.Analysis.InnerProductSpace.PiL2
import Mathlib.Analysis.InnerProductSpace.Projection.Basic
/-! Sums of weighted squares of affine maps. -/
namespace Verif
noncomputable section
variable {H V : Type} [AddCommGroup H] [Module ℝ H] [NormedAddCommGroup V] [InnerProductSpace ℝ V]

/-- Weight, linear part, measured value. -/
abbrev LsTerm (H V : Type) [AddCommGroup H] [Module ℝ H] [NormedAddCommGroup V]
    [InnerProductSpace ℝ V] := ℝ × (H →ₗ[ℝ] V) × V

def lsCost (ts : List (LsTerm H V)) (x : H) : ℝ := (ts.map fun t => t.1 * ‖t.2.1 x - t.2.2‖ ^ 2).sum
def lsCross (ts : List (LsTerm H V)) (x h : H) : ℝ :=
  (ts.map fun t => t.1 * inner ℝ (t.2.1 x - t.2.2) (t.2.1 h)).sum
def lsSq (ts : List (LsTerm H V)) (h : H) : ℝ := (ts.map fun t => t.1 * ‖t.2.1 h‖ ^ 2).sum

theorem lsCost_add (ts : List (LsTerm H V)) (x h : H) :
    lsCost ts (x + h) = lsCost ts x + 2 * lsCross ts x h + lsSq ts h := by
  unfold lsCost lsCross lsSq
  induction ts with
  | nil => simp
  | cons t ts ih =>
    simp only [List.map_cons, List.sum_cons]
    rw [ih]
    have : t.2.1 (x + h) - t.2.2 = (t.2.1 x - t.2.2) + t.2.1 h := by rw [map_add]; abel
    rw [this, norm_add_sq_real]
    ring

theorem lsSq_nonneg (ts : List (LsTerm H V)) (hw : ∀ t ∈ ts, 0 ≤ t.1) (h : H) : 0 ≤ lsSq ts h := by
  unfold lsSq
  apply List.sum_nonneg
  intro a ha
  rw [List.mem_map] at ha
  obtain ⟨t, ht, rfl⟩ := ha
  exact mul_nonneg (hw t ht) (sq_nonneg _)

theorem lsCross_smul (ts : List (LsTerm H V)) (x h : H) (c : ℝ) :
    lsCross ts x (c • h) = c * lsCross ts x h := by
  unfold lsCross
  induction ts with
  | nil => simp
  | cons t ts ih =>
    simp only [List.map_cons, List.sum_cons, map_smul, inner_smul_right] at ih ⊢
    rw [ih]; ring

theorem lsSq_smul (ts : List (LsTerm H V)) (h : H) (c : ℝ) :
    lsSq ts (c • h) = c ^ 2 * lsSq ts h := by
  unfold lsSq
  induction ts with
  | nil => simp
  | cons t ts ih =>
    simp only [List.map_cons, List.sum_cons, map_smul, norm_smul, mul_pow, Real.norm_eq_abs,
      sq_abs] at ih ⊢
    rw [ih]; ring

/-- Best exactly if all pulls balance. -/
theorem ls_best_iff (ts : List (LsTerm H V)) (hw : ∀ t ∈ ts, 0 ≤ t.1) (x : H) :
    (∀ y, lsCost ts x ≤ lsCost ts y) ↔ ∀ h, lsCross ts x h = 0 := by
  constructor
  · intro hb h
    by_contra hne
    set C := lsCross ts x h with hC
    set Q := lsSq ts h with hQ
    have hQ0 : 0 ≤ Q := lsSq_nonneg ts hw h
    have h1 := hb (x + (-(C / (Q + 1))) • h)
    rw [lsCost_add, lsCross_smul, lsSq_smul, ← hC, ← hQ] at h1
    have hpos : 0 < Q + 1 := by linarith
    have h2 : 0 ≤ 2 * (-(C / (Q + 1)) * C) + (-(C / (Q + 1))) ^ 2 * Q := by linarith
    have h3 : 2 * (-(C / (Q + 1)) * C) + (-(C / (Q + 1))) ^ 2 * Q =
        -(C ^ 2 * (Q + 2)) / (Q + 1) ^ 2 := by field_simp; ring
    rw [h3] at h2
    have h4 : 0 < C ^ 2 * (Q + 2) := mul_pos (by positivity) (by linarith)
    have : -(C ^ 2 * (Q + 2)) / (Q + 1) ^ 2 < 0 := div_neg_of_neg_of_pos (by linarith) (by positivity)
    linarith
  · intro hc y
    have := lsCost_add ts x (y - x)
    rw [hc, add_sub_cancel] at this
    have := lsSq_nonneg ts hw (y - x)
    linarith

/-- Two best solutions agree in every weighted term. -/
theorem ls_best_unique (ts : List (LsTerm H V)) (hw : ∀ t ∈ ts, 0 < t.1) {x y : H}
    (hx : ∀ z, lsCost ts x ≤ lsCost ts z) (hy : ∀ z, lsCost ts y ≤ lsCost ts z) :
    ∀ t ∈ ts, t.2.1 x = t.2.1 y := by
  have hc := (ls_best_iff ts (fun t ht => (hw t ht).le) x).1 hx
  have h1 := lsCost_add ts x (y - x)
  rw [hc, add_sub_cancel] at h1
  have h0 : lsSq ts (y - x) = 0 := by
    have := hy x
    have := lsSq_nonneg ts (fun t ht => (hw t ht).le) (y - x)
    linarith
  intro t ht
  unfold lsSq at h0
  have hall : ∀ a ∈ ts.map (fun t => t.1 * ‖t.2.1 (y - x)‖ ^ 2), a = 0 := by
    have hn : ∀ a ∈ ts.map (fun t => t.1 * ‖t.2.1 (y - x)‖ ^ 2), 0 ≤ a := by
      intro a ha
      rw [List.mem_map] at ha
      obtain ⟨t, ht, rfl⟩ := ha
      exact mul_nonneg (hw t ht).le (sq_nonneg _)
    intro a ha
    exact le_antisymm (h0 ▸ List.single_le_sum hn a ha) (hn a ha)
  have := hall _ (List.mem_map_of_mem ht)
  rcases mul_eq_zero.1 this with h | h
  · exact absurd h (hw t ht).ne'
  · have := norm_eq_zero.1 (pow_eq_zero_iff two_ne_zero |>.1 h)
    rw [map_sub, sub_eq_zero] at this
    exact this.symm

/-- There is a best solution. -/
theorem ls_best_exists [FiniteDimensional ℝ V] (ts : List (LsTerm H V)) (hw : ∀ t ∈ ts, 0 ≤ t.1) :
    ∃ x, ∀ y, lsCost ts x ≤ lsCost ts y := by
  let W := PiLp 2 (fun _ : Fin ts.length => V)
  let F : H →ₗ[ℝ] W :=
    { toFun := fun h => WithLp.toLp 2 fun i => Real.sqrt ts[i].1 • ts[i].2.1 h
      map_add' := fun a b => by
        ext i
        show _ = Real.sqrt ts[i].1 • ts[i].2.1 a + Real.sqrt ts[i].1 • ts[i].2.1 b
        simp
      map_smul' := fun c a => by
        ext i
        show _ = c • (Real.sqrt ts[i].1 • ts[i].2.1 a)
        simp [smul_comm c] }
  let m : W := WithLp.toLp 2 fun i => Real.sqrt ts[i].1 • ts[i].2.2
  have hcost : ∀ x, lsCost ts x = ‖F x - m‖ ^ 2 := by
    intro x
    rw [PiLp.norm_sq_eq_of_L2]
    unfold lsCost
    rw [← Fin.sum_univ_fun_getElem]
    refine Finset.sum_congr rfl fun i _ => ?_
    have h0 : 0 ≤ ts[(i : Nat)].1 := hw _ (List.getElem_mem _)
    show _ = ‖Real.sqrt ts[(i : Nat)].1 • ts[(i : Nat)].2.1 x - Real.sqrt ts[(i : Nat)].1 • ts[(i : Nat)].2.2‖ ^ 2
    rw [← smul_sub, norm_smul, mul_pow, Real.norm_eq_abs, sq_abs, Real.sq_sqrt h0]
  obtain ⟨v, hv, hmin⟩ := (LinearMap.range F).exists_norm_eq_iInf_of_complete_subspace
    (Submodule.complete_of_finiteDimensional _) m
  obtain ⟨x, rfl⟩ := hv
  refine ⟨x, fun y => ?_⟩
  rw [hcost, hcost]
  have : ‖m - F x‖ ≤ ‖m - F y‖ := by
    rw [hmin]
    exact ciInf_le ⟨0, fun _ ⟨_, h⟩ => h ▸ norm_nonneg _⟩ (⟨F y, LinearMap.mem_range_self _ _⟩ : LinearMap.range F)
  rw [norm_sub_rev (F x), norm_sub_rev (F y)]
  gcongr

end
end Verif
