import Verif.Spec.Tools
import Verif.Proofs.AverageF
import Verif.Proofs.PathExport
import Verif.Props.VoxelGrid
/-
Lemmas for the tools.
-/
namespace Verif
open Spec

/-! ### path_statistic -/

def statBody (p : PathPoint) : List Char :=
  fixed6 p.p.x ++ ',' :: (fixed6 p.p.y ++ ',' :: (fixed6 p.p.z ++ ',' :: fixed6 p.intensity))

theorem readNumber_fixed_plain (x : Rat) : readNumber (fixed6 x) = some (fixedVal x) := by
  simpa using readNumber_fixed false false x

theorem statBody_cells (p : PathPoint) :
    readCells (cutAt ',' (statBody p)) = some ((pointNumbers p).map fixedVal) := by
  have hf : ∀ x : Rat, ',' ∉ fixed6 x := fun x => fixed6_not x (by decide) (by decide) (by decide)
  unfold statBody
  rw [cutAt_cons _ (hf _), cutAt_cons _ (hf _), cutAt_cons _ (hf _), cutAt_none (hf _)]
  simp only [readCells, readNumber_fixed_plain, pointNumbers, List.map_cons, List.map_nil]
  rfl

theorem statBody_newline (p : PathPoint) : '\n' ∉ statBody p := by
  have hf : ∀ x : Rat, '\n' ∉ fixed6 x := fun x => fixed6_not x (by decide) (by decide) (by decide)
  simp only [statBody, List.mem_append, List.mem_cons, hf]
  decide

theorem statLine_eq (p : PathPoint) : statLine p = statBody p ++ ['\n'] := by
  simp [statLine, statBody]

theorem readTable_stat (ps : List PathPoint) :
    readTable (ps.flatMap statLine) = some (ps.map fun p => (pointNumbers p).map fixedVal) := by
  unfold readTable
  induction ps with
  | nil => rfl
  | cons p ps ih =>
    rw [List.flatMap_cons, statLine_eq, List.append_assoc, List.singleton_append,
      cutAt_cons _ (statBody_newline p)]
    have hne : ∃ a b, cutAt '\n' (ps.flatMap statLine) = a :: b := by
      cases h : cutAt '\n' (ps.flatMap statLine) with
      | nil => rw [h] at ih; cases ps <;> simp [readLines] at ih
      | cons a b => exact ⟨a, b, rfl⟩
    obtain ⟨a, b, hab⟩ := hne
    rw [hab] at ih ⊢
    simp only [readLines, statBody_cells, ih, List.map_cons]
    rfl

theorem roundEven_int (n : Nat) : roundEven ((n : ℚ)) = n := by
  unfold roundEven
  have : ((n : ℚ)).floor.toNat = n := by
    have : ((n : ℚ)).floor = (n : Int) := by exact_mod_cast Rat.floor_intCast (n : Int)
    rw [this]; simp
  simp only [this, sub_self]
  norm_num

theorem fixedVal_int (n : Int) : fixedVal (n : ℚ) = n := by
  have hm : ∀ k : ℕ, roundEven ((k : ℚ) * 1000000) = k * 1000000 := by
    intro k
    have := roundEven_int (k * 1000000)
    push_cast at this
    exact this
  unfold fixedVal
  obtain ⟨k, rfl | rfl⟩ := n.eq_nat_or_neg
  · have h : ¬ (((k : ℕ) : ℚ) < 0) := not_lt.mpr (by positivity)
    rw [Int.cast_natCast]
    simp only [h, if_false, hm]
    push_cast
    ring
  · by_cases hk : k = 0
    · subst hk
      have := hm 0
      norm_num at this ⊢
      exact this
    · have h : -((k : ℕ) : ℚ) < 0 := by
        have : (0 : ℚ) < k := by exact_mod_cast Nat.pos_of_ne_zero hk
        linarith
      rw [Int.cast_neg, Int.cast_natCast]
      simp only [h, if_true, neg_neg, hm]
      push_cast
      ring

/-! ### pcd_sampler -/

theorem toF32_int {n : Nat} (h : n ≤ 2 ^ 24) : toF32 (n : ℚ) = n := by
  have := flRound_int 24 (by norm_num) n (by rw [Nat.abs_cast]; exact_mod_cast h)
  unfold toF32
  simpa using this

theorem truncInt_nonneg {q : ℚ} (h : 0 ≤ q) : truncInt q = ⌊q⌋ := by unfold truncInt; rw [if_pos h]

theorem toF32_nonneg {x : ℚ} (h : 0 ≤ x) : 0 ≤ toF32 x := flRound_nonneg 24 h

/-! ### pcd_to_las -/

theorem lasScale_pos : (0 : ℚ) < toF64 (1 / 100) := by decide +kernel

theorem lasQuot_err (v : ℚ) : |toF64 (v / toF64 (1 / 100)) / 100 - v| ≤ |v| / 2 ^ 50 := by
  have hs := lasScale_pos
  have h1 : |v / toF64 (1 / 100) / 100 - v| ≤ |v| / 2 ^ 52 := by
    have e : v / toF64 (1 / 100) / 100 - v = v * (1 / (toF64 (1 / 100) * 100) - 1) := by
      field_simp
    rw [e, abs_mul]
    have : |1 / (toF64 (1 / 100) * 100) - 1| ≤ (1 / 2 ^ 52 : ℚ) := by decide +kernel
    calc |v| * |1 / (toF64 (1 / 100) * 100) - 1| ≤ |v| * (1 / 2 ^ 52) := by gcongr
      _ = |v| / 2 ^ 52 := by ring
  have h2 : |toF64 (v / toF64 (1 / 100)) - v / toF64 (1 / 100)| ≤ |v / toF64 (1 / 100)| / 2 ^ 53 :=
    flRound_err 53 _
  generalize v / toF64 (1 / 100) = q at *
  have h3 : |q / 100| ≤ |v| + |v| / 2 ^ 52 := by
    have := abs_sub_abs_le_abs_sub (q / 100) v
    linarith
  have h4 : |q| = |q / 100| * 100 := by rw [abs_div]; norm_num
  have e : toF64 q / 100 - v = (toF64 q - q) / 100 + (q / 100 - v) := by ring
  rw [e]
  have h5 := abs_add_le ((toF64 q - q) / 100) (q / 100 - v)
  have h6 : |(toF64 q - q) / 100| = |toF64 q - q| / 100 := by rw [abs_div]; norm_num
  have := abs_nonneg v
  rw [h6] at h5
  rw [h4] at h2
  linarith

theorem lasRaw_ok {v : ℚ} (hv : |v| ≤ 21000000) : ∃ r, lasRaw v = .ok r ∧ Centi r v := by
  have h1 := lasQuot_err v
  unfold lasRaw
  generalize toF64 (v / toF64 (1 / 100)) = q at *
  have h2 := lround_bounds q
  have hc : |(lround q : ℚ) / 100 - v| ≤ 1 / 200 + |v| / 2 ^ 50 := by
    have e : (lround q : ℚ) / 100 - v = (q / 100 - v) - (q - lround q) / 100 := by ring
    rw [e]
    have := abs_sub (q / 100 - v) ((q - lround q) / 100)
    have h6 : |(q - lround q) / 100| = |q - lround q| / 100 := by rw [abs_div]; norm_num
    rw [h6] at this
    linarith
  refine ⟨lround q, ?_, hc⟩
  unfold int32
  have hb : |(lround q : ℚ)| ≤ 2147483647 := by
    have h7 := abs_sub_abs_le_abs_sub ((lround q : ℚ) / 100) v
    have h8 : |(lround q : ℚ) / 100| = |(lround q : ℚ)| / 100 := by rw [abs_div]; norm_num
    rw [h8] at h7
    linarith
  have hb' := abs_le.mp hb
  have a1 : -2147483647 ≤ lround q := by exact_mod_cast hb'.1
  have a2 : lround q ≤ 2147483647 := by exact_mod_cast hb'.2
  rw [if_pos (by omega)]

/-- What the loop over the fields leaves in one coordinate. -/
theorem lasFields_ok (c : RawCloud) (start : Nat) (val : LasField → ℚ) (fs : List LasField)
    (hn : (fs.map (·.name)).Nodup)
    (hv : ∀ f ∈ fs, f.name = ['x'] ∨ f.name = ['y'] ∨ f.name = ['z'] →
      fieldValue c f start = .ok (val f) ∧ |val f| ≤ 21000000) :
    ∀ p : Vec3 Int, ∃ q, lasFields c start fs p = .ok q ∧
      (∀ f ∈ fs, f.name = ['x'] → Centi q.x (val f)) ∧ (∀ f ∈ fs, f.name = ['y'] → Centi q.y (val f)) ∧
      (∀ f ∈ fs, f.name = ['z'] → Centi q.z (val f)) ∧
      ((∀ f ∈ fs, f.name ≠ ['x']) → q.x = p.x) ∧ ((∀ f ∈ fs, f.name ≠ ['y']) → q.y = p.y) ∧
      ((∀ f ∈ fs, f.name ≠ ['z']) → q.z = p.z) := by
  induction fs with
  | nil => intro p; exact ⟨p, rfl, by simp, by simp, by simp, fun _ => rfl, fun _ => rfl, fun _ => rfl⟩
  | cons f fs ih =>
    intro p
    simp only [List.map_cons, List.nodup_cons, List.mem_map, not_exists, not_and] at hn
    have ih' := ih hn.2 (fun g hg => hv g (by simp [hg]))
    have other : ∀ n : List Char, f.name = n → ∀ g ∈ fs, g.name ≠ n := by
      intro n hfn g hg hgn
      exact hn.1 g hg (by rw [hgn, hfn])
    unfold lasFields
    by_cases hx : f.name = ['x']
    · obtain ⟨h1, h2⟩ := hv f (by simp) (Or.inl hx)
      obtain ⟨r, hr, hc⟩ := lasRaw_ok h2
      obtain ⟨q, hq, q1, q2, q3, q4, q5, q6⟩ := ih' { p with x := r }
      refine ⟨q, ?_, ?_, ?_, ?_, ?_, ?_, ?_⟩
      · rw [if_pos hx, h1, Outcome.bind_ok, hr, Outcome.bind_ok, hq]
      · intro g hg hgx
        rcases List.mem_cons.mp hg with rfl | hg
        · rw [q4 (other _ hx)]; exact hc
        · exact q1 g hg hgx
      · intro g hg hgy
        rcases List.mem_cons.mp hg with rfl | hg
        · rw [hx] at hgy; exact absurd hgy (by decide)
        · exact q2 g hg hgy
      · intro g hg hgy
        rcases List.mem_cons.mp hg with rfl | hg
        · rw [hx] at hgy; exact absurd hgy (by decide)
        · exact q3 g hg hgy
      · intro h; exact absurd hx (h f (by simp))
      · intro h; exact q5 (fun g hg => h g (by simp [hg]))
      · intro h; exact q6 (fun g hg => h g (by simp [hg]))
    · by_cases hy : f.name = ['y']
      · obtain ⟨h1, h2⟩ := hv f (by simp) (Or.inr (Or.inl hy))
        obtain ⟨r, hr, hc⟩ := lasRaw_ok h2
        obtain ⟨q, hq, q1, q2, q3, q4, q5, q6⟩ := ih' { p with y := r }
        refine ⟨q, ?_, ?_, ?_, ?_, ?_, ?_, ?_⟩
        · rw [if_neg hx, if_pos hy, h1, Outcome.bind_ok, hr, Outcome.bind_ok, hq]
        · intro g hg hgx
          rcases List.mem_cons.mp hg with rfl | hg
          · exact absurd hgx hx
          · exact q1 g hg hgx
        · intro g hg hgy
          rcases List.mem_cons.mp hg with rfl | hg
          · rw [q5 (other _ hy)]; exact hc
          · exact q2 g hg hgy
        · intro g hg hgy
          rcases List.mem_cons.mp hg with rfl | hg
          · rw [hy] at hgy; exact absurd hgy (by decide)
          · exact q3 g hg hgy
        · intro h; exact q4 (fun g hg => h g (by simp [hg]))
        · intro h; exact absurd hy (h f (by simp))
        · intro h; exact q6 (fun g hg => h g (by simp [hg]))
      · by_cases hz : f.name = ['z']
        · obtain ⟨h1, h2⟩ := hv f (by simp) (Or.inr (Or.inr hz))
          obtain ⟨r, hr, hc⟩ := lasRaw_ok h2
          obtain ⟨q, hq, q1, q2, q3, q4, q5, q6⟩ := ih' { p with z := r }
          refine ⟨q, ?_, ?_, ?_, ?_, ?_, ?_, ?_⟩
          · rw [if_neg hx, if_neg hy, if_pos hz, h1, Outcome.bind_ok, hr, Outcome.bind_ok, hq]
          · intro g hg hgx
            rcases List.mem_cons.mp hg with rfl | hg
            · exact absurd hgx hx
            · exact q1 g hg hgx
          · intro g hg hgy
            rcases List.mem_cons.mp hg with rfl | hg
            · exact absurd hgy hy
            · exact q2 g hg hgy
          · intro g hg hgy
            rcases List.mem_cons.mp hg with rfl | hg
            · rw [q6 (other _ hz)]; exact hc
            · exact q3 g hg hgy
          · intro h; exact q4 (fun g hg => h g (by simp [hg]))
          · intro h; exact q5 (fun g hg => h g (by simp [hg]))
          · intro h; exact absurd hz (h f (by simp))
        · obtain ⟨q, hq, q1, q2, q3, q4, q5, q6⟩ := ih' p
          refine ⟨q, by rw [if_neg hx, if_neg hy, if_neg hz, hq], ?_, ?_, ?_, ?_, ?_, ?_⟩
          · intro g hg hgx
            rcases List.mem_cons.mp hg with rfl | hg
            · exact absurd hgx hx
            · exact q1 g hg hgx
          · intro g hg hgy
            rcases List.mem_cons.mp hg with rfl | hg
            · exact absurd hgy hy
            · exact q2 g hg hgy
          · intro g hg hgy
            rcases List.mem_cons.mp hg with rfl | hg
            · exact absurd hgy hz
            · exact q3 g hg hgy
          · intro h; exact q4 (fun g hg => h g (by simp [hg]))
          · intro h; exact q5 (fun g hg => h g (by simp [hg]))
          · intro h; exact q6 (fun g hg => h g (by simp [hg]))

theorem lasLoop_ok (c : RawCloud) (P : Nat → Vec3 Int → Prop) (n k : Nat)
    (h : ∀ i, k ≤ i → i < k + n → ∃ q, lasFields c (i * c.pointStep) c.fields ⟨0, 0, 0⟩ = .ok q ∧ P i q) :
    ∃ ps, lasLoop c n (k * c.pointStep) = .ok ps ∧ ps.length = n ∧
      ∀ i, i < n → ∃ q, ps[i]? = some q ∧ P (k + i) q := by
  induction n generalizing k with
  | zero => exact ⟨[], rfl, rfl, by simp⟩
  | succ n ih =>
    obtain ⟨q, hq, hP⟩ := h k (le_refl k) (by omega)
    obtain ⟨ps, hps, hl, hi⟩ := ih (k + 1) (fun i h1 h2 => h i (by omega) (by omega))
    rw [Nat.add_mul, Nat.one_mul] at hps
    refine ⟨q :: ps, ?_, by simp [hl], ?_⟩
    · unfold lasLoop
      rw [hq, Outcome.bind_ok, hps, Outcome.bind_ok]
      rfl
    · intro i hi'
      cases i with
      | zero => exact ⟨q, rfl, hP⟩
      | succ i =>
        obtain ⟨r, hr, hPr⟩ := hi i (by omega)
        exact ⟨r, by simpa using hr, by rw [show k + (i + 1) = k + 1 + i from by omega]; exact hPr⟩

end Verif
