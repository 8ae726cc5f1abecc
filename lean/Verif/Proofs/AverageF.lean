import Verif.Model.AverageF
import Verif.Spec.AverageF
import Verif.Proofs.CastF
import Verif.Proofs.Floats
import Verif.Proofs.Filters2
import Mathlib.Data.Finset.Max
/-
Bounds for the averages of AverageF.
-/
namespace Verif
open Spec

/-- A multiple of a `float` by a count below 2^29 is a `double`. -/
theorem natMul_exact {h : ℚ} (hs : Single h) (k : ℕ) (hk : k ≤ 2 ^ 29) : toF64 (k * h) = k * h := by
  obtain ⟨m, e, hm, he⟩ := flRound_form 24 (by norm_num) h
  have hh : h = m * 2 ^ e := by rw [← he]; exact hs.symm
  have := flRound_exact 53 (by norm_num) (k * m) e (by
    rw [abs_mul, Nat.abs_cast]
    calc (k : ℤ) * |m| ≤ 2 ^ 29 * 2 ^ 24 := by
          apply mul_le_mul (by exact_mod_cast hk) hm (abs_nonneg _) (by norm_num)
      _ = 2 ^ 53 := by norm_num)
  unfold toF64
  push_cast at this
  rw [hh, ← mul_assoc, this]

theorem toF64_le_toF64 {x y : ℚ} (h : x ≤ y) : toF64 x ≤ toF64 y := flRound_mono 53 (by norm_num) h

theorem toF32_mono {x y : ℚ} (h : x ≤ y) : toF32 x ≤ toF32 y := flRound_mono 24 (by norm_num) h

theorem sumF64_le {hi : ℚ} (hs : Single hi) (xs : List ℚ) :
    ∀ (k : ℕ) (s : ℚ), s ≤ k * hi → (∀ x ∈ xs, x ≤ hi) → k + xs.length ≤ 2 ^ 29 →
      xs.foldl (fun s x => toF64 (s + x)) s ≤ (k + xs.length : ℕ) * hi := by
  induction xs with
  | nil => intro k s h _ _; simpa using h
  | cons x xs ih =>
    intro k s h hx hn
    simp only [List.length_cons] at hn
    have h1 : toF64 (s + x) ≤ (k + 1 : ℕ) * hi := by
      rw [← natMul_exact hs (k + 1) (by omega)]
      apply toF64_le_toF64
      have := hx x (by simp)
      push_cast; linarith
    have := ih (k + 1) (toF64 (s + x)) h1 (fun y hy => hx y (by simp [hy])) (by omega)
    simp only [List.foldl_cons, List.length_cons]
    rw [show k + (xs.length + 1) = k + 1 + xs.length from by omega]
    exact this

theorem le_sumF64 {lo : ℚ} (hs : Single lo) (xs : List ℚ) :
    ∀ (k : ℕ) (s : ℚ), k * lo ≤ s → (∀ x ∈ xs, lo ≤ x) → k + xs.length ≤ 2 ^ 29 →
      (k + xs.length : ℕ) * lo ≤ xs.foldl (fun s x => toF64 (s + x)) s := by
  induction xs with
  | nil => intro k s h _ _; simpa using h
  | cons x xs ih =>
    intro k s h hx hn
    simp only [List.length_cons] at hn
    have h1 : (k + 1 : ℕ) * lo ≤ toF64 (s + x) := by
      rw [← natMul_exact hs (k + 1) (by omega)]
      apply toF64_le_toF64
      have := hx x (by simp)
      push_cast; linarith
    have := ih (k + 1) (toF64 (s + x)) h1 (fun y hy => hx y (by simp [hy])) (by omega)
    simp only [List.foldl_cons, List.length_cons]
    rw [show k + (xs.length + 1) = k + 1 + xs.length from by omega]
    exact this

theorem single_toF64 {h : ℚ} (hs : Single h) : toF64 h = h := by
  simpa using natMul_exact hs 1 (by norm_num)

/-- The quotient in `double`, before it is stored. -/
theorem quotF64_bounds {lo hi : ℚ} (hl : Single lo) (hh : Single hi) (xs : List ℚ) (h : xs ≠ [])
    (h1 : ∀ x ∈ xs, lo ≤ x) (h2 : ∀ x ∈ xs, x ≤ hi) (hn : xs.length ≤ 2 ^ 29) :
    lo ≤ sumF64 xs / xs.length ∧ sumF64 xs / xs.length ≤ hi := by
  have hpos : (0 : ℚ) < xs.length := by
    have := List.length_pos_iff.2 h
    exact_mod_cast this
  have a := sumF64_le hh xs 0 0 (by simp) h2 (by omega)
  have b := le_sumF64 hl xs 0 0 (by simp) h1 (by omega)
  rw [Nat.zero_add] at a b
  constructor
  · rw [le_div_iff₀ hpos]; unfold sumF64; linarith
  · rw [div_le_iff₀ hpos]; unfold sumF64; linarith

theorem avgF64_bounds {lo hi : ℚ} (hl : Single lo) (hh : Single hi) (xs : List ℚ) (h : xs ≠ [])
    (h1 : ∀ x ∈ xs, lo ≤ x) (h2 : ∀ x ∈ xs, x ≤ hi) (hn : xs.length ≤ 2 ^ 29) :
    lo ≤ avgF64 xs ∧ avgF64 xs ≤ hi := by
  obtain ⟨a, b⟩ := quotF64_bounds hl hh xs h h1 h2 hn
  constructor
  · have := toF32_mono (toF64_le_toF64 a)
    rw [single_toF64 hl, hl] at this
    exact this
  · have := toF32_mono (toF64_le_toF64 b)
    rw [single_toF64 hh, hh] at this
    exact this

theorem exists_bounds (xs : List ℚ) (h : xs ≠ []) :
    ∃ lo ∈ xs, ∃ hi ∈ xs, ∀ x ∈ xs, lo ≤ x ∧ x ≤ hi := by
  have hne : xs.toFinset.Nonempty := by simpa using h
  obtain ⟨lo, hl, h1⟩ := xs.toFinset.exists_min_image id hne
  obtain ⟨hi, hh, h2⟩ := xs.toFinset.exists_max_image id hne
  exact ⟨lo, by simpa using hl, hi, by simpa using hh, fun x hx =>
    ⟨h1 x (by simpa using hx), h2 x (by simpa using hx)⟩⟩

theorem avgF64_amid (xs : List ℚ) (h : xs ≠ []) (hs : ∀ x ∈ xs, Single x) (hn : xs.length ≤ 2 ^ 29) :
    Amid (avgF64 xs) xs := by
  obtain ⟨lo, hl, hi, hh, hb⟩ := exists_bounds xs h
  obtain ⟨a, b⟩ := avgF64_bounds (hs lo hl) (hs hi hh) xs h (fun x hx => (hb x hx).1)
    (fun x hx => (hb x hx).2) hn
  exact ⟨⟨lo, hl, a⟩, hi, hh, b⟩

/-! ### Error of a rounded sum -/

theorem sumF_err (p : ℕ) {M : ℚ} (hM : 0 ≤ M) (xs : List ℚ) :
    ∀ (k : ℕ) (s S : ℚ), |s - S| ≤ k ^ 2 * (M * (2 / 2 ^ p)) → |S| ≤ k * M → (∀ x ∈ xs, |x| ≤ M) →
      ((k + xs.length : ℕ) : ℚ) * 2 ≤ 2 ^ p →
      |xs.foldl (fun s x => flRound p (s + x)) s - (S + xs.sum)| ≤
        ((k + xs.length : ℕ) : ℚ) ^ 2 * (M * (2 / 2 ^ p)) := by
  have hp : (0 : ℚ) < 2 ^ p := by positivity
  induction xs with
  | nil => intro k s S h _ _ _; simpa using h
  | cons x xs ih =>
    intro k s S h hS hx hn
    simp only [List.length_cons] at hn
    have hk : (k : ℚ) * (2 / 2 ^ p) ≤ 1 := by
      rw [mul_div_assoc', div_le_one hp]
      push_cast at hn
      have : (0 : ℚ) ≤ xs.length := by positivity
      linarith
    have hx0 := hx x (by simp)
    have hS' : |S + x| ≤ (k + 1 : ℕ) * M := by
      have := abs_add_le S x
      push_cast; linarith
    have e1 : |(s + x) - (S + x)| ≤ k ^ 2 * (M * (2 / 2 ^ p)) := by
      rw [add_sub_add_right_eq_sub]; exact h
    have hkM : (k : ℚ) ^ 2 * (M * (2 / 2 ^ p)) ≤ k * M := by
      have h0 : (0 : ℚ) ≤ k * M := by positivity
      have := mul_le_mul_of_nonneg_left hk h0
      nlinarith
    have hsx : |s + x| ≤ (2 * k + 1) * M := by
      have := abs_sub_abs_le_abs_sub (s + x) (S + x)
      push_cast at hS'
      linarith
    have e2 := flRound_err p (s + x)
    have e3 : |s + x| / 2 ^ p ≤ (2 * k + 1) * M / 2 ^ p := by gcongr
    have e4 := abs_sub_le (flRound p (s + x)) (s + x) (S + x)
    have hq : (0 : ℚ) ≤ M / 2 ^ p := by positivity
    have h1 : |flRound p (s + x) - (S + x)| ≤ ((k + 1 : ℕ) : ℚ) ^ 2 * (M * (2 / 2 ^ p)) := by
      have i1 : (2 * k + 1) * M / 2 ^ p = (2 * k + 1) * (M / 2 ^ p) := by ring
      have i2 : ((k + 1 : ℕ) : ℚ) ^ 2 * (M * (2 / 2 ^ p)) =
          k ^ 2 * (M * (2 / 2 ^ p)) + (2 * (2 * k + 1)) * (M / 2 ^ p) := by push_cast; ring
      have hk0 : (0 : ℚ) ≤ k := by positivity
      rw [i2]
      nlinarith
    have := ih (k + 1) (flRound p (s + x)) (S + x) h1 hS' (fun y hy => hx y (by simp [hy]))
      (by rw [show k + 1 + xs.length = k + (xs.length + 1) from by omega]; exact hn)
    simp only [List.foldl_cons, List.length_cons, List.sum_cons]
    rw [show k + (xs.length + 1) = k + 1 + xs.length from by omega, ← add_assoc]
    exact this

/-- The rounded sum divided by the count, against the mean. -/
theorem quot_err (p : ℕ) {M : ℚ} (hM : 0 ≤ M) (xs : List ℚ) (h : xs ≠ []) (hx : ∀ x ∈ xs, |x| ≤ M)
    (hn : (xs.length : ℚ) * 2 ≤ 2 ^ p) :
    |xs.foldl (fun s x => flRound p (s + x)) 0 / xs.length - xs.sum / xs.length| ≤
      xs.length * (M * (2 / 2 ^ p)) := by
  have hpos : (0 : ℚ) < xs.length := by
    have := List.length_pos_iff.2 h
    exact_mod_cast this
  have := sumF_err p hM xs 0 0 0 (by simp) (by simp) hx (by rw [Nat.zero_add]; exact hn)
  rw [Nat.zero_add, zero_add] at this
  rw [← sub_div, abs_div, abs_of_pos hpos, div_le_iff₀ hpos]
  linarith [this, sq (xs.length : ℚ)]

theorem mean_le {M : ℚ} (xs : List ℚ) (h : xs ≠ []) (hx : ∀ x ∈ xs, |x| ≤ M) :
    |xs.sum / xs.length| ≤ M := by
  have hpos : (0 : ℚ) < xs.length := by
    have := List.length_pos_iff.2 h
    exact_mod_cast this
  rw [abs_div, abs_of_pos hpos, div_le_iff₀ hpos]
  clear h hpos
  induction xs with
  | nil => simp
  | cons x xs ih =>
    have h1 := ih (fun y hy => hx y (by simp [hy]))
    have h2 := hx x (by simp)
    have h3 := abs_add_le x xs.sum
    simp only [List.sum_cons, List.length_cons]
    push_cast
    linarith

theorem avgF64_near {M : ℚ} (xs : List ℚ) (h : xs ≠ []) (hx : ∀ x ∈ xs, |x| ≤ M)
    (hn : xs.length ≤ 2 ^ 29) : |avgF64 xs - xs.sum / xs.length| ≤ M / 2 ^ 22 := by
  have hM : 0 ≤ M := by
    obtain ⟨x, hm⟩ := List.exists_mem_of_ne_nil _ h
    exact le_trans (abs_nonneg x) (hx x hm)
  have hnq : (xs.length : ℚ) ≤ 2 ^ 29 := by exact_mod_cast hn
  have e1 := quot_err 53 hM xs h hx (by linarith)
  have hm := mean_le xs h hx
  have e1' : |sumF64 xs / xs.length - xs.sum / xs.length| ≤ M / 2 ^ 23 := by
    refine le_trans e1 ?_
    have := mul_le_mul_of_nonneg_right hnq (by positivity : (0 : ℚ) ≤ M * (2 / 2 ^ 53))
    linarith
  unfold avgF64
  generalize sumF64 xs / xs.length = q at *
  have e2 := flRound_err 53 q
  have e3 := flRound_err 24 (toF64 q)
  have a1 : |q| ≤ M + M / 2 ^ 23 := by
    have := abs_sub_abs_le_abs_sub q (xs.sum / xs.length)
    linarith
  have a2 : |toF64 q| ≤ (M + M / 2 ^ 23) * 2 := by
    have := abs_sub_abs_le_abs_sub (toF64 q) q
    have h' : |toF64 q - q| ≤ |q| / 2 ^ 53 := e2
    linarith
  have a2' : |toF64 q| ≤ M + M / 2 ^ 22 := by
    have := abs_sub_abs_le_abs_sub (toF64 q) q
    have h' : |toF64 q - q| ≤ |q| / 2 ^ 53 := e2
    linarith
  have t1 := abs_sub_le (toF32 (toF64 q)) (toF64 q) (xs.sum / xs.length)
  have t2 := abs_sub_le (toF64 q) q (xs.sum / xs.length)
  have h' : |toF64 q - q| ≤ |q| / 2 ^ 53 := e2
  have h'' : |toF32 (toF64 q) - toF64 q| ≤ |toF64 q| / 2 ^ 24 := e3
  linarith

theorem avgF32_near {M : ℚ} (xs : List ℚ) (h : xs ≠ []) (hx : ∀ x ∈ xs, |x| ≤ M)
    (hn : xs.length ≤ 2 ^ 23) : |avgF32 xs - xs.sum / xs.length| ≤ (xs.length + 1) * M / 2 ^ 23 := by
  have hM : 0 ≤ M := by
    obtain ⟨x, hm⟩ := List.exists_mem_of_ne_nil _ h
    exact le_trans (abs_nonneg x) (hx x hm)
  have hnq : (xs.length : ℚ) ≤ 2 ^ 23 := by exact_mod_cast hn
  have e1 := quot_err 24 hM xs h hx (by linarith)
  have hm := mean_le xs h hx
  have hlen : toF32 (xs.length : ℚ) = xs.length := by
    have := flRound_int 24 (by norm_num) xs.length (by
      rw [Nat.abs_cast]
      have : (xs.length : ℤ) ≤ 2 ^ 23 := by exact_mod_cast hn
      linarith)
    unfold toF32
    simpa using this
  unfold avgF32
  rw [hlen]
  have e1' : |sumF32 xs / xs.length - xs.sum / xs.length| ≤ xs.length * (M * (2 / 2 ^ 24)) := e1
  generalize sumF32 xs / xs.length = q at *
  have e3 := flRound_err 24 q
  have hb := mul_le_mul_of_nonneg_right hnq (by positivity : (0 : ℚ) ≤ M * (2 / 2 ^ 24))
  have a1 : |q| ≤ 2 * M := by
    have := abs_sub_abs_le_abs_sub q (xs.sum / xs.length)
    linarith
  have t1 := abs_sub_le (toF32 q) q (xs.sum / xs.length)
  have h'' : |toF32 q - q| ≤ |q| / 2 ^ 24 := e3
  have i : (xs.length + 1) * M / 2 ^ 23 = xs.length * (M * (2 / 2 ^ 24)) + 2 * M / 2 ^ 24 := by ring
  rw [i]
  linarith

/-! ### The voxel of an average -/

theorem gridIdxF_range {size t : ℚ} (hs : 0 < size) (ht : |t| ≤ 2 ^ 30 * size) :
    -1073741824 ≤ lround (toF32 (t / size)) ∧ lround (toF32 (t / size)) ≤ 1073741824 := by
  have h1 : t / size ≤ ((1073741824 : ℤ) : ℚ) := by
    rw [div_le_iff₀ hs]; have := (abs_le.mp ht).2; push_cast; linarith
  have h2 : ((-1073741824 : ℤ) : ℚ) ≤ t / size := by
    rw [le_div_iff₀ hs]; have := (abs_le.mp ht).1; push_cast; linarith
  have a1 := toF32_mono h1
  have a2 := toF32_mono h2
  have e1 : toF32 (((1073741824 : ℤ) : ℚ)) = 1073741824 := by decide +kernel
  have e2 : toF32 (((-1073741824 : ℤ) : ℚ)) = -1073741824 := by decide +kernel
  rw [e1] at a1
  rw [e2] at a2
  have b1 := lround_mono a1
  have b2 := lround_mono a2
  have f1 : lround (1073741824 : ℚ) = 1073741824 := by decide +kernel
  have f2 : lround (-1073741824 : ℚ) = -1073741824 := by decide +kernel
  rw [f1] at b1
  rw [f2] at b2
  exact ⟨b2, b1⟩

theorem longOk_of {size t : ℚ} (hs : 0 < size) (ht : |t| ≤ 2 ^ 30 * size) : longOk size t := by
  have := gridIdxF_range hs ht
  unfold longOk
  omega

theorem gridIdxF_eq {size t : ℚ} (hs : 0 < size) (ht : |t| ≤ 2 ^ 30 * size) :
    gridIdxF size t = lround (toF32 (t / size)) := by
  have := gridIdxF_range hs ht
  unfold gridIdxF
  rw [wrap32_id (by omega) (by omega)]

theorem gridIdxF_mono {size a b : ℚ} (hs : 0 < size) (ha : |a| ≤ 2 ^ 30 * size)
    (hb : |b| ≤ 2 ^ 30 * size) (h : a ≤ b) : gridIdxF size a ≤ gridIdxF size b := by
  rw [gridIdxF_eq hs ha, gridIdxF_eq hs hb]
  exact lround_mono (toF32_mono (by gcongr))

theorem gridIdxF_amid {size q : ℚ} (hs : 0 < size) (xs : List ℚ) (k : ℤ) (hq : Amid q xs)
    (hr : ∀ x ∈ xs, |x| ≤ 2 ^ 30 * size) (hk : ∀ x ∈ xs, gridIdxF size x = k) :
    gridIdxF size q = k := by
  obtain ⟨⟨a, ha, haq⟩, b, hb, hqb⟩ := hq
  have hqr : |q| ≤ 2 ^ 30 * size := by
    have h1 := abs_le.mp (hr a ha)
    have h2 := abs_le.mp (hr b hb)
    rw [abs_le]; constructor <;> linarith
  have h1 := gridIdxF_mono hs (hr a ha) hqr haq
  have h2 := gridIdxF_mono hs hqr (hr b hb) hqb
  rw [hk a ha] at h1
  rw [hk b hb] at h2
  omega

/-- The point written for a voxel. -/
def meanPointF (ps : List (InnerPoint Rat)) : InnerPoint Rat :=
  { x := avgF64 (ps.map (·.x)), y := avgF64 (ps.map (·.y)), z := avgF64 (ps.map (·.z)),
    intensity := avgF64 (ps.map (·.intensity)), factor := 0 }

theorem averageAllF_eq (t : List (Voxel × List (InnerPoint Rat))) (h : ∀ e ∈ t, e.2 ≠ []) :
    averageAllF t = .ok (t.map (fun e => meanPointF e.2)) := by
  induction t with
  | nil => rfl
  | cons e t ih =>
    obtain ⟨v, ps⟩ := e
    simp only [averageAllF, averagePointF]
    rw [Outcome.check_pos (h (v, ps) (by simp)), ih (fun e he => h e (by simp [he]))]
    rfl

/-! ### The number of points of a voxel -/

/-- No voxel holds more points than the configured number. -/
def FewF (n : Int) (m : VMap) : Prop := ∀ v c, m v = some c → (c.points.length : Int) ≤ n

theorem insertPointF_few {cfg : MrvmCfg} (hn : 0 ≤ cfg.maxPoints) {o : Vec3 Rat} {s s' : VMap × List Voxel}
    {p : InnerPoint Rat} (hs : FewF cfg.maxPoints s.1) (h : insertPointF cfg o s p = .ok s') :
    FewF cfg.maxPoints s'.1 := by
  unfold insertPointF at h
  obtain ⟨path, hp, h⟩ := (Outcome.bind_eq_ok _ _ _).mp h
  obtain ⟨e, he, hl⟩ := castingF_last hp
  rw [hl] at h
  simp only [] at h
  obtain ⟨-, -, h⟩ := (Outcome.bind_eq_ok _ _ _).mp h
  simp only [Outcome.pure_eq, Outcome.ok.injEq] at h
  subst h
  intro v c hc
  have hm := missFold_points cfg path.dropLast (s.1.set e (hitCell cfg p ((s.1 e).getD {}))) v
  simp only [] at hc
  rw [hc] at hm
  simp only [Option.map_some, VMap.set] at hm
  split at hm
  · simp only [Option.map_some, Option.some.injEq, hitCell] at hm
    rw [hm]
    split
    · rename_i hlt
      rw [List.length_append, List.length_singleton]
      push_cast
      omega
    · cases hse : s.1 e with
      | none => simpa using hn
      | some c' => exact hs e c' hse
  · cases hsv : s.1 v with
    | none => rw [hsv] at hm; simp at hm
    | some c' =>
      rw [hsv] at hm
      simp only [Option.map_some, Option.some.injEq] at hm
      rw [hm]
      exact hs v c' hsv

theorem insertPointsF_few {cfg : MrvmCfg} (hn : 0 ≤ cfg.maxPoints) {o : Vec3 Rat} (ps : List (InnerPoint Rat))
    {s s' : VMap × List Voxel} (hs : FewF cfg.maxPoints s.1) (h : insertPointsF cfg o s ps = .ok s') :
    FewF cfg.maxPoints s'.1 := by
  induction ps generalizing s with
  | nil => simp only [insertPointsF, Outcome.ok.injEq] at h; exact h ▸ hs
  | cons p ps ih =>
    simp only [insertPointsF, Outcome.bind_eq_ok] at h
    obtain ⟨t, ht, h⟩ := h
    exact ih (insertPointF_few hn hs ht) h

theorem insertCloudsF_few {cfg : MrvmCfg} (hn : 0 ≤ cfg.maxPoints)
    (cs : List (Option (List (InnerPoint Rat)) × Vec3 Rat)) {m m' : VMap}
    (hs : FewF cfg.maxPoints m) (h : insertCloudsF cfg m cs = .ok m') : FewF cfg.maxPoints m' := by
  induction cs generalizing m with
  | nil => simp only [insertCloudsF, Outcome.ok.injEq] at h; exact h ▸ hs
  | cons c cs ih =>
    simp only [insertCloudsF, Outcome.bind_eq_ok] at h
    obtain ⟨t, ht, h⟩ := h
    refine ih ?_ h
    unfold insertCloudF at ht
    cases hc : c.1 with
    | none => rw [hc] at ht; simp only [Outcome.ok.injEq] at ht; exact ht ▸ hs
    | some ps =>
      rw [hc] at ht
      simp only [] at ht
      split at ht
      · simp only [Outcome.ok.injEq] at ht; exact ht ▸ hs
      · simp only [Outcome.bind_eq_ok, Outcome.pure_eq, Outcome.ok.injEq] at ht
        obtain ⟨r, hr, rfl⟩ := ht
        have := insertPointsF_few hn ps hs hr
        intro v c' hc'
        rw [releaseAll_apply] at hc'
        split at hc'
        · simp only [Option.some.injEq] at hc'
          cases hm : r.1 v with
          | none => rw [hm] at hc'; rw [← hc']; simpa using hn
          | some c2 => rw [hm] at hc'; rw [← hc']; exact this v c2 hm
        · exact this v c' hc'

theorem outputCellsF_mem {cfg : MrvmCfg} {t : Nat} (table : List (Voxel × Cell)) {out : List (InnerPoint Rat)}
    (h : outputCellsF cfg t table = .ok out) (q : InnerPoint Rat) :
    q ∈ out ↔ ∃ e ∈ table, t ≤ e.2.prob ∧ q = outputCellF cfg e.2 := by
  induction table generalizing out with
  | nil => simp only [outputCellsF, Outcome.ok.injEq] at h; subst h; simp
  | cons e table ih =>
    obtain ⟨v, c⟩ := e
    unfold outputCellsF at h
    split at h
    · rename_i ht
      obtain ⟨-, h⟩ := (Outcome.check_bind_eq_ok _ _ _).mp h
      obtain ⟨r, hr, h⟩ := (Outcome.bind_eq_ok _ _ _).mp h
      simp only [Outcome.pure_eq, Outcome.ok.injEq] at h
      subst h
      simp only [List.mem_cons, ih hr]
      constructor
      · rintro (rfl | ⟨e, he, h⟩)
        · exact ⟨_, Or.inl rfl, ht, rfl⟩
        · exact ⟨e, Or.inr he, h⟩
      · rintro ⟨e, rfl | he, h1, h2⟩
        · exact Or.inl h2
        · exact Or.inr ⟨e, he, h1, h2⟩
    · rename_i ht
      simp only [ih h, List.mem_cons]
      constructor
      · rintro ⟨e, he, h⟩; exact ⟨e, Or.inr he, h⟩
      · rintro ⟨e, rfl | he, h1, h2⟩
        · exact absurd h1 ht
        · exact ⟨e, he, h1, h2⟩

theorem outputCellsF_nonempty {cfg : MrvmCfg} {t : Nat} (table : List (Voxel × Cell)) {out : List (InnerPoint Rat)}
    (h : outputCellsF cfg t table = .ok out) : ∀ e ∈ table, t ≤ e.2.prob → e.2.points ≠ [] := by
  induction table generalizing out with
  | nil => simp
  | cons e table ih =>
    obtain ⟨v, c⟩ := e
    unfold outputCellsF at h
    intro e' he' ht'
    split at h
    · obtain ⟨hne, h⟩ := (Outcome.check_bind_eq_ok _ _ _).mp h
      obtain ⟨r, hr, h⟩ := (Outcome.bind_eq_ok _ _ _).mp h
      rcases List.mem_cons.mp he' with rfl | he'
      · exact hne
      · exact ih hr e' he' ht'
    · rename_i ht
      rcases List.mem_cons.mp he' with rfl | he'
      · exact absurd ht' ht
      · exact ih h e' he' ht'

end Verif
