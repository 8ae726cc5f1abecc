import Verif.Spec.OctreeF
import Verif.Proofs.Octree
import Verif.Proofs.Floats
namespace Verif
open Spec

theorem toF64_grid (k m : ℤ) (h : |m| ≤ 2 ^ 53) : toF64 ((m : ℚ) * 2 ^ k) = m * 2 ^ k :=
  flRound_exact 53 (by norm_num) m k h

/-- Rounding keeps the sign. -/
theorem flRound_pos {p : ℕ} (hp : 1 ≤ p) {x : ℚ} (h : 0 < x) : 0 < flRound p x := by
  have h1 := flRound_err p x
  rw [abs_of_pos h, abs_le] at h1
  have h2 : x / 2 ^ p ≤ x / 2 := by
    apply div_le_div_of_nonneg_left h.le (by norm_num)
    calc (2 : ℚ) = 2 ^ 1 := by norm_num
      _ ≤ 2 ^ p := pow_le_pow_right₀ (by norm_num) hp
  linarith [h1.1]

theorem toF64_nonneg_iff (x : ℚ) : 0 ≤ toF64 x ↔ 0 ≤ x := by
  constructor
  · intro h
    by_contra hc
    have := flRound_pos (p := 53) (by norm_num) (x := -x) (by linarith)
    rw [flRound_neg] at this
    unfold toF64 at h
    linarith
  · exact fun h => flRound_nonneg 53 h

theorem toF64_abs (x : ℚ) : |toF64 x| = toF64 |x| := by
  rcases le_total 0 x with h | h
  · rw [abs_of_nonneg h, abs_of_nonneg ((toF64_nonneg_iff x).2 h)]
  · have h2 : 0 ≤ toF64 (-x) := (toF64_nonneg_iff _).2 (by linarith)
    have h3 : toF64 (-x) = - toF64 x := flRound_neg 53 x
    rw [abs_of_nonpos h, h3, abs_of_nonpos (by linarith)]

theorem toF64_abs_le {k m : ℤ} (hm : |m| ≤ 2 ^ 53) {x : ℚ} (h : |x| ≤ m * 2 ^ k) :
    |toF64 x| ≤ m * 2 ^ k := by
  rw [toF64_abs, ← toF64_grid k m hm]
  exact flRound_mono 53 (by norm_num) h

/-- What a rounded bound says about the exact value. -/
theorem le_of_toF64_abs_le {x b : ℚ} (h : |toF64 x| ≤ b) : |x| ≤ b * (1 + 1 / 2 ^ 52) := by
  have h1 : |toF64 x - x| ≤ |x| / 2 ^ 53 := flRound_err 53 x
  have h2 : |x| ≤ |toF64 x| + |toF64 x - x| := by
    have := abs_sub_abs_le_abs_sub x (toF64 x)
    rw [abs_sub_comm x] at this
    linarith
  have h3 : |x| * (1 - 1 / 2 ^ 53) ≤ b := by
    have : |x| * (1 - 1 / 2 ^ 53) = |x| - |x| / 2 ^ 53 := by ring
    linarith
  have h4 := abs_nonneg x
  have h5 : (1 : ℚ) ≤ (1 - 1 / 2 ^ 53) * (1 + 1 / 2 ^ 52) := by norm_num
  calc |x| ≤ |x| * ((1 - 1 / 2 ^ 53) * (1 + 1 / 2 ^ 52)) := le_mul_of_one_le_right h4 h5
    _ = |x| * (1 - 1 / 2 ^ 53) * (1 + 1 / 2 ^ 52) := by ring
    _ ≤ b * (1 + 1 / 2 ^ 52) := mul_le_mul_of_nonneg_right h3 (by norm_num)

theorem dblNear_self (k m : ℤ) (h : |m| ≤ 2 ^ 53) : dblNear ((m : ℚ) * 2 ^ k) (m * 2 ^ k) := by
  have he : flRound 64 ((m : ℚ) * 2 ^ k) = m * 2 ^ k :=
    flRound_exact 64 (by norm_num) m k (le_trans h (by norm_num))
  have hp : (0 : ℚ) ≤ flRound 64 (1 / 10 ^ 15) := flRound_nonneg 64 (by norm_num)
  constructor
  · conv_lhs => rw [← he]
    exact flRound_mono 64 (by norm_num) (by linarith)
  · conv_rhs => rw [← he]
    exact flRound_mono 64 (by norm_num) (by linarith)

/-- The cube with centre `(ax, ay, az) 2^k` and half edge `h 2^k`. -/
def gridBox (k ax ay az h : ℤ) : CubeBox :=
  CubeBox.ofCenter ⟨ax * 2 ^ k, ay * 2 ^ k, az * 2 ^ k⟩ (2 * h * 2 ^ k)

theorem gridBox_half (k ax ay az h : ℤ) : (gridBox k ax ay az h).half = h * 2 ^ k := by
  simp only [gridBox, CubeBox.ofCenter]; ring

/-- Bounds for a cube of the grid. -/
def GridOk (ax ay az h : ℤ) : Prop := 0 ≤ h ∧ |ax| + h ≤ 2 ^ 52 ∧ |ay| + h ≤ 2 ^ 52 ∧ |az| + h ≤ 2 ^ 52

theorem abs_combine {a h m : ℤ} (hh : 0 ≤ h) (hb : |a| + h ≤ 2 ^ 52)
    (h1 : m ≤ 2 * |a| + 2 * h) (h2 : -(2 * |a| + 2 * h) ≤ m) : |m| ≤ 2 ^ 53 := by
  rw [abs_le]
  constructor <;> linarith

theorem ofMinMaxF_grid (k ax ay az h : ℤ) (hg : GridOk ax ay az h) :
    CubeBox.ofMinMaxF ⟨(ax - h : ℤ) * 2 ^ k, (ay - h : ℤ) * 2 ^ k, (az - h : ℤ) * 2 ^ k⟩
      ⟨(ax + h : ℤ) * 2 ^ k, (ay + h : ℤ) * 2 ^ k, (az + h : ℤ) * 2 ^ k⟩ =
    .ok (gridBox k ax ay az h) := by
  obtain ⟨h0, hx, hy, hz⟩ := hg
  have ex : ∀ a : ℤ, ((a + h : ℤ) : ℚ) * 2 ^ k - (a - h : ℤ) * 2 ^ k = ((2 * h : ℤ) : ℚ) * 2 ^ k := by
    intro a; push_cast; ring
  have es : ∀ a : ℤ, ((a - h : ℤ) : ℚ) * 2 ^ k + (a + h : ℤ) * 2 ^ k = ((2 * a : ℤ) : ℚ) * 2 ^ k := by
    intro a; push_cast; ring
  have eh : ∀ a : ℤ, (1 / 2 : ℚ) * (((2 * a : ℤ) : ℚ) * 2 ^ k) = a * 2 ^ k := by
    intro a; push_cast; ring
  have b2 : |2 * h| ≤ 2 ^ 53 := by rw [abs_of_nonneg (by omega)]; have := abs_nonneg ax; omega
  have b1 : |h| ≤ 2 ^ 53 := by rw [abs_of_nonneg h0]; have := abs_nonneg ax; omega
  have c2 : ∀ a : ℤ, |a| + h ≤ 2 ^ 52 → |2 * a| ≤ 2 ^ 53 := by
    intro a ha; rw [abs_mul]; norm_num; linarith
  have c1 : ∀ a : ℤ, |a| + h ≤ 2 ^ 52 → |a| ≤ 2 ^ 53 := by intro a ha; linarith
  unfold CubeBox.ofMinMaxF
  simp only [ex, es]
  rw [toF64_grid k _ b2, toF64_grid k _ (c2 ax hx), toF64_grid k _ (c2 ay hy),
    toF64_grid k _ (c2 az hz)]
  simp only [eh]
  rw [toF64_grid k _ b1, toF64_grid k _ (c1 ax hx), toF64_grid k _ (c1 ay hy),
    toF64_grid k _ (c1 az hz)]
  rw [Outcome.check_pos (dblNear_self k _ b2)]
  simp only [Outcome.bind_ok, Outcome.pure_eq, gridBox, CubeBox.ofCenter]
  congr 1
  simp only [CubeBox.mk.injEq, Vec3.mk.injEq]
  push_cast
  refine ⟨trivial, ⟨by ring, by ring, by ring⟩, ⟨by ring, by ring, by ring⟩,
    by ring, by ring⟩

theorem ofCenterF_grid (k ax ay az h : ℤ) (hg : GridOk ax ay az h) :
    CubeBox.ofCenterF ⟨ax * 2 ^ k, ay * 2 ^ k, az * 2 ^ k⟩ (2 * h * 2 ^ k) =
      gridBox k ax ay az h := by
  obtain ⟨h0, hx, hy, hz⟩ := hg
  have e1 : (2 * h * 2 ^ k : ℚ) * (1 / 2) = h * 2 ^ k := by ring
  have e2 : (1 / 2 : ℚ) * (2 * h * 2 ^ k) = h * 2 ^ k := by ring
  have ex : ∀ a : ℤ, (a : ℚ) * 2 ^ k - h * 2 ^ k = ((a - h : ℤ) : ℚ) * 2 ^ k := by
    intro a; push_cast; ring
  have es : ∀ a : ℤ, (a : ℚ) * 2 ^ k + h * 2 ^ k = ((a + h : ℤ) : ℚ) * 2 ^ k := by
    intro a; push_cast; ring
  have b1 : |h| ≤ 2 ^ 53 := by rw [abs_of_nonneg h0]; have := abs_nonneg ax; omega
  have cm : ∀ a : ℤ, |a| + h ≤ 2 ^ 52 → |a - h| ≤ 2 ^ 53 := by
    intro a ha; have := abs_sub a h; rw [abs_of_nonneg h0] at this; linarith
  have cp : ∀ a : ℤ, |a| + h ≤ 2 ^ 52 → |a + h| ≤ 2 ^ 53 := by
    intro a ha; have := abs_add_le a h; rw [abs_of_nonneg h0] at this; linarith
  unfold CubeBox.ofCenterF gridBox CubeBox.ofCenter
  simp only [e1, e2]
  rw [toF64_grid k _ b1]
  simp only [ex, es]
  rw [toF64_grid k _ (cm ax hx), toF64_grid k _ (cm ay hy), toF64_grid k _ (cm az hz),
    toF64_grid k _ (cp ax hx), toF64_grid k _ (cp ay hy), toF64_grid k _ (cp az hz)]

theorem subBox_grid (k ax ay az g : ℤ) (i : Fin 8) :
    subBox (gridBox k ax ay az (2 * g)) i = match i with
      | 0 => gridBox k (ax + g) (ay + g) (az + g) g
      | 1 => gridBox k (ax - g) (ay + g) (az + g) g
      | 2 => gridBox k (ax - g) (ay - g) (az + g) g
      | 3 => gridBox k (ax + g) (ay - g) (az + g) g
      | 4 => gridBox k (ax + g) (ay + g) (az - g) g
      | 5 => gridBox k (ax - g) (ay + g) (az - g) g
      | 6 => gridBox k (ax - g) (ay - g) (az - g) g
      | 7 => gridBox k (ax + g) (ay - g) (az - g) g := by
  have hh := gridBox_half k ax ay az (2 * g)
  have hp : ∀ a : ℤ, (a : ℚ) * 2 ^ k + ((2 * g : ℤ) : ℚ) * 2 ^ k / 2 = ((a + g : ℤ) : ℚ) * 2 ^ k := by
    intro a; push_cast; ring
  have hm : ∀ a : ℤ, (a : ℚ) * 2 ^ k - ((2 * g : ℤ) : ℚ) * 2 ^ k / 2 = ((a - g : ℤ) : ℚ) * 2 ^ k := by
    intro a; push_cast; ring
  have hs : ((2 * g : ℤ) : ℚ) * 2 ^ k = 2 * (g : ℚ) * 2 ^ k := by push_cast; ring
  have hc : (gridBox k ax ay az (2 * g)).center = ⟨ax * 2 ^ k, ay * 2 ^ k, az * 2 ^ k⟩ := rfl
  unfold subBox subCenter
  rw [hh, hc]
  dsimp only
  rw [hp, hp, hp, hm, hm, hm, hs]
  fin_cases i <;> rfl

theorem gridOk_sub {ax ay az g : ℤ} (hg : GridOk ax ay az (2 * g)) (x y z : ℤ)
    (hx : x = ax + g ∨ x = ax - g) (hy : y = ay + g ∨ y = ay - g) (hz : z = az + g ∨ z = az - g) :
    GridOk x y z g := by
  obtain ⟨h0, h1, h2, h3⟩ := hg
  have h0' : 0 ≤ g := by omega
  have key : ∀ a x : ℤ, |a| + 2 * g ≤ 2 ^ 52 → (x = a + g ∨ x = a - g) → |x| + g ≤ 2 ^ 52 := by
    intro a x ha hx
    have t1 := abs_add_le a g
    have t2 := abs_sub a g
    rw [abs_of_nonneg h0'] at t1 t2
    rcases hx with rfl | rfl <;> linarith
  exact ⟨h0', key _ _ h1 hx, key _ _ h2 hy, key _ _ h3 hz⟩

theorem subBoxesF_grid (k ax ay az g : ℤ) (hg : GridOk ax ay az (2 * g)) :
    (gridBox k ax ay az (2 * g)).subBoxesF = .ok [subBox (gridBox k ax ay az (2 * g)) 0,
      subBox (gridBox k ax ay az (2 * g)) 1, subBox (gridBox k ax ay az (2 * g)) 2,
      subBox (gridBox k ax ay az (2 * g)) 3, subBox (gridBox k ax ay az (2 * g)) 4,
      subBox (gridBox k ax ay az (2 * g)) 5, subBox (gridBox k ax ay az (2 * g)) 6,
      subBox (gridBox k ax ay az (2 * g)) 7] := by
  have hh := gridBox_half k ax ay az (2 * g)
  have hc : (gridBox k ax ay az (2 * g)).center = ⟨ax * 2 ^ k, ay * 2 ^ k, az * 2 ^ k⟩ := rfl
  have hmx : (gridBox k ax ay az (2 * g)).max = ⟨(ax + 2 * g : ℤ) * 2 ^ k, (ay + 2 * g : ℤ) * 2 ^ k,
      (az + 2 * g : ℤ) * 2 ^ k⟩ := by
    simp only [gridBox, CubeBox.ofCenter, Vec3.mk.injEq]
    push_cast
    refine ⟨by ring, by ring, by ring⟩
  obtain ⟨h0, h1, h2, h3⟩ := id hg
  have c0 : ∀ a : ℤ, |a| + 2 * g ≤ 2 ^ 52 → toF64 ((a : ℚ) * 2 ^ k - 0) = ((a + g - g : ℤ) : ℚ) * 2 ^ k := by
    intro a ha
    rw [sub_zero, toF64_grid k a (by linarith)]
    push_cast; ring
  have c1 : ∀ a : ℤ, |a| + 2 * g ≤ 2 ^ 52 →
      toF64 ((a : ℚ) * 2 ^ k - ((2 * g : ℤ) : ℚ) * 2 ^ k) = ((a - g - g : ℤ) : ℚ) * 2 ^ k := by
    intro a ha
    rw [show (a : ℚ) * 2 ^ k - ((2 * g : ℤ) : ℚ) * 2 ^ k = ((a - g - g : ℤ) : ℚ) * 2 ^ k from by
      push_cast; ring]
    refine toF64_grid k _ ?_
    have := abs_sub a (2 * g)
    rw [abs_of_nonneg h0] at this
    rw [show a - g - g = a - 2 * g from by ring]
    linarith
  have d0 : ∀ a : ℤ, |a| + 2 * g ≤ 2 ^ 52 →
      toF64 (((a + 2 * g : ℤ) : ℚ) * 2 ^ k - 0) = ((a + g + g : ℤ) : ℚ) * 2 ^ k := by
    intro a ha
    rw [sub_zero, show a + 2 * g = a + g + g from by ring]
    refine toF64_grid k _ ?_
    have := abs_add_le a (2 * g)
    rw [abs_of_nonneg h0] at this
    rw [show a + g + g = a + 2 * g from by ring]
    linarith
  have d1 : ∀ a : ℤ, |a| + 2 * g ≤ 2 ^ 52 →
      toF64 (((a + 2 * g : ℤ) : ℚ) * 2 ^ k - ((2 * g : ℤ) : ℚ) * 2 ^ k) = ((a - g + g : ℤ) : ℚ) * 2 ^ k := by
    intro a ha
    rw [show ((a + 2 * g : ℤ) : ℚ) * 2 ^ k - ((2 * g : ℤ) : ℚ) * 2 ^ k = ((a - g + g : ℤ) : ℚ) * 2 ^ k
      from by push_cast; ring]
    refine toF64_grid k _ ?_
    rw [show a - g + g = a from by ring]
    linarith
  have e0 : CubeBox.ofMinMaxF ⟨ax * 2 ^ k, ay * 2 ^ k, az * 2 ^ k⟩ ⟨(ax + 2 * g : ℤ) * 2 ^ k,
      (ay + 2 * g : ℤ) * 2 ^ k, (az + 2 * g : ℤ) * 2 ^ k⟩ =
      .ok (gridBox k (ax + g) (ay + g) (az + g) g) := by
    rw [← ofMinMaxF_grid k (ax + g) (ay + g) (az + g) g
      (gridOk_sub hg _ _ _ (Or.inl rfl) (Or.inl rfl) (Or.inl rfl))]
    simp only [show ∀ a : ℤ, a + g - g = a from fun a => by ring,
      show ∀ a : ℤ, a + g + g = a + 2 * g from fun a => by ring]
  unfold CubeBox.subBoxesF CubeBox.shiftedF
  rw [hh, hc, hmx]
  dsimp only
  simp only [c0 ax h1, c0 ay h2, c0 az h3, c1 ax h1, c1 ay h2, c1 az h3, d0 ax h1, d0 ay h2, d0 az h3,
    d1 ax h1, d1 ay h2, d1 az h3]
  rw [e0, ofMinMaxF_grid k (ax - g) (ay + g) (az + g) g
      (gridOk_sub hg _ _ _ (Or.inr rfl) (Or.inl rfl) (Or.inl rfl)),
    ofMinMaxF_grid k (ax - g) (ay - g) (az + g) g
      (gridOk_sub hg _ _ _ (Or.inr rfl) (Or.inr rfl) (Or.inl rfl)),
    ofMinMaxF_grid k (ax + g) (ay - g) (az + g) g
      (gridOk_sub hg _ _ _ (Or.inl rfl) (Or.inr rfl) (Or.inl rfl)),
    ofMinMaxF_grid k (ax + g) (ay + g) (az - g) g
      (gridOk_sub hg _ _ _ (Or.inl rfl) (Or.inl rfl) (Or.inr rfl)),
    ofMinMaxF_grid k (ax - g) (ay + g) (az - g) g
      (gridOk_sub hg _ _ _ (Or.inr rfl) (Or.inl rfl) (Or.inr rfl)),
    ofMinMaxF_grid k (ax - g) (ay - g) (az - g) g
      (gridOk_sub hg _ _ _ (Or.inr rfl) (Or.inr rfl) (Or.inr rfl)),
    ofMinMaxF_grid k (ax + g) (ay - g) (az - g) g
      (gridOk_sub hg _ _ _ (Or.inl rfl) (Or.inr rfl) (Or.inr rfl))]
  simp only [subBox_grid, Outcome.bind_ok, Outcome.pure_eq]

/-- A cube that can be halved `j` more times. -/
def IsGrid (j : ℕ) (b : CubeBox) : Prop :=
  ∃ k ax ay az n : ℤ, GridOk ax ay az (n * 2 ^ j) ∧ b = gridBox k ax ay az (n * 2 ^ j)

theorem IsGrid.wf {j : ℕ} {b : CubeBox} (h : IsGrid j b) : b.WF := by
  obtain ⟨k, ax, ay, az, n, _, rfl⟩ := h
  exact ofCenter_wf _ _

theorem IsGrid.step {j : ℕ} {b : CubeBox} (h : IsGrid (j + 1) b) :
    b.subBoxesF = .ok [subBox b 0, subBox b 1, subBox b 2, subBox b 3, subBox b 4, subBox b 5,
      subBox b 6, subBox b 7] ∧ ∀ i, IsGrid j (subBox b i) := by
  obtain ⟨k, ax, ay, az, n, hg, rfl⟩ := h
  rw [show n * 2 ^ (j + 1) = 2 * (n * 2 ^ j) from by ring] at hg ⊢
  refine ⟨subBoxesF_grid _ _ _ _ _ hg, ?_⟩
  intro i
  rw [subBox_grid]
  fin_cases i
  · exact ⟨_, _, _, _, _, gridOk_sub hg _ _ _ (Or.inl rfl) (Or.inl rfl) (Or.inl rfl), rfl⟩
  · exact ⟨_, _, _, _, _, gridOk_sub hg _ _ _ (Or.inr rfl) (Or.inl rfl) (Or.inl rfl), rfl⟩
  · exact ⟨_, _, _, _, _, gridOk_sub hg _ _ _ (Or.inr rfl) (Or.inr rfl) (Or.inl rfl), rfl⟩
  · exact ⟨_, _, _, _, _, gridOk_sub hg _ _ _ (Or.inl rfl) (Or.inr rfl) (Or.inl rfl), rfl⟩
  · exact ⟨_, _, _, _, _, gridOk_sub hg _ _ _ (Or.inl rfl) (Or.inl rfl) (Or.inr rfl), rfl⟩
  · exact ⟨_, _, _, _, _, gridOk_sub hg _ _ _ (Or.inr rfl) (Or.inl rfl) (Or.inr rfl), rfl⟩
  · exact ⟨_, _, _, _, _, gridOk_sub hg _ _ _ (Or.inr rfl) (Or.inr rfl) (Or.inr rfl), rfl⟩
  · exact ⟨_, _, _, _, _, gridOk_sub hg _ _ _ (Or.inl rfl) (Or.inr rfl) (Or.inr rfl), rfl⟩

theorem IsGrid.half {j : ℕ} {b : CubeBox} (h : IsGrid j b) :
    ∃ k m : ℤ, |m| ≤ 2 ^ 53 ∧ b.half = m * 2 ^ k := by
  obtain ⟨k, ax, ay, az, n, ⟨h0, h1, _, _⟩, rfl⟩ := h
  refine ⟨k, n * 2 ^ j, ?_, gridBox_half _ _ _ _ _⟩
  rw [abs_of_nonneg h0]
  have := abs_nonneg ax
  linarith

/-- A point of the cube is recognised in spite of the rounding. -/
theorem containsF_of_inCube {j : ℕ} {b : CubeBox} (hb : IsGrid j b) {p : Pt}
    (h : InCube b.center b.half p) : b.containsF p = true := by
  obtain ⟨k, m, hm, hh⟩ := hb.half
  have key : ∀ x c : ℚ, c - b.half ≤ x → x ≤ c + b.half → |toF64 (x - c)| ≤ b.half := by
    intro x c h1 h2
    rw [hh] at h1 h2 ⊢
    exact toF64_abs_le hm (abs_le.2 ⟨by linarith, by linarith⟩)
  obtain ⟨⟨h1, h2⟩, ⟨h3, h4⟩, h5, h6⟩ := h
  unfold CubeBox.containsF
  simp only [Bool.and_eq_true, decide_eq_true_eq]
  exact ⟨⟨key _ _ h1 h2, key _ _ h3 h4⟩, key _ _ h5 h6⟩

theorem subIndexF_of_inCube {j : ℕ} {b : CubeBox} (hb : IsGrid j b) {p : Pt}
    (h : InCube b.center b.half p) : b.subIndexF p = b.subIndex p := by
  unfold CubeBox.subIndexF CubeBox.subIndex
  rw [containsF_of_inCube hb h, (contains_iff p).2 h]
  simp only [ge_iff_le, toF64_nonneg_iff, ← not_le]

theorem subIndexF_sub {j : ℕ} {b : CubeBox} (hb : IsGrid j b) (p : Pt)
    (h : InCube b.center b.half p) :
    ∃ i : Fin 8, b.subIndexF p = (i.val : Int) ∧
      InCube (subBox b i).center (subBox b i).half p := by
  rw [subIndexF_of_inCube hb h]
  exact subIndex_sub p h

/-- A point clearly outside is refused. -/
theorem subIndexF_outside {b : CubeBox} {p : Pt}
    (h : ¬ InCube b.center (b.half * (1 + 1 / 2 ^ 52)) p) : b.subIndexF p = -1 := by
  have : b.containsF p = false := by
    by_contra hc
    apply h
    simp only [CubeBox.containsF, Bool.not_eq_false, Bool.and_eq_true, decide_eq_true_eq] at hc
    obtain ⟨⟨h1, h2⟩, h3⟩ := hc
    have k1 := abs_le.1 (le_of_toF64_abs_le h1)
    have k2 := abs_le.1 (le_of_toF64_abs_le h2)
    have k3 := abs_le.1 (le_of_toF64_abs_le h3)
    refine ⟨⟨?_, ?_⟩, ⟨?_, ?_⟩, ⟨?_, ?_⟩⟩ <;> linarith [k1.1, k1.2, k2.1, k2.2, k3.1, k3.2]
  unfold CubeBox.subIndexF
  rw [this]
  rfl

theorem octBuildF_node {cfg : OctreeConfig} {fuel j : Nat} {depth : Int} {box : CubeBox}
    {points : List Pt} {n : OctNode} (hw : IsGrid (j + 1) box)
    (hl : (depth = cfg.maxDepth || sizeLeMaxNum points.length cfg.maxNum) = false)
    (h : octBuildF cfg (fuel+1) depth box points = .ok n) :
    ∃ c : Fin 8 → OctNode,
      (∀ i, octBuildF cfg fuel (depth+1) (subBox box i) (octSubF box points (i.val : Int)) =
        .ok (c i)) ∧
      n = .node depth box (c 0) (c 1) (c 2) (c 3) (c 4) (c 5) (c 6) (c 7) := by
  unfold octBuildF at h
  simp only [hl, Bool.false_eq_true, if_false, hw.step.1, Outcome.bind_ok,
    Outcome.bind_eq_ok, Outcome.pure_eq, Outcome.ok.injEq] at h
  obtain ⟨c0, h0, c1, h1, c2, h2, c3, h3, c4, h4, c5, h5, c6, h6, c7, h7, hn⟩ := h
  refine ⟨pick8 c0 c1 c2 c3 c4 c5 c6 c7, ?_, hn.symm⟩
  intro i
  fin_cases i <;> assumption

theorem octBuildF_ok (cfg : OctreeConfig) (fuel j : Nat) (depth : Int) (box : CubeBox)
    (points : List Pt) (hw : IsGrid j box) (hd : depth + j = cfg.maxDepth)
    (hf : j < fuel) : ∃ n, octBuildF cfg fuel depth box points = .ok n := by
  induction fuel generalizing depth box points j with
  | zero => omega
  | succ fuel ih =>
    unfold octBuildF
    split
    · exact ⟨_, rfl⟩
    · rename_i hl
      simp only [Bool.or_eq_true, decide_eq_true_eq, not_or] at hl
      obtain _ | j := j
      · exact absurd (by simpa using hd) hl.1
      rw [hw.step.1]
      simp only [Outcome.bind_ok]
      have hc : ∀ (i : Fin 8) ps, ∃ n, octBuildF cfg fuel (depth+1) (subBox box i) ps = .ok n :=
        fun i ps => ih j (depth+1) _ ps (hw.step.2 i) (by push_cast at hd; omega) (by omega)
      obtain ⟨c0, h0⟩ := hc 0 (octSubF box points 0)
      obtain ⟨c1, h1⟩ := hc 1 (octSubF box points 1)
      obtain ⟨c2, h2⟩ := hc 2 (octSubF box points 2)
      obtain ⟨c3, h3⟩ := hc 3 (octSubF box points 3)
      obtain ⟨c4, h4⟩ := hc 4 (octSubF box points 4)
      obtain ⟨c5, h5⟩ := hc 5 (octSubF box points 5)
      obtain ⟨c6, h6⟩ := hc 6 (octSubF box points 6)
      obtain ⟨c7, h7⟩ := hc 7 (octSubF box points 7)
      simp only [h0, h1, h2, h3, h4, h5, h6, h7, Outcome.bind_ok]
      exact ⟨_, rfl⟩

theorem octBuildF_shape (cfg : OctreeConfig) (fuel j : Nat) (depth : Int) (box : CubeBox)
    (points : List Pt) (n : OctNode) (hw : IsGrid j box) (hd : depth + j = cfg.maxDepth)
    (h : octBuildF cfg fuel depth box points = .ok n) :
    ∀ l ∈ n.leaves, (l.1 = cfg.maxDepth ∨ sizeLeMaxNum l.2.2.length cfg.maxNum = true) ∧
      l.1 ≤ cfg.maxDepth ∧ depth ≤ l.1 ∧ l.2.1.WF ∧
      l.2.1.size * 2 ^ (l.1 - depth).toNat = box.size := by
  induction fuel generalizing depth box points n j with
  | zero => simp [octBuildF] at h
  | succ fuel ih =>
    by_cases hl : (depth = cfg.maxDepth || sizeLeMaxNum points.length cfg.maxNum) = true
    · unfold octBuildF at h
      rw [if_pos hl] at h
      cases h
      intro l hm
      simp [OctNode.leaves] at hm
      subst hm
      simp only [Bool.or_eq_true, decide_eq_true_eq] at hl
      exact ⟨hl, by dsimp only; omega, le_refl _, hw.wf, by simp⟩
    · obtain _ | j := j
      · simp at hl; exact absurd (by simpa using hd) hl.1
      obtain ⟨c, hc, rfl⟩ := octBuildF_node hw (by simpa using hl) h
      rw [leaves_node]
      intro l hm
      simp only [List.mem_flatMap] at hm
      obtain ⟨i, _, hi⟩ := hm
      simp only [Bool.or_eq_true, decide_eq_true_eq, not_or] at hl
      have := ih j (depth+1) _ _ _ (hw.step.2 i) (by push_cast at hd; omega) (hc i) l hi
      refine ⟨this.1, this.2.1, by omega, this.2.2.2.1, ?_⟩
      have h5 := this.2.2.2.2
      have h6 : (subBox box i).size = box.half := rfl
      rw [h6, wf_half hw.wf] at h5
      have h7 : (l.1 - depth).toNat = (l.1 - (depth + 1)).toNat + 1 := by omega
      rw [h7, pow_succ]
      linarith

theorem mem_octSubF {box : CubeBox} {points : List Pt} {i : Int} {p : Pt} :
    p ∈ octSubF box points i ↔ p ∈ points ∧ box.subIndexF p = i := by
  simp [octSubF]

theorem octBuildF_absent (cfg : OctreeConfig) (fuel j : Nat) (depth : Int) (box : CubeBox)
    (points : List Pt) (n : OctNode) (hw : IsGrid j box) (hd : depth + j = cfg.maxDepth)
    (p : Pt) (hp : p ∉ points)
    (h : octBuildF cfg fuel depth box points = .ok n) : ∀ l ∈ n.leaves, p ∉ l.2.2 := by
  induction fuel generalizing depth box points n j with
  | zero => simp [octBuildF] at h
  | succ fuel ih =>
    by_cases hl : (depth = cfg.maxDepth || sizeLeMaxNum points.length cfg.maxNum) = true
    · unfold octBuildF at h
      rw [if_pos hl] at h
      cases h
      intro l hm
      simp [OctNode.leaves] at hm
      subst hm
      exact hp
    · obtain _ | j := j
      · simp at hl; exact absurd (by simpa using hd) hl.1
      obtain ⟨c, hc, rfl⟩ := octBuildF_node hw (by simpa using hl) h
      rw [leaves_node]
      intro l hm
      simp only [List.mem_flatMap] at hm
      obtain ⟨i, _, hi⟩ := hm
      exact ih j (depth+1) _ _ _ (hw.step.2 i) (by push_cast at hd; omega)
        (fun hh => hp (mem_octSubF.1 hh).1) (hc i) l hi

theorem octBuildF_outside (cfg : OctreeConfig) (fuel j : Nat) (depth : Int) (box : CubeBox)
    (points : List Pt) (n : OctNode) (hw : IsGrid j box) (hd : depth + j = cfg.maxDepth) (p : Pt)
    (hl : (depth = cfg.maxDepth || sizeLeMaxNum points.length cfg.maxNum) = false)
    (hout : ¬ InCube box.center (box.half * (1 + 1 / 2 ^ 52)) p)
    (h : octBuildF cfg fuel depth box points = .ok n) : ∀ l ∈ n.leaves, p ∉ l.2.2 := by
  obtain _ | fuel := fuel
  · simp [octBuildF] at h
  obtain _ | j := j
  · simp at hl; exact absurd (by simpa using hd) hl.1
  obtain ⟨c, hc, rfl⟩ := octBuildF_node hw hl h
  rw [leaves_node]
  intro l hm
  simp only [List.mem_flatMap] at hm
  obtain ⟨i, _, hi⟩ := hm
  refine octBuildF_absent cfg fuel j (depth+1) _ _ _ (hw.step.2 i) (by push_cast at hd; omega) p
    ?_ (hc i) l hi
  intro hh
  have := (mem_octSubF.1 hh).2
  rw [subIndexF_outside hout] at this
  omega

theorem octBuildF_once (cfg : OctreeConfig) (fuel j : Nat) (depth : Int) (box : CubeBox)
    (points : List Pt) (n : OctNode) (hw : IsGrid j box) (hd : depth + j = cfg.maxDepth)
    (p : Pt) (hp : p ∈ points) (hin : InCube box.center box.half p)
    (h : octBuildF cfg fuel depth box points = .ok n) :
    n.leaves.countP (fun l => decide (p ∈ l.2.2)) = 1 ∧
      ∀ l ∈ n.leaves, p ∈ l.2.2 →
        l.2.2.count p = points.count p ∧ InCube l.2.1.center l.2.1.half p := by
  induction fuel generalizing depth box points n j with
  | zero => simp [octBuildF] at h
  | succ fuel ih =>
    by_cases hl : (depth = cfg.maxDepth || sizeLeMaxNum points.length cfg.maxNum) = true
    · unfold octBuildF at h
      rw [if_pos hl] at h
      cases h
      refine ⟨by simp [OctNode.leaves, hp], ?_⟩
      intro l hm
      simp [OctNode.leaves] at hm
      subst hm
      exact fun _ => ⟨rfl, hin⟩
    · obtain _ | j := j
      · simp at hl; exact absurd (by simpa using hd) hl.1
      obtain ⟨c, hc, rfl⟩ := octBuildF_node hw (by simpa using hl) h
      rw [leaves_node]
      obtain ⟨i, hi, hii⟩ := subIndexF_sub hw p hin
      have hd' : depth + 1 + (j : Int) = cfg.maxDepth := by push_cast at hd; omega
      have hothers : ∀ j', j' ≠ i → ∀ l ∈ (c j').leaves, p ∉ l.2.2 := by
        intro j' hj
        refine octBuildF_absent cfg fuel j (depth+1) _ _ _ (hw.step.2 j') hd' p ?_ (hc j')
        intro hh
        have := (mem_octSubF.1 hh).2
        exact hj (Fin.ext (by exact_mod_cast this.symm.trans hi))
      obtain ⟨h1, h2⟩ := ih j (depth+1) _ _ _ (hw.step.2 i) hd' (mem_octSubF.2 ⟨hp, hi⟩) hii (hc i)
      constructor
      · rw [countP_flatMap_one _ _ _ (List.nodup_finRange 8) i (List.mem_finRange i), h1]
        intro j' _ hj
        rw [List.countP_eq_zero]
        intro l hl'
        simpa using hothers j' hj l hl'
      · intro l hm hpl
        simp only [List.mem_flatMap] at hm
        obtain ⟨j', _, hj⟩ := hm
        by_cases e : j' = i
        · subst e
          obtain ⟨h3, h4⟩ := h2 l hj hpl
          refine ⟨?_, h4⟩
          rw [h3]
          unfold octSubF
          exact List.count_filter (by simpa using hi)
        · exact absurd hpl (hothers j' e l hj)

theorem halvable_grid {d : ℕ} {c : Pt} {size : ℚ} (h : Halvable d c size) :
    IsGrid d (CubeBox.ofCenterF c size) ∧ (CubeBox.ofCenterF c size).half = size / 2 ∧
      (CubeBox.ofCenterF c size).center = c ∧ (CubeBox.ofCenterF c size).size = size := by
  obtain ⟨h0, k, ⟨ax, hx⟩, ⟨ay, hy⟩, ⟨az, hz⟩, ⟨n, hn⟩, bx, by', bz⟩ := h
  have hk : (0 : ℚ) < 2 ^ k := by positivity
  have hs : size = 2 * ((n * 2 ^ d : ℤ) : ℚ) * 2 ^ k := by
    have : size = size / 2 ^ (d + 1) * 2 ^ (d + 1) := by field_simp
    rw [this, hn]; push_cast; ring
  have hs2 : size / 2 = ((n * 2 ^ d : ℤ) : ℚ) * 2 ^ k := by rw [hs]; ring
  have hg0 : 0 ≤ n * 2 ^ d := by
    have : 0 ≤ ((n * 2 ^ d : ℤ) : ℚ) * 2 ^ k := by rw [← hs2]; linarith
    have := nonneg_of_mul_nonneg_left this hk
    exact_mod_cast this
  have key : ∀ (a : ℤ) (x : ℚ), x = a * 2 ^ k → |x| + size / 2 ≤ 2 ^ 52 * 2 ^ k →
      |a| + n * 2 ^ d ≤ 2 ^ 52 := by
    intro a x hx hb
    rw [hx, hs2, abs_mul, abs_of_pos hk, ← add_mul] at hb
    have := le_of_mul_le_mul_right hb hk
    exact_mod_cast this
  have hg : GridOk ax ay az (n * 2 ^ d) := ⟨hg0, key _ _ hx bx, key _ _ hy by', key _ _ hz bz⟩
  have hc : c = ⟨ax * 2 ^ k, ay * 2 ^ k, az * 2 ^ k⟩ := by cases c; simp_all
  have hb : CubeBox.ofCenterF c size = gridBox k ax ay az (n * 2 ^ d) := by
    rw [← ofCenterF_grid k ax ay az _ hg, ← hc, ← hs]
  refine ⟨⟨k, ax, ay, az, n, hg, hb⟩, ?_, rfl, rfl⟩
  rw [hb, gridBox_half, hs2]

end Verif
