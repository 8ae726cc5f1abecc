import Verif.Proofs.PoseChain
import Verif.Proofs.PlaceFloat
import Verif.Props.PlaceFloat
import Mathlib.LinearAlgebra.Matrix.Notation
/-! C123: the poses of a long trajectory stay poses. -/
namespace Verif
open Spec Matrix

/-- What every theorem below starts from: the pose of round `i` is a rounded chain. -/
theorem round_chain (fma : Bool) {rounds : List (Mat4 ℚ × Bool)} {i : Nat} {r : Mat4 ℚ × Bool} {T : Mat4 ℚ}
    (hr : rounds[i]? = some r) (hT : (frontPoses fma 1 rounds)[i]? = some T) :
    ∃ l : List (Mat4 ℚ), T = chainF fma 1 l ∧ l.length = factors rounds i ∧
      l.prod = exactPose rounds i r.1 ∧ ∀ A ∈ l, ∃ s ∈ rounds, A = s.1 := by
  refine ⟨((rounds.take i).filter (·.2)).map (·.1) ++ [r.1], ?_, ?_, ?_, ?_⟩
  · rw [frontPoses_chain, hr] at hT
    simpa using hT.symm
  · simp [factors]
  · simp [exactPose]
  · intro A hA
    rw [List.mem_append, List.mem_map, List.mem_singleton] at hA
    rcases hA with ⟨s, hs, rfl⟩ | rfl
    · exact ⟨s, List.mem_of_mem_take (List.mem_of_mem_filter hs), rfl⟩
    · exact ⟨r, List.mem_of_getElem? hr, rfl⟩

/-- C123: every matched cloud gets a pose, and its last row is `0 0 0 1` exactly, however many rounds
have passed. -/
theorem C123_row (fma : Bool) (rounds : List (Mat4 ℚ × Bool)) (hp : ∀ r ∈ rounds, IsPose r.1) :
    (frontPoses fma 1 rounds).length = rounds.length ∧ ∀ T ∈ frontPoses fma 1 rounds, IsPose T := by
  have key : ∀ (rounds : List (Mat4 ℚ × Bool)) (t : Mat4 ℚ), IsPose t → (∀ r ∈ rounds, IsPose r.1) →
      (frontPoses fma t rounds).length = rounds.length ∧ ∀ T ∈ frontPoses fma t rounds, IsPose T := by
    intro rounds
    induction rounds with
    | nil => intro t _ _; simp [frontPoses]
    | cons r rest ih =>
      intro t ht hp
      obtain ⟨a, key⟩ := r
      have hs := mulPoseF_isPose fma ht (hp _ (List.mem_cons_self ..))
      have next : IsPose (if key then mulPoseF fma t a else t) := by
        cases key <;> simpa
      obtain ⟨h1, h2⟩ := ih _ next (fun r hr => hp r (List.mem_cons_of_mem _ hr))
      simp only [frontPoses, List.length_cons, List.mem_cons]
      exact ⟨by rw [h1], by rintro T (rfl | hT); exacts [hs, h2 T hT]⟩
  exact key rounds 1 isPose_one hp

/-- C123, partial: if every result of the matcher keeps the squares of lengths up to a share `δ`, a pose
made of `n` of them keeps them up to `2 n (δ + 2^-44)`.  What is missing is a bound that does not grow
with `n`: `C123_drift_fails`. -/
theorem C123_rigid_partial (fma : Bool) (rounds : List (Mat4 ℚ × Bool)) (δ : ℚ) (hδ : 0 ≤ δ)
    (hp : ∀ r ∈ rounds, IsPose r.1 ∧ KeepsLengths δ (linOf r.1)) (i : Nat) (T : Mat4 ℚ)
    (hT : (frontPoses fma 1 rounds)[i]? = some T)
    (hn : factors rounds i * (δ + 1 / 2 ^ 44) ≤ 1 / 2) :
    KeepsLengths (2 * factors rounds i * (δ + 1 / 2 ^ 44)) (linOf T) := by
  have hr : ∃ r, rounds[i]? = some r := by
    rw [frontPoses_chain] at hT
    cases h : rounds[i]? with
    | none => rw [h] at hT; simp at hT
    | some r => exact ⟨r, rfl⟩
  obtain ⟨r, hr⟩ := hr
  obtain ⟨l, rfl, len, _, mem⟩ := round_chain fma hr hT
  obtain ⟨_, s⟩ := chain_stretch fma hδ rfl l
    (fun A hA => by obtain ⟨s, hs, rfl⟩ := mem A hA; exact (hp s hs).1)
    (fun A hA => by obtain ⟨s, hs, rfl⟩ := mem A hA; exact (hp s hs).2) (by rw [len]; exact hn)
  rw [len] at s
  obtain ⟨b1, b2⟩ := pow_bounds (by positivity) _ hn
  have : (0 : ℚ) ≤ factors rounds i * (δ + 1 / 2 ^ 44) := by positivity
  exact s.keeps (by linarith) (by linarith)

/-- C123: as long as `n (δ + 2^-44)` is at most a hundredth the pose is good enough for placing clouds:
it meets the premise of C87. -/
theorem C123_map (fma : Bool) (rounds : List (Mat4 ℚ × Bool)) (δ : ℚ) (hδ : 0 ≤ δ)
    (hp : ∀ r ∈ rounds, IsPose r.1 ∧ KeepsLengths δ (linOf r.1)) (i : Nat) (T : Mat4 ℚ)
    (hT : (frontPoses fma 1 rounds)[i]? = some T)
    (hn : factors rounds i * (δ + 1 / 2 ^ 44) ≤ 1 / 100) : NearRotation T := by
  have h := keepsLengths_stretch (C123_rigid_partial fma rounds δ hδ hp i T hT (by linarith))
  intro j hj
  have row : ∀ k : Fin 3, T k.castSucc 0 ^ 2 + T k.castSucc 1 ^ 2 + T k.castSucc 2 ^ 2 ≤ (101 / 100) ^ 2 := by
    intro k
    have := h.row_le k
    have e : sqLength (linOf T k) = T k.castSucc 0 ^ 2 + T k.castSucc 1 ^ 2 + T k.castSucc 2 ^ 2 := rfl
    rw [e] at this
    norm_num; linarith
  fin_cases j
  · exact row 0
  · exact row 1
  · exact row 2
  · exact absurd rfl hj

/-- C123: the position of a pose made of `n` results, each moving by `ℓ` at most, is within
`2^-46 n² ℓ` of the position the results give in exact arithmetic. -/
theorem C123_position (fma : Bool) (rounds : List (Mat4 ℚ × Bool)) (δ ℓ : ℚ) (hδ : 0 ≤ δ) (hℓ : 0 ≤ ℓ)
    (hp : ∀ r ∈ rounds, IsPose r.1 ∧ KeepsLengths δ (linOf r.1) ∧ sqLength (posOf r.1) ≤ ℓ ^ 2)
    (i : Nat) (r : Mat4 ℚ × Bool) (T : Mat4 ℚ)
    (hr : rounds[i]? = some r) (hT : (frontPoses fma 1 rounds)[i]? = some T)
    (hn : factors rounds i * (δ + 1 / 2 ^ 44) ≤ 1 / 2) :
    sqLength (posOf T - posOf (exactPose rounds i r.1)) ≤ ((factors rounds i : ℚ) ^ 2 * ℓ / 2 ^ 46) ^ 2 := by
  obtain ⟨l, rfl, len, pr, mem⟩ := round_chain fma hr hT
  obtain ⟨_, _, h⟩ := chain_near fma hδ rfl hℓ l
    (fun A hA => by obtain ⟨s, hs, rfl⟩ := mem A hA; exact (hp s hs).1)
    (fun A hA => by obtain ⟨s, hs, rfl⟩ := mem A hA; exact (hp s hs).2.1)
    (fun A hA => by obtain ⟨s, hs, rfl⟩ := mem A hA; exact (hp s hs).2.2) (by rw [len]; exact hn)
  rw [len, pr] at h
  refine le_trans h (le_of_eq ?_)
  norm_num; ring

/-- C123: after a hundred thousand key frames ten metres apart, with results true to `double`
precision, a pose is within two millimetres of where exact arithmetic puts it, and squares of lengths are
kept up to a millionth. -/
theorem C123_long (fma : Bool) (rounds : List (Mat4 ℚ × Bool))
    (hp : ∀ r ∈ rounds, IsPose r.1 ∧ KeepsLengths (1 / 2 ^ 42) (linOf r.1) ∧ sqLength (posOf r.1) ≤ 10 ^ 2)
    (i : Nat) (r : Mat4 ℚ × Bool) (T : Mat4 ℚ)
    (hr : rounds[i]? = some r) (hT : (frontPoses fma 1 rounds)[i]? = some T)
    (hn : factors rounds i ≤ 100000) :
    sqLength (posOf T - posOf (exactPose rounds i r.1)) ≤ (2 / 1000) ^ 2 ∧
    KeepsLengths (1 / 10 ^ 6) (linOf T) := by
  have hq : (factors rounds i : ℚ) ≤ 100000 := by exact_mod_cast hn
  have h0 : (0 : ℚ) ≤ factors rounds i := by positivity
  have hs : (factors rounds i : ℚ) * (1 / 2 ^ 42 + 1 / 2 ^ 44) ≤ 1 / 2 := by norm_num; linarith
  constructor
  · refine le_trans (C123_position fma rounds _ 10 (by positivity) (by norm_num) hp i r T hr hT hs) ?_
    apply pow_le_pow_left₀ (by positivity)
    have : (factors rounds i : ℚ) ^ 2 ≤ 100000 ^ 2 := pow_le_pow_left₀ h0 hq 2
    norm_num at this ⊢; linarith
  · have := C123_rigid_partial fma rounds _ (by positivity) (fun r hr => ⟨(hp r hr).1, (hp r hr).2.1⟩) i T hT hs
    intro v
    refine le_trans (this v) (mul_le_mul_of_nonneg_right ?_ (sqLength_nonneg v))
    norm_num; linarith

theorem coord_le {v : Fin 3 → ℚ} {d : ℚ} (hd : 0 ≤ d) (h : sqLength v ≤ d ^ 2) (k : Fin 3) : |v k| ≤ d := by
  apply abs_le_of_sq_le_sq _ hd
  unfold sqLength at h
  fin_cases k
  · show v 0 ^ 2 ≤ _; nlinarith [sq_nonneg (v 1), sq_nonneg (v 2)]
  · show v 1 ^ 2 ≤ _; nlinarith [sq_nonneg (v 0), sq_nonneg (v 2)]
  · show v 2 ^ 2 ≤ _; nlinarith [sq_nonneg (v 0), sq_nonneg (v 1)]

/-- C123, with C87: after a hundred thousand key frames ten metres apart, a measurement up to 200 m away is put
within 7 mm of where the results of the matcher put it in exact arithmetic, as long as that frame is within 9 km of the
start: both the poses and the points are rounded. -/
theorem C123_place (fma : Bool) (rounds : List (Mat4 ℚ × Bool))
    (hp : ∀ r ∈ rounds, IsPose r.1 ∧ KeepsLengths (1 / 2 ^ 42) (linOf r.1) ∧ sqLength (posOf r.1) ≤ 10 ^ 2)
    (i : Nat) (r : Mat4 ℚ × Bool) (T : Mat4 ℚ)
    (hr : rounds[i]? = some r) (hT : (frontPoses fma 1 rounds)[i]? = some T)
    (hn : factors rounds i ≤ 100000) (hbox : InBox 9000 (translation (exactPose rounds i r.1)))
    (p : InnerPoint ℚ) (hd : p.x ^ 2 + p.y ^ 2 + p.z ^ 2 ≤ 200 ^ 2) :
    Within (7 / 1000) (pos (transformPointF fma T p)) (move (exactPose rounds i r.1) (pos p)) := by
  have hq : (factors rounds i : ℚ) ≤ 100000 := by exact_mod_cast hn
  have h0 : (0 : ℚ) ≤ factors rounds i := by positivity
  have hs : (factors rounds i : ℚ) * (1 / 2 ^ 42 + 1 / 2 ^ 44) ≤ 1 / 100 := by norm_num; linarith
  have hs2 : (factors rounds i : ℚ) * (1 / 2 ^ 42 + 1 / 2 ^ 44) ≤ 1 / 2 := by linarith
  have near := C123_map fma rounds (1 / 2 ^ 42) (by positivity) (fun r h => ⟨(hp r h).1, (hp r h).2.1⟩) i T hT hs
  have hpos := (C123_long fma rounds hp i r T hr hT hn).1
  obtain ⟨l, e, len, pr, mem⟩ := round_chain fma hr hT
  obtain ⟨sh, _, _⟩ := chain_near fma (δ := 1 / 2 ^ 42) (by positivity) rfl (by norm_num : (0 : ℚ) ≤ 10) l
    (fun A hA => by obtain ⟨s, hs, rfl⟩ := mem A hA; exact (hp s hs).1)
    (fun A hA => by obtain ⟨s, hs, rfl⟩ := mem A hA; exact (hp s hs).2.1)
    (fun A hA => by obtain ⟨s, hs, rfl⟩ := mem A hA; exact (hp s hs).2.2) (by rw [len]; exact hs2)
  rw [← e, pr, len] at sh
  obtain ⟨E, hE⟩ : ∃ E, E = exactPose rounds i r.1 := ⟨_, rfl⟩
  rw [← hE] at sh hpos hbox ⊢
  obtain ⟨_, b2⟩ := pow_bounds (g := 1 / 2 ^ 42 + 1 / 2 ^ 44) (by positivity) _ hs2
  have sh' : Short (1 / 10 ^ 8) (linOf T - linOf E) := by
    refine sh.mono (by positivity) ?_
    have b3 : (1 + (1 / 2 ^ 42 + 1 / 2 ^ 44 : ℚ)) ^ factors rounds i ≤ 2 := by linarith
    calc 6 / 2 ^ 50 * (factors rounds i : ℚ) * (1 + (1 / 2 ^ 42 + 1 / 2 ^ 44)) ^ factors rounds i
        ≤ 6 / 2 ^ 50 * 100000 * 2 := by
          apply mul_le_mul _ b3 (by positivity) (by positivity)
          apply mul_le_mul_of_nonneg_left hq (by positivity)
      _ ≤ 1 / 10 ^ 8 := by norm_num
  have hv : sqLength ((linOf T - linOf E).mulVec ![p.x, p.y, p.z]) ≤ (2 / 10 ^ 6) ^ 2 := by
    refine le_trans (sh' _) ?_
    have : sqLength ![p.x, p.y, p.z] ≤ 200 ^ 2 := hd
    calc (1 / 10 ^ 8 : ℚ) ^ 2 * sqLength ![p.x, p.y, p.z] ≤ (1 / 10 ^ 8) ^ 2 * 200 ^ 2 :=
          mul_le_mul_of_nonneg_left this (by positivity)
      _ ≤ _ := by norm_num
  have c1 := fun k => coord_le (by norm_num) hv k
  have c2 := fun k => coord_le (by norm_num) hpos k
  have box : InBox 10000 (translation T) := by
    obtain ⟨g0, g1, g2⟩ := hbox
    have k0 : |T 0 3 - E 0 3| ≤ 2 / 1000 := c2 0
    have k1 : |T 1 3 - E 1 3| ≤ 2 / 1000 := c2 1
    have k2 : |T 2 3 - E 2 3| ≤ 2 / 1000 := c2 2
    simp only [translation] at g0 g1 g2
    rw [abs_le] at g0 g1 g2 k0 k1 k2
    refine ⟨?_, ?_, ?_⟩ <;> simp only [translation] <;> rw [abs_le] <;> constructor <;> linarith [g0.1, g0.2, g1.1, g1.2, g2.1, g2.2, k0.1, k0.2, k1.1, k1.2, k2.1, k2.2]
  obtain ⟨m0, m1, m2⟩ := C87_millimetres fma T p near hd box
  have row : ∀ k : Fin 3, |((linOf T).mulVec ![p.x, p.y, p.z] k + posOf T k) - ((linOf E).mulVec ![p.x, p.y, p.z] k + posOf E k)| ≤ 3 / 1000 := by
    intro k
    have a1 := c1 k
    have a2 := c2 k
    rw [Matrix.sub_mulVec] at a1
    simp only [Pi.sub_apply] at a1 a2
    rw [abs_le] at a1 a2 ⊢
    constructor <;> linarith [a1.1, a1.2, a2.1, a2.2]
  have r0 := row 0
  have r1 := row 1
  have r2 := row 2
  simp only [Matrix.mulVec, dotProduct, Fin.sum_univ_three, linOf, posOf] at r0 r1 r2
  have fin : ∀ a b c : ℚ, |a - b| ≤ 4 / 1000 → |b - c| ≤ 3 / 1000 → |a - c| ≤ 7 / 1000 := by
    intro a b c h1 h2
    have := abs_sub_le a b c
    linarith
  exact ⟨fin _ _ _ m0 r0, fin _ _ _ m1 r1, fin _ _ _ m2 r2⟩

/-- C123: a matcher that hands on `float` numbers costs `2^-22` a time: the exact rotation, entry by
entry rounded to `float`, keeps the squares of lengths up to that. -/
theorem C123_float (T : Mat4 ℚ) (h : IsPose T) (hT : KeepsLengths 0 (linOf T)) :
    IsPose (castF32 T) ∧ KeepsLengths (1 / 2 ^ 22) (linOf (castF32 T)) := by
  constructor
  · obtain ⟨h0, h1, h2, h3⟩ := h
    have z : toF32 0 = 0 := by decide +kernel
    have o : toF32 1 = 1 := by decide +kernel
    refine ⟨?_, ?_, ?_, ?_⟩ <;> simp [castF32, h0, h1, h2, h3, z, o]
  · have s := keepsLengths_stretch hT
    have f : frob (linOf T) ≤ 3 := le_trans s.frob_le (by norm_num)
    have fE : frob (linOf (castF32 T) - linOf T) ≤ 3 / 2 ^ 48 := by
      have ent : ∀ i j, (linOf (castF32 T) - linOf T) i j ^ 2 ≤ 1 / 2 ^ 48 * linOf T i j ^ 2 := by
        intro i j
        have h1 := toF32_err (linOf T i j)
        have e : (linOf (castF32 T) - linOf T) i j = toF32 (linOf T i j) - linOf T i j := rfl
        have h2 := pow_le_pow_left₀ (abs_nonneg _) h1 2
        rw [e, ← sq_abs]
        refine le_trans h2 (le_of_eq ?_)
        rw [mul_pow, sq_abs]
        unfold u32; norm_num
      have : frob (linOf (castF32 T) - linOf T) ≤ 1 / 2 ^ 48 * frob (linOf T) := by
        unfold frob
        rw [Finset.mul_sum]
        refine Finset.sum_le_sum fun i _ => ?_
        rw [Finset.mul_sum]
        exact Finset.sum_le_sum fun j _ => ent i j
      refine le_trans this ?_
      norm_num; linarith
    have st : Stretch (1 - 1 / 2 ^ 22) (1 + 1 / 2 ^ 22) (linOf (castF32 T)) := by
      intro v
      have hv := sqLength_nonneg v
      have dec : (linOf (castF32 T)).mulVec v = (linOf T).mulVec v + (linOf (castF32 T) - linOf T).mulVec v := by
        rw [← Matrix.add_mulVec]; congr 1; abel
      have eV : sqLength ((linOf (castF32 T) - linOf T).mulVec v) ≤ 3 / 2 ^ 48 * sqLength v :=
        le_trans (sqLength_mulVec_le _ _) (mul_le_mul_of_nonneg_right fE hv)
      have u := sqLength_add_le (s := 1 / 2 ^ 23) (by positivity) ((linOf T).mulVec v)
        ((linOf (castF32 T) - linOf T).mulVec v)
      have l := sqLength_add_ge (s := 1 / 2 ^ 23) (by positivity) ((linOf T).mulVec v)
        ((linOf (castF32 T) - linOf T).mulVec v)
      rw [← dec] at u l
      obtain ⟨s1, s2⟩ := s v
      norm_num at *
      constructor <;> linarith
    exact st.keeps le_rfl le_rfl

/-- C123: with such a matcher the poses are good enough for placing clouds for forty thousand key
frames. -/
theorem C123_float_map (fma : Bool) (rounds : List (Mat4 ℚ × Bool))
    (hp : ∀ r ∈ rounds, ∃ R : Mat4 ℚ, IsPose R ∧ KeepsLengths 0 (linOf R) ∧ r.1 = castF32 R)
    (i : Nat) (T : Mat4 ℚ) (hT : (frontPoses fma 1 rounds)[i]? = some T)
    (hn : factors rounds i ≤ 40000) : NearRotation T := by
  refine C123_map fma rounds (1 / 2 ^ 22) (by positivity) ?_ i T hT ?_
  · intro r hr
    obtain ⟨R, h1, h2, e⟩ := hp r hr
    rw [e]
    exact C123_float R h1 h2
  · have : (factors rounds i : ℚ) ≤ 40000 := by exact_mod_cast hn
    norm_num; linarith

/-- A turn by 60 degrees about the diagonal of the three axes. -/
def turn60 : Mat4 ℚ := !![2/3, -1/3, 2/3, 0; 2/3, 2/3, -1/3, 0; -1/3, 2/3, 2/3, 0; 0, 0, 0, 1]

theorem turn60_pose : IsPose turn60 := by
  refine ⟨?_, ?_, ?_, ?_⟩ <;> simp [turn60]

theorem turn60_keeps : KeepsLengths 0 (linOf turn60) := by
  intro v
  have e : sqLength ((linOf turn60).mulVec v) = sqLength v := by
    simp [sqLength, linOf, turn60, Matrix.mulVec, dotProduct, Fin.sum_univ_three]
    ring
  rw [e]; simp

theorem toF32_thirds : toF32 (2 / 3) = 11184811 / 2 ^ 24 ∧ toF32 (-1 / 3) = -11184811 / 2 ^ 25 := by
  constructor <;> decide +kernel

theorem turn60_cast : Stretch ((1 + 1 / 2 ^ 25) ^ 2) ((1 + 1 / 2 ^ 25) ^ 2) (linOf (castF32 turn60)) := by
  intro v
  have e : sqLength ((linOf (castF32 turn60)).mulVec v) = (1 + 1 / 2 ^ 25) ^ 2 * sqLength v := by
    simp only [sqLength, linOf, castF32, turn60, Matrix.mulVec, dotProduct, Fin.sum_univ_three]
    simp [toF32_thirds.1, toF32_thirds.2]
    ring
  rw [e]; simp

theorem drift_chain (fma : Bool) (k : Nat) (hk : k ≤ 2 ^ 30) :
    Stretch (((1 + 1 / 2 ^ 25) ^ 2 * (1 - 1 / 2 ^ 45)) ^ k) (((1 + 1 / 2 ^ 25) ^ 2 * (1 + 1 / 2 ^ 47)) ^ k)
      (linOf (chainF fma 1 (List.replicate k (castF32 turn60)))) := by
  have pA : IsPose (castF32 turn60) := (C123_float turn60 turn60_pose turn60_keeps).1
  induction k with
  | zero => simp only [pow_zero, List.replicate_zero, chainF, List.foldl_nil]
            rw [linOf_one]; exact stretch_one
  | succ k ih =>
    have hk' : (k : ℚ) ≤ 2 ^ 30 := by exact_mod_cast (by omega : k ≤ 2 ^ 30)
    have e : chainF fma 1 (List.replicate (k + 1) (castF32 turn60)) =
        mulPoseF fma (chainF fma 1 (List.replicate k (castF32 turn60))) (castF32 turn60) := by
      rw [List.replicate_succ']; simp [chainF]
    rw [e]
    obtain ⟨c, hc⟩ : ∃ c : ℚ, c = (1 + 1 / 2 ^ 25) ^ 2 := ⟨_, rfl⟩
    have c0 : 0 < c := by rw [hc]; positivity
    have ih := ih (by omega)
    have sA := turn60_cast
    rw [← hc] at ih sA ⊢
    have kb : (k : ℚ) * (1 / 2 ^ 45) ≤ 1 / 2 :=
      le_trans (mul_le_mul_of_nonneg_right hk' (by norm_num)) (by norm_num)
    have b := pow_bounds (g := 1 / 2 ^ 45) (by positivity) k kb
    have b2 : (1 + 1 / 2 ^ 47 : ℚ) ^ k ≤ 2 :=
      le_trans (pow_le_pow_left₀ (by positivity) (by norm_num) k) (by linarith [b.2] : (1 + 1 / 2 ^ 45 : ℚ) ^ k ≤ 2)
    have b1 : (1 : ℚ) / 2 ≤ (1 - 1 / 2 ^ 45) ^ k := by linarith [b.1]
    have cc : 0 ≤ c ^ k * c := by positivity
    have r : (c * (1 + 1 / 2 ^ 47)) ^ k * c ≤ 12 * ((c * (1 - 1 / 2 ^ 45)) ^ k * c) := by
      rw [mul_pow, mul_pow]
      have h1 := mul_le_mul_of_nonneg_left b2 cc
      have h2 := mul_le_mul_of_nonneg_left b1 cc
      have e1 : c ^ k * (1 + 1 / 2 ^ 47) ^ k * c = c ^ k * c * (1 + 1 / 2 ^ 47) ^ k := by ring
      have e2 : c ^ k * (1 - 1 / 2 ^ 45) ^ k * c = c ^ k * c * (1 - 1 / 2 ^ 45) ^ k := by ring
      rw [e1, e2]; linarith
    have s := ih.mul sA (pow_nonneg (mul_nonneg c0.le (by norm_num)) k) (by positivity) r (linOf_err fma pA)
    intro v
    obtain ⟨s1, s2⟩ := s v
    have e3 : (c * (1 - 1 / 2 ^ 45)) ^ k * c * (1 - 1 / 2 ^ 45) = (c * (1 - 1 / 2 ^ 45)) ^ (k + 1) := by
      rw [pow_succ]; ring
    have e4 : (c * (1 + 1 / 2 ^ 47)) ^ k * c * (1 + 1 / 2 ^ 47) = (c * (1 + 1 / 2 ^ 47)) ^ (k + 1) := by
      rw [pow_succ]; ring
    rw [e3] at s1; rw [e4] at s2
    exact ⟨s1, s2⟩

/-- C123, the negation: nothing brings a pose back to a rotation.  A matcher that returns the same
rotation every time, true to `float` precision, makes the squares of lengths grow by `2^-25` with every
key frame: by three per cent after a million, so that the premise of C87 is lost. -/
theorem C123_drift_fails (fma : Bool) :
    ∃ R : Mat4 ℚ, IsPose R ∧ KeepsLengths 0 (linOf R) ∧
      ∀ n < 2 ^ 30, ∀ i < n, ∃ T, (frontPoses fma 1 (List.replicate n (castF32 R, true)))[i]? = some T ∧
        ∀ v, (1 + (i + 1) / 2 ^ 25) * sqLength v ≤ sqLength ((linOf T).mulVec v) := by
  refine ⟨turn60, turn60_pose, turn60_keeps, ?_⟩
  intro n hn i hi
  have hr : (List.replicate n (castF32 turn60, true))[i]? = some (castF32 turn60, true) := by
    rw [List.getElem?_replicate]; simp [hi]
  refine ⟨chainF fma 1 (List.replicate (i + 1) (castF32 turn60)), ?_, ?_⟩
  · rw [frontPoses_chain, hr, Option.map_some]
    have : ((List.replicate n (castF32 turn60, true)).take i).filter (·.2) = List.replicate i (castF32 turn60, true) := by
      rw [List.take_replicate, Nat.min_eq_left hi.le, List.filter_eq_self.2]
      intro a ha; rw [List.eq_of_mem_replicate ha]
    rw [this, List.map_replicate, List.replicate_succ']
  · intro v
    refine le_trans (mul_le_mul_of_nonneg_right ?_ (sqLength_nonneg v)) (drift_chain fma (i + 1) (by omega) v).1
    have h1 : (1 + 1 / 2 ^ 25 : ℚ) ≤ (1 + 1 / 2 ^ 25) ^ 2 * (1 - 1 / 2 ^ 45) := by norm_num
    have h2 := pow_le_pow_left₀ (by positivity) h1 (i + 1)
    have h3 := one_add_mul_le_pow (a := (1 / 2 ^ 25 : ℚ)) (by norm_num) (i + 1)
    refine le_trans (le_of_eq ?_) (le_trans h3 h2)
    push_cast; ring

/-- C123: what that costs: from key frame 2^20 on, a pose may stretch by more than three per cent of the
square of a length and is no longer good enough for C87. -/
theorem C123_million_fails (fma : Bool) :
    ∃ (rounds : List (Mat4 ℚ × Bool)) (T : Mat4 ℚ), rounds.length = 2 ^ 20 ∧
      (∀ r ∈ rounds, ∃ R : Mat4 ℚ, IsPose R ∧ KeepsLengths 0 (linOf R) ∧ r.1 = castF32 R) ∧
      (frontPoses fma 1 rounds)[2 ^ 20 - 1]? = some T ∧ ¬ NearRotation T := by
  obtain ⟨R, h1, h2, h⟩ := C123_drift_fails fma
  obtain ⟨T, hT, hv⟩ := h (2 ^ 20) (by norm_num) (2 ^ 20 - 1) (by norm_num)
  refine ⟨_, T, List.length_replicate, ?_, hT, ?_⟩
  · intro r hr
    rw [List.eq_of_mem_replicate hr]
    exact ⟨R, h1, h2, rfl⟩
  · intro hN
    have e0 := hv (Pi.single 0 1)
    have e1 := hv (Pi.single 1 1)
    have e2 := hv (Pi.single 2 1)
    have n0 := hN 0 (by decide)
    have n1 := hN 1 (by decide)
    have n2 := hN 2 (by decide)
    rw [Matrix.mulVec_single_one] at e0 e1 e2
    simp only [sqLength, Matrix.col_apply, linOf] at e0 e1 e2
    simp [Pi.single_apply] at e0 e1 e2
    norm_num at e0 e1 e2 n0 n1 n2
    linarith

/-- The bounds are met by real trajectories: three rounds, two of them key frames. -/
example : ∃ rounds : List (Mat4 ℚ × Bool), rounds.length = 3 ∧ factors rounds 2 = 2 ∧
    (∀ r ∈ rounds, IsPose r.1 ∧ KeepsLengths 0 (linOf r.1) ∧ sqLength (posOf r.1) ≤ 10 ^ 2) ∧
    (∀ fma, ((frontPoses fma 1 rounds)[2]?).map posOf = some ![3, 4, 0]) := by
  have p : ∀ x y : ℚ, IsPose !![1, 0, 0, x; 0, 1, 0, y; 0, 0, 1, 0; 0, 0, 0, 1] := by
    intro x y; refine ⟨?_, ?_, ?_, ?_⟩ <;> simp
  have k : ∀ x y : ℚ, KeepsLengths 0 (linOf !![1, 0, 0, x; 0, 1, 0, y; 0, 0, 1, 0; 0, 0, 0, 1]) := by
    intro x y v
    have e : sqLength ((linOf !![1, 0, 0, x; 0, 1, 0, y; 0, 0, 1, 0; 0, 0, 0, 1]).mulVec v) = sqLength v := by
      simp [sqLength, linOf, Matrix.mulVec, dotProduct, Fin.sum_univ_three]
    rw [e]; simp
  refine ⟨[(!![1, 0, 0, 3; 0, 1, 0, 0; 0, 0, 1, 0; 0, 0, 0, 1], true),
    (!![1, 0, 0, 9; 0, 1, 0, 1; 0, 0, 1, 0; 0, 0, 0, 1], false),
    (!![1, 0, 0, 0; 0, 1, 0, 4; 0, 0, 1, 0; 0, 0, 0, 1], true)], rfl, rfl, ?_, ?_⟩
  · intro r hr
    simp only [List.mem_cons, List.not_mem_nil, or_false] at hr
    rcases hr with rfl | rfl | rfl
    · exact ⟨p _ _, k _ _, by simp [sqLength, posOf]; norm_num⟩
    · exact ⟨p _ _, k _ _, by simp [sqLength, posOf]; norm_num⟩
    · exact ⟨p _ _, k _ _, by simp [sqLength, posOf]; norm_num⟩
  · intro fma
    have t3 : toF64 3 = 3 := by simpa using toF64_nat 3 (by norm_num)
    have t4 : toF64 4 = 4 := by simpa using toF64_nat 4 (by norm_num)
    simp only [frontPoses, if_true, List.getElem?_cons_succ, List.getElem?_cons_zero, Option.map_some]
    congr 1
    ext i
    cases fma <;> fin_cases i <;>
      simp [posOf, mulPoseF, maddD, toF64_zero', toF64_one', t3, t4, Matrix.one_apply]

end Verif
