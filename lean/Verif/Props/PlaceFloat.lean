import Verif.Proofs.PlaceFloat
/-!
# C87: points of the map are where their frame's pose puts them, to the millimetre

Poses are `double`s but points are placed with `float`s.  The error of a coordinate is at most three
ten-millionths of the lengths involved, whatever the order in which the hardware rounds.  A point
measured within 200 m, of a frame within 10 km of the origin, is placed with an error below 4 mm, also
when it is first placed in its submap and then in the map.  At 20 km the millimetres are lost.
-/
namespace Verif
open Spec

/-- C87: the error of each coordinate of a placed point; nothing else of the point changes. -/
theorem C87_place (fma : Bool) (T : Mat4 ℚ) (p : InnerPoint ℚ) (d t : ℚ) (hT : NearRotation T)
    (hd : 0 ≤ d) (hp : p.x ^ 2 + p.y ^ 2 + p.z ^ 2 ≤ d ^ 2) (ht : InBox t (translation T)) :
    Within (3 / 10 ^ 7 * (101 / 100 * d + t)) (pos (transformPointF fma T p)) (move T (pos p)) ∧
    (transformPointF fma T p).intensity = p.intensity ∧
    (transformPointF fma T p).factor = p.factor := by
  refine ⟨?_, rfl, rfl⟩
  have row : ∀ (i : Fin 4), i ≠ 3 → |T i 3| ≤ t →
      |rowF fma (T i 0) (T i 1) (T i 2) (T i 3) p.x p.y p.z -
        (T i 0 * p.x + T i 1 * p.y + T i 2 * p.z + T i 3)| ≤ 3 / 10 ^ 7 * (101 / 100 * d + t) := by
    intro i hi hti
    refine le_trans (rowF_err fma _ _ _ _ _ _ _) ?_
    have := cauchy3 (by norm_num : (0 : ℚ) ≤ 101 / 100) hd (hT i hi) hp
    apply mul_le_mul_of_nonneg_left _ (by norm_num)
    linarith
  exact ⟨row 0 (by decide) ht.1, row 1 (by decide) ht.2.1, row 2 (by decide) ht.2.2⟩

/-- C87: in numbers: 4 mm for a frame within 10 km and a point within 200 m. -/
theorem C87_millimetres (fma : Bool) (T : Mat4 ℚ) (p : InnerPoint ℚ) (hT : NearRotation T)
    (hp : p.x ^ 2 + p.y ^ 2 + p.z ^ 2 ≤ 200 ^ 2) (ht : InBox 10000 (translation T)) :
    Within (4 / 1000) (pos (transformPointF fma T p)) (move T (pos p)) := by
  obtain ⟨⟨h1, h2, h3⟩, _⟩ := C87_place fma T p 200 10000 hT (by norm_num) hp ht
  norm_num at h1 h2 h3
  exact ⟨by linarith, by linarith, by linarith⟩

/-- C87: a cloud is placed point by point: as many points, in the same order, same stamp, each within
the bound. -/
theorem C87_cloud (fma : Bool) (T : Mat4 ℚ) (c : InnerCloud ℚ) (d t : ℚ) (hT : NearRotation T)
    (hd : 0 ≤ d) (hp : ∀ p ∈ c.points, p.x ^ 2 + p.y ^ 2 + p.z ^ 2 ≤ d ^ 2)
    (ht : InBox t (translation T)) :
    (transformCloudF fma T c).stamp = c.stamp ∧
    (transformCloudF fma T c).points.length = c.points.length ∧
    ∀ (i : Nat) (p q : InnerPoint ℚ), c.points[i]? = some p →
      (transformCloudF fma T c).points[i]? = some q →
      Within (3 / 10 ^ 7 * (101 / 100 * d + t)) (pos q) (move T (pos p)) ∧
      q.intensity = p.intensity ∧ q.factor = p.factor := by
  refine ⟨rfl, by simp [transformCloudF], ?_⟩
  intro i p q h1 h2
  simp only [transformCloudF, List.getElem?_map, h1, Option.map_some, Option.some.injEq] at h2
  subst h2
  exact C87_place fma T p d t hT hd (hp p (List.mem_of_getElem? h1)) ht

theorem abs_lin_le {a b c x y z m : ℚ} (h : a ^ 2 + b ^ 2 + c ^ 2 ≤ (101 / 100) ^ 2)
    (hm : 0 ≤ m) (hx : |x| ≤ m) (hy : |y| ≤ m) (hz : |z| ≤ m) :
    |a * x| + |b * y| + |c * z| ≤ 176 / 100 * m := by
  have e := cauchy3 (x := 1) (y := 1) (z := 1) (d := 174 / 100) (by norm_num : (0 : ℚ) ≤ 101 / 100)
    (by norm_num) h (by norm_num)
  rw [mul_one, mul_one, mul_one] at e
  rw [abs_mul, abs_mul, abs_mul]
  have h1 := mul_le_mul_of_nonneg_left hx (abs_nonneg a)
  have h2 := mul_le_mul_of_nonneg_left hy (abs_nonneg b)
  have h3 := mul_le_mul_of_nonneg_left hz (abs_nonneg c)
  nlinarith

/-- C87: placing a point in its submap and the result in the map, against doing both exactly. -/
theorem C87_twice (fma : Bool) (L G : Mat4 ℚ) (p : InnerPoint ℚ) (d s t : ℚ)
    (hL : NearRotation L) (hG : NearRotation G) (hd : 0 ≤ d) (hs : 0 ≤ s)
    (hp : p.x ^ 2 + p.y ^ 2 + p.z ^ 2 ≤ d ^ 2)
    (hl : InBox s (translation L)) (hg : InBox t (translation G)) :
    Within (3 / 10 ^ 7 * (4 * (101 / 100 * d + s) + t))
      (pos (transformPointF fma G (transformPointF fma L p))) (move G (move L (pos p))) := by
  obtain ⟨⟨e1, e2, e3⟩, _⟩ := C87_place fma L p d s hL hd hp hl
  set q := transformPointF fma L p with hq
  set m := move L (pos p) with hm
  set M := 101 / 100 * d + s with hM
  have hM0 : 0 ≤ M := by positivity
  have exact_le : ∀ (i : Fin 4), i ≠ 3 → |L i 3| ≤ s →
      |L i 0 * p.x + L i 1 * p.y + L i 2 * p.z + L i 3| ≤ M := by
    intro i hi hti
    have c := cauchy3 (by norm_num : (0 : ℚ) ≤ 101 / 100) hd (hL i hi) hp
    have a1 := abs_add_le (L i 0 * p.x + L i 1 * p.y + L i 2 * p.z) (L i 3)
    have a2 := abs_add_le (L i 0 * p.x + L i 1 * p.y) (L i 2 * p.z)
    have a3 := abs_add_le (L i 0 * p.x) (L i 1 * p.y)
    linarith
  have m1 : |m.x| ≤ M := exact_le 0 (by decide) hl.1
  have m2 : |m.y| ≤ M := exact_le 1 (by decide) hl.2.1
  have m3 : |m.z| ≤ M := exact_le 2 (by decide) hl.2.2
  have big : ∀ {x y : ℚ}, |x - y| ≤ 3 / 10 ^ 7 * M → |y| ≤ M → |x| ≤ 101 / 100 * M := by
    intro x y h1 h2
    have := abs_sub_abs_le_abs_sub x y
    norm_num at h1
    linarith
  have q1 := big e1 m1
  have q2 := big e2 m2
  have q3 := big e3 m3
  have row : ∀ (i : Fin 4), i ≠ 3 → |G i 3| ≤ t →
      |rowF fma (G i 0) (G i 1) (G i 2) (G i 3) q.x q.y q.z -
        (G i 0 * m.x + G i 1 * m.y + G i 2 * m.z + G i 3)| ≤ 3 / 10 ^ 7 * (4 * M + t) := by
    intro i hi hti
    have r := rowF_err fma (G i 0) (G i 1) (G i 2) (G i 3) q.x q.y q.z
    have r1 := abs_lin_le (hG i hi) (by positivity : 0 ≤ 101 / 100 * M) q1 q2 q3
    have r2 := abs_lin_le (hG i hi) (by positivity : 0 ≤ 3 / 10 ^ 7 * M) e1 e2 e3
    set a := G i 0
    set b := G i 1
    set c := G i 2
    set f := G i 3
    have s1 := abs_sub_le (rowF fma a b c f q.x q.y q.z) (a * q.x + b * q.y + c * q.z + f)
      (a * m.x + b * m.y + c * m.z + f)
    have s2 : |(a * q.x + b * q.y + c * q.z + f) - (a * m.x + b * m.y + c * m.z + f)| ≤
        |a * (q.x - m.x)| + |b * (q.y - m.y)| + |c * (q.z - m.z)| := by
      have : (a * q.x + b * q.y + c * q.z + f) - (a * m.x + b * m.y + c * m.z + f) =
        a * (q.x - m.x) + b * (q.y - m.y) + c * (q.z - m.z) := by ring
      rw [this]
      exact le_trans (abs_add_le _ _) (by
        linarith [abs_add_le (a * (q.x - m.x)) (b * (q.y - m.y))])
    have r2' : |a * (q.x - m.x)| + |b * (q.y - m.y)| + |c * (q.z - m.z)| ≤
      176 / 100 * (3 / 10 ^ 7 * M) := r2
    have r1' : |a * q.x| + |b * q.y| + |c * q.z| ≤ 176 / 100 * (101 / 100 * M) := r1
    linarith
  exact ⟨row 0 (by decide) hg.1, row 1 (by decide) hg.2.1, row 2 (by decide) hg.2.2⟩

/-- C87: in numbers: 4 mm for a point within 200 m of its frame, a frame within 100 m of its submap's
origin and a submap within 10 km. -/
theorem C87_twice_millimetres (fma : Bool) (L G : Mat4 ℚ) (p : InnerPoint ℚ)
    (hL : NearRotation L) (hG : NearRotation G) (hp : p.x ^ 2 + p.y ^ 2 + p.z ^ 2 ≤ 200 ^ 2)
    (hl : InBox 100 (translation L)) (hg : InBox 10000 (translation G)) :
    Within (4 / 1000) (pos (transformPointF fma G (transformPointF fma L p)))
      (move G (move L (pos p))) := by
  obtain ⟨h1, h2, h3⟩ :=
    C87_twice fma L G p 200 100 10000 hL hG (by norm_num) (by norm_num) hp hl hg
  norm_num at h1 h2 h3
  exact ⟨by linarith, by linarith, by linarith⟩

/-- The identity with a translation along x. -/
def shiftX (t : ℚ) : Mat4 ℚ := !![1, 0, 0, t; 0, 1, 0, 0; 0, 0, 1, 0; 0, 0, 0, 1]

/-- C87: the full property, without the bound on the distance, fails: 20 km from the origin two
points of one scan a millimetre apart fall together. -/
theorem C87_far_fails (fma : Bool) :
    ∃ (T : Mat4 ℚ) (p q : InnerPoint ℚ), NearRotation T ∧ q.x - p.x = 1 / 1024 ∧
      transformPointF fma T p = transformPointF fma T q := by
  refine ⟨shiftX 20000, ⟨1, 0, 0, 5, 0⟩, ⟨1 + 1 / 1024, 0, 0, 5, 0⟩, ?_, by norm_num, ?_⟩
  · intro i hi
    match i, hi with
    | 0, _ => decide +kernel
    | 1, _ => decide +kernel
    | 2, _ => decide +kernel
    | 3, h => exact absurd rfl h
  · cases fma <;> decide +kernel

/-! Non-vacuity -/

/-- A quarter turn about z at 5 km: the point 10 m ahead comes out 10 m to the left. -/
example : transformPointF false !![0, -1, 0, 5000; 1, 0, 0, 0; 0, 0, 1, 0; 0, 0, 0, 1]
    ⟨10, 0, 0, 7, 1⟩ = ⟨5000, 10, 0, 7, 1⟩ := by decide +kernel

/-- Rounding does happen: a third of a metre at 5 km moves by less than a millimetre. -/
example : transformPointF false (shiftX 5000) ⟨toF32 (1 / 3), 0, 0, 7, 1⟩ ≠
    transformPoint (shiftX 5000) ⟨toF32 (1 / 3), 0, 0, 7, 1⟩ := by decide +kernel

example : NearRotation !![0, -1, 0, 5000; 1, 0, 0, 0; 0, 0, 1, 0; 0, 0, 0, 1] ∧
    InBox 10000 (translation !![0, -1, 0, (5000 : ℚ); 1, 0, 0, 0; 0, 0, 1, 0; 0, 0, 0, 1]) := by
  refine ⟨?_, ?_⟩
  · intro i hi
    match i, hi with
    | 0, _ => decide +kernel
    | 1, _ => decide +kernel
    | 2, _ => decide +kernel
    | 3, h => exact absurd rfl h
  · refine ⟨?_, ?_, ?_⟩ <;> simp [translation] <;> norm_num

end Verif
