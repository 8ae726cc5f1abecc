import Verif.Proofs.Invalid
import Mathlib.Data.Fin.VecNotation
import Mathlib.LinearAlgebra.Matrix.Notation
import Mathlib.Tactic.FinCases
/-! C96: measurements that are not numbers, or absurdly far away, do not stop the program and do not
get into the map. -/
namespace Verif
open Spec

/-- The range filter, with the rounding of the code: what it keeps is a point with three numbers as
coordinates whose squared distance is in the limits up to one part in two million; and it keeps every
point that is in the limits by that margin. (At the limits themselves it may go either way:
`C96_range_fails`.) -/
theorem C96_range_partial (fma : Bool) {mn mx : ℚ} (h0 : 0 ≤ mn) (hm : mn ≤ mx) (p : FlPoint) :
    (rangeKeepFl fma mn mx p = true → ∃ x y z, PointAt p x y z ∧ mn ^ 2 * (1 - 1 / 2 ^ 21) ≤ x ^ 2 + y ^ 2 + z ^ 2 ∧
      x ^ 2 + y ^ 2 + z ^ 2 ≤ mx ^ 2 * (1 + 1 / 2 ^ 21)) ∧
    (mx ≤ 2 ^ 60 → ∀ x y z, PointAt p x y z → mn ^ 2 * (1 + 1 / 2 ^ 21) ≤ x ^ 2 + y ^ 2 + z ^ 2 →
      x ^ 2 + y ^ 2 + z ^ 2 ≤ mx ^ 2 * (1 - 1 / 2 ^ 21) → rangeKeepFl fma mn mx p = true) :=
  ⟨fun h => range_kept h0 h, fun hx _ _ _ hp h1 h2 => range_keeps fma h0 hm hx hp h1 h2⟩

/-- The limits of the supplied configuration, and a point well inside. -/
example : rangeKeepFl false (9 / 2) 75 ⟨.num 3, .num 4, .num 12⟩ = true := by decide +kernel

/-- The full statement about the range filter is false: with the upper limit 100 m a point nearer than
that is dropped, and a point farther away is kept. -/
theorem C96_range_fails (fma : Bool) :
    (∃ p x y z, PointAt p x y z ∧ x ^ 2 + y ^ 2 + z ^ 2 < 100 ^ 2 ∧ rangeKeepFl fma 0 100 p = false) ∧
    (∃ p x y z, PointAt p x y z ∧ (100 : ℚ) ^ 2 < x ^ 2 + y ^ 2 + z ^ 2 ∧ rangeKeepFl fma 0 100 p = true) := by
  refine ⟨⟨_, 11354431 / 131072, 50067 / 1024, 2687557 / 262144, rfl, by norm_num, ?_⟩,
    ⟨_, 100, 1 / 4096, 0, rfl, by norm_num, ?_⟩⟩
  · cases fma <;> decide +kernel
  · cases fma <;> decide +kernel

/-- Whatever the limits (also the largest `float`, which is what an absent limit means) a range filter
anywhere in the chain leaves only points with three numbers as coordinates. -/
theorem C96_only_numbers {fma : Bool} {stack : ℕ} {mn mx : ℚ} {fs : List FlFilter} {ps qs : List FlPoint}
    (hr : FlFilter.range mn mx ∈ fs) (h : chainFl fma stack fs ps = .ok qs) : ∀ p ∈ qs, IsNumber p ∧ p ∈ ps := by
  intro p hp
  obtain ⟨x, y, z, hx, _⟩ := rangeKeepFl_num (chain_range hr h p hp)
  exact ⟨⟨x, y, z, hx⟩, chain_sub h p hp⟩

/-- The filters of the configuration for KITTI on a scan with an invalid point. -/
example : chainFl false 1000 [.range 5 (2 ^ 128 - 2 ^ 104), .axis (-2) (2 ^ 128 - 2 ^ 104) 2, .random (1 / 2) (fun i => if i = 0 then 1 / 4 else 3 / 4)]
    [⟨.nan, .num 1, .num 1⟩, ⟨.num 10, .num 10, .num 1⟩, ⟨.inf true, .num 1, .num 1⟩, ⟨.num 20, .num 10, .num 1⟩]
    = .ok [⟨.num 10, .num 10, .num 1⟩] := by decide +kernel

/-- **Partial.** The filters hold a range filter with an upper limit of at most 2^20 m (the supplied
configurations but one: 75 m and 80 m), the poses of the frames in their submap are rotations up to
the rounding with shifts of at most 2^24 m. Then a submap is completed whatever the scans hold, with
the check or without it, and every point of it is a number. -/
theorem C96_submap_partial (check : Bool) {fma : Bool} {stack : ℕ} {mn mx : ℚ} {filters : List FlFilter} (h0 : 0 ≤ mn) (hx0 : 0 ≤ mx)
    (hx : mx ≤ 2 ^ 20) (hr : FlFilter.range mn mx ∈ filters) (fs : List (Mat4 ℚ × List FlPoint))
    (hf : ∀ f ∈ fs, Moderate (2 ^ 24) f.1 ∧ ∃ scan, chainFl fma stack filters scan = .ok f.2) :
    ∃ ps, fillSubmap check fma fs = .ok ps ∧ ps.length = (fs.map fun f => f.2.length).sum ∧
      ∀ p ∈ ps, IsNumber p := by
  have key : ∀ p ∈ movedAll fma fs, ∃ x y z, PointAt p x y z ∧ |x| ≤ 20000000 ∧ |y| ≤ 20000000 ∧ |z| ≤ 20000000 := by
    intro p hp
    obtain ⟨f, hfm, hp⟩ := List.mem_flatMap.1 hp
    obtain ⟨q, hq, rfl⟩ := List.mem_map.1 hp
    obtain ⟨hm, scan, hs⟩ := hf f hfm
    obtain ⟨x, y, z, hxyz, _, hd⟩ := range_kept h0 (chain_range hr hs q hq)
    have hmx : mx ^ 2 ≤ (2 ^ 20) ^ 2 := pow_le_pow_left₀ hx0 hx 2
    have hb : x ^ 2 + y ^ 2 + z ^ 2 ≤ (2 ^ 20 + 1) ^ 2 := by norm_num at *; linarith
    have b1 : |x| ≤ 2 ^ 20 + 1 := abs_le_of_sq_le_sq (by nlinarith [sq_nonneg y, sq_nonneg z]) (by norm_num)
    have b2 : |y| ≤ 2 ^ 20 + 1 := abs_le_of_sq_le_sq (by nlinarith [sq_nonneg x, sq_nonneg z]) (by norm_num)
    have b3 : |z| ≤ 2 ^ 20 + 1 := abs_le_of_sq_le_sq (by nlinarith [sq_nonneg x, sq_nonneg y]) (by norm_num)
    unfold PointAt at hxyz
    subst hxyz
    have hrow : ∀ i : Fin 3, _ := fun i => rowFl_small fma ((hm i).1 0) ((hm i).1 1) ((hm i).1 2) (hm i).2 b1 b2 b3
    exact ⟨_, _, _, by
      unfold PointAt moveFl
      have h0 := (hrow 0).1
      have h1 := (hrow 1).1
      have h2 := (hrow 2).1
      exact congr (congr (congrArg FlPoint.mk h0) h1) h2, (hrow 0).2, (hrow 1).2, (hrow 2).2⟩
  refine ⟨movedAll fma fs, fillSubmap_ok fun _ p hp => ?_, ?_, fun p hp => ?_⟩
  · obtain ⟨x, y, z, h, h1, h2, h3⟩ := key p hp
    exact checkPoint_small fma h h1 h2 h3
  · unfold movedAll
    rw [List.length_flatMap]
    simp
  · obtain ⟨x, y, z, h, _⟩ := key p hp
    exact ⟨x, y, z, h⟩

/-- A frame with a shift of 30 m and a quarter turn; the scan has points that are no numbers. -/
example : Moderate (2 ^ 24) !![0, -1, 0, 30; 1, 0, 0, 0; 0, 0, 1, 0; 0, 0, 0, 1] ∧
    chainFl false 1000 [.range (9 / 2) 75] [⟨.nan, .num 1, .num 1⟩, ⟨.num 10, .num 10, .num 1⟩, ⟨.num 100, .inf false, .num 1⟩]
      = .ok [⟨.num 10, .num 10, .num 1⟩] ∧
    fillSubmap true false [(!![0, -1, 0, 30; 1, 0, 0, 0; 0, 0, 1, 0; 0, 0, 0, 1], [⟨.num 10, .num 10, .num 1⟩])]
      = .ok [⟨.num 20, .num 10, .num 1⟩] := by
  refine ⟨?_, by decide +kernel, by decide +kernel⟩
  intro i
  fin_cases i <;> exact ⟨by decide +kernel, by decide +kernel⟩

/-- What a completed and checked submap guarantees: every point is a number, less than 10^8 m away
(up to the rounding), and all points of the frames are there; otherwise the program stops. -/
theorem C96_checked (fma : Bool) (fs : List (Mat4 ℚ × List FlPoint)) :
    (∃ ps, fillSubmap true fma fs = .ok ps ∧ ps.length = (fs.map fun f => f.2.length).sum ∧
      ∀ p ∈ ps, ∃ x y z, PointAt p x y z ∧ x ^ 2 + y ^ 2 + z ^ 2 ≤ (100000000 : ℚ) ^ 2 * (1 + 1 / 2 ^ 21)) ∨
    fillSubmap true fma fs = .abort := by
  by_cases h : ∀ p ∈ movedAll fma fs, checkPointFl fma p = .ok ()
  · refine Or.inl ⟨_, fillSubmap_ok fun _ => h, ?_, fun p hp => checkPoint_ok (h p hp)⟩
    unfold movedAll
    rw [List.length_flatMap]
    simp
  · push Not at h
    obtain ⟨p, hp, hb⟩ := h
    exact Or.inr (fillSubmap_bad hp hb)

/-- A point that is not a number is not a number after any motion: with the check on, one such point in
one frame stops the program, without the check it is part of the submap. -/
theorem C96_invalid_fails (fma : Bool) (fs : List (Mat4 ℚ × List FlPoint)) {f : Mat4 ℚ × List FlPoint} (hf : f ∈ fs) {p : FlPoint}
    (hp : p ∈ f.2) (hn : ¬ IsNumber p) :
    fillSubmap true fma fs = .abort ∧ ∃ ps, fillSubmap false fma fs = .ok ps ∧ ∃ q ∈ ps, ¬ IsNumber q := by
  have hq : ¬ IsNumber (moveFl fma f.1 p) := by
    rintro ⟨x, y, z, h⟩
    unfold PointAt moveFl at h
    exact hn (rowFl_num (congrArg FlPoint.x h))
  have hmem : moveFl fma f.1 p ∈ movedAll fma fs := List.mem_flatMap.2 ⟨f, hf, List.mem_map.2 ⟨p, hp, rfl⟩⟩
  refine ⟨fillSubmap_bad hmem fun h => ?_, movedAll fma fs, fillSubmap_ok (by simp), _, hmem, hq⟩
  obtain ⟨x, y, z, h, _⟩ := checkPoint_ok h
  exact hq ⟨x, y, z, h⟩

/-- The axis filter keeps a point exactly if the coordinate along its axis is not-a-number or a number within
the limits; an infinite coordinate is always dropped. -/
theorem C96_axis (mn mx : ℚ) (p : FlPoint) :
    (axisKeepFl mn mx 0 p = true ↔ p.x = .nan ∨ ∃ q, p.x = .num q ∧ mn ≤ q ∧ q ≤ mx) ∧
    (axisKeepFl mn mx 1 p = true ↔ p.y = .nan ∨ ∃ q, p.y = .num q ∧ mn ≤ q ∧ q ≤ mx) ∧
    (axisKeepFl mn mx 2 p = true ↔ p.z = .nan ∨ ∃ q, p.z = .num q ∧ mn ≤ q ∧ q ≤ mx) := by
  have key : ∀ v : Fl, (!(v.lt (.num mn) || Fl.lt (.num mx) v)) = true ↔
      v = .nan ∨ ∃ q, v = .num q ∧ mn ≤ q ∧ q ≤ mx := by
    intro v
    cases v with
    | nan => simp [Fl.lt]
    | inf n => cases n <;> simp [Fl.lt]
    | num q => simp [Fl.lt]
  exact ⟨key p.x, key p.y, key p.z⟩

/-- The random sampler keeps everything when asked for more than 99.9 percent; otherwise it keeps exactly the
points whose draw is at most the rate, in their order, whether or not they are numbers. -/
theorem C96_random (rate : ℚ) (draws : ℕ → ℚ) (ps : List FlPoint) :
    (999 / 1000 < rate → randomFl rate draws ps = ps) ∧
    (rate ≤ 999 / 1000 →
      ∃ is : List ℕ, is = (List.range ps.length).filter (fun i => decide (draws i ≤ rate)) ∧
        (randomFl rate draws ps).map some = is.map (fun i => ps[i]?)) := by
  constructor
  · intro h
    simp [randomFl, h]
  · intro h
    refine ⟨_, rfl, ?_⟩
    rw [randomFl, if_neg (not_lt.2 h)]
    have key : ∀ (l : List FlPoint) (k : ℕ) (f : ℕ → Option FlPoint), (∀ i, i < l.length → f (k + i) = l[i]?) →
        ((l.zipIdx k).filter (fun q => decide (draws q.2 ≤ rate))).map (fun q => some q.1) =
          ((List.range' k l.length).filter (fun i => decide (draws i ≤ rate))).map f := by
      intro l
      induction l with
      | nil => intro k f _; rfl
      | cons a l ih =>
        intro k f hf
        have h0 : f k = some a := by simpa using hf 0 (by simp)
        have hr := ih (k + 1) f (by
          intro i hi
          have := hf (i + 1) (by simpa using hi)
          rw [show k + 1 + i = k + (i + 1) by omega, this]
          simp)
        simp only [List.zipIdx_cons, List.length_cons, List.range'_succ, List.filter_cons]
        split
        · simp only [List.map_cons, h0, hr]
        · exact hr
    have := key ps 0 (fun i => ps[i]?) (by intro i _; simp)
    rw [List.map_map, List.range_eq_range']
    exact this

example : randomFl (1 / 2) (fun i => if i = 1 then 1 else 1 / 2) [⟨.nan, .num 1, .num 1⟩, ⟨.num 3, .num 1, .num 1⟩, ⟨.num 4, .num 1, .num 1⟩] =
    [⟨.nan, .num 1, .num 1⟩, ⟨.num 4, .num 1, .num 1⟩] := by decide +kernel

/-- The box filter removes a point exactly if its coordinates are three numbers inside the box. -/
theorem C96_box (mn mx : Vec3 ℚ) (p : FlPoint) :
    boxHasFl mn mx p = true ↔ ∃ x y z, PointAt p x y z ∧ (mn.x ≤ x ∧ x ≤ mx.x) ∧ (mn.y ≤ y ∧ y ≤ mx.y) ∧
      mn.z ≤ z ∧ z ≤ mx.z := by
  have key : ∀ (a b : ℚ) (v : Fl), (Fl.le (.num a) v && Fl.le v (.num b)) = true ↔
      ∃ q, v = .num q ∧ a ≤ q ∧ q ≤ b := by
    intro a b v
    cases v with
    | nan => simp [Fl.le]
    | inf n => cases n <;> simp [Fl.le]
    | num q => simp [Fl.le]
  obtain ⟨x, y, z⟩ := p
  unfold boxHasFl PointAt
  rw [Bool.and_eq_true, Bool.and_eq_true, key, key, key]
  constructor
  · rintro ⟨⟨⟨x, rfl, hx⟩, y, rfl, hy⟩, z, rfl, hz⟩
    exact ⟨x, y, z, rfl, hx, hy, hz⟩
  · rintro ⟨x, y, z, h, hx, hy, hz⟩
    cases h
    exact ⟨⟨⟨x, rfl, hx⟩, y, rfl, hy⟩, z, rfl, hz⟩

/-- The range filter is undefined exactly for a cloud with more points than there is room on the stack. -/
theorem C96_stack (fma : Bool) (stack : ℕ) (mn mx : ℚ) (ps : List FlPoint) :
    (chainFl fma stack [.range mn mx] ps = .ub ↔ stack < ps.length) ∧
    (ps.length ≤ stack → ∃ qs, chainFl fma stack [.range mn mx] ps = .ok qs) := by
  have e : chainFl fma stack [.range mn mx] ps = rangeFl fma stack mn mx ps := by
    simp only [chainFl, FlFilter.run]
    cases rangeFl fma stack mn mx ps <;> rfl
  rw [e]
  unfold rangeFl
  by_cases h : ps.length > stack
  · rw [if_pos h]
    exact ⟨⟨fun _ => h, fun _ => rfl⟩, fun h' => absurd h (not_lt.2 h')⟩
  · rw [if_neg h]
    exact ⟨⟨fun hc => (by cases hc), fun hc => absurd hc h⟩, fun _ => ⟨_, rfl⟩⟩

/-- Such a point gets through the filters that compare single coordinates, because every comparison
with it is false: the axis range, the box and the random sampler keep it. So a message that calls
itself dense, with one invalid point, and filters without a range filter stop the program. -/
theorem C96_filters_fail (fma : Bool) (stack : ℕ) :
    chainFl fma stack [.axis (-2) 10 2, .box ⟨-1, -1, -1⟩ ⟨1, 1, 1⟩, .random (1 / 2) (fun _ => 1 / 4)]
      (removeNan FlPoint.isNum ⟨0, true, [⟨.nan, .nan, .nan⟩, ⟨.num 10, .num 10, .num 1⟩]⟩).points
      = .ok [⟨.nan, .nan, .nan⟩, ⟨.num 10, .num 10, .num 1⟩] ∧
    fillSubmap true fma [(1, [⟨.nan, .nan, .nan⟩, ⟨.num 10, .num 10, .num 1⟩])] = .abort := by
  constructor
  · show Outcome.ok _ = Outcome.ok _
    decide +kernel
  · refine (C96_invalid_fails fma _ List.mem_cons_self (p := ⟨.nan, .nan, .nan⟩) List.mem_cons_self ?_).1
    rintro ⟨x, y, z, h⟩
    unfold PointAt at h
    cases h

/-- A message that does not call itself dense is cleaned on arrival, whatever the filters are: only
points with three numbers remain, and all of them do, in their order. -/
theorem C96_cleaned (c : RosCloud FlPoint) (hd : c.dense = false) :
    (∀ p, p ∈ (removeNan FlPoint.isNum c).points ↔ p ∈ c.points ∧ IsNumber p) ∧
      (removeNan FlPoint.isNum c).points.Sublist c.points := by
  have e : (removeNan FlPoint.isNum c).points = c.points.filter FlPoint.isNum := by
    unfold removeNan
    rw [hd]
    rfl
  rw [e]
  refine ⟨fun p => ?_, List.filter_sublist⟩
  rw [List.mem_filter]
  refine and_congr Iff.rfl ?_
  obtain ⟨x, y, z⟩ := p
  unfold IsNumber PointAt FlPoint.isNum
  cases x <;> cases y <;> cases z <;> simp [Fl.isNum]

example : (removeNan FlPoint.isNum ⟨0, false, [⟨.nan, .nan, .nan⟩, ⟨.num 10, .num 10, .num 1⟩]⟩).points = [⟨.num 10, .num 10, .num 1⟩] := by
  decide +kernel

/-- The configuration for KITTI gives the range filter no upper limit: a point 2·10^8 m away is a
number, passes the filters, and the check of the submap stops the program. -/
theorem C96_far_fails (fma : Bool) :
    chainFl fma 1000 [.range 5 (2 ^ 128 - 2 ^ 104), .axis (-2) (2 ^ 128 - 2 ^ 104) 2] [⟨.num 200000000, .num 0, .num 0⟩]
      = .ok [⟨.num 200000000, .num 0, .num 0⟩] ∧
    fillSubmap true fma [(1, [⟨.num 200000000, .num 0, .num 0⟩])] = .abort := by
  cases fma <;> exact ⟨by decide +kernel, by decide +kernel⟩

/-- The ground removal turns coordinates into integers: for scans whose points are numbers up to 2^30
voxels away this is defined, and it gives every point its voxel; with a point that is not a number
anywhere in the scan it is undefined behaviour. -/
theorem C96_ground (leaf : ℚ) (ps : List FlPoint) :
    ((∀ p ∈ ps, ∃ x y z, PointAt p x y z ∧ |x / leaf| ≤ 2 ^ 30 ∧ |y / leaf| ≤ 2 ^ 30 ∧ |z / leaf| ≤ 2 ^ 30) →
      ∃ vs, groundIndicesFl leaf ps = .ok vs ∧ vs.length = ps.length) ∧
    ((∃ p ∈ ps, ¬ IsNumber p) → groundIndicesFl leaf ps = .ub) :=
  ⟨groundIndices_ok leaf ps, fun ⟨_, hp, hn⟩ => groundIndices_ub leaf hp hn⟩

/-- A voxel size of a metre, a point that is a number and one that is not. -/
example : groundIndicesFl 1 [⟨.num (7 / 2), .num (-7 / 2), .num 0⟩] = .ok [(3, -3, 0)] ∧
    groundIndicesFl 1 [⟨.num (7 / 2), .num (-7 / 2), .num 0⟩, ⟨.num 1, .nan, .num 0⟩] = .ub := by
  decide +kernel

end Verif
