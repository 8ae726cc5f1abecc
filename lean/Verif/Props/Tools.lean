import Verif.Proofs.Tools
import Verif.Proofs.PlaceFloat
import Verif.Props.CastF
/-
C94: the command line tools for paths, sampling and LAS files.
-/
namespace Verif
open Spec

/-! ### path.csv -/

/-- C94: path.csv has one row per point, in order, with the four numbers to six decimals; whole numbers
(such as the frame number kept as intensity) are read back exactly. -/
theorem C94_csv (ps : List PathPoint) :
    ∃ text rows, pathStatistic (some ps) true = (0, some text) ∧ readTable text = some rows ∧
      rows.length = ps.length ∧
      ∀ (k : Nat) (p : PathPoint), ps[k]? = some p → ∃ v, rows[k]? = some v ∧
        List.Forall₂ Close6 v (pointNumbers p) ∧
        ∀ (j : Nat) (n : Int), (pointNumbers p)[j]? = some (n : Rat) → v[j]? = some (n : Rat) := by
  refine ⟨_, _, rfl, readTable_stat ps, by simp, ?_⟩
  intro k p h
  refine ⟨(pointNumbers p).map fixedVal, by rw [List.getElem?_map, h]; rfl, ?_, ?_⟩
  · rw [List.forall₂_map_left_iff]
    exact List.forall₂_same.mpr fun x _ => fixedVal_close x
  · intro j n hj
    rw [List.getElem?_map, hj]
    exact congrArg some (fixedVal_int n)

/-- C94 fails for telling close points apart: two different single-precision positions give the same row. -/
theorem C94_csv_fails :
    ∃ a b : PathPoint, a ≠ b ∧ Single a.p.x ∧ Single b.p.x ∧
      pathStatistic (some [a]) true = pathStatistic (some [b]) true :=
  ⟨⟨⟨8388609 / 8388608, 0, 0⟩, 0⟩, ⟨⟨8388610 / 8388608, 0, 0⟩, 0⟩, by decide +kernel,
    by unfold Single; decide +kernel, by unfold Single; decide +kernel, by decide +kernel⟩

/-- C94: nothing is written if the cloud cannot be read; the exit code says so. If path.csv cannot be
opened, the exit code is 0 all the same. -/
theorem C94_csv_exit (cloud : Option (List PathPoint)) (opens : Bool) :
    ((pathStatistic cloud opens).1 = -1 ↔ cloud = none) ∧
    ((pathStatistic cloud opens).2.isSome ↔ cloud.isSome ∧ opens = true) := by
  cases cloud <;> cases opens <;> simp [pathStatistic]

/-! ### Sampling -/

theorem sampleCount_about (n : Nat) (hn : n ≤ 2 ^ 30) (ratio : ℚ) (h0 : 0 ≤ ratio) (h1 : ratio ≤ 1) :
    ∃ k, sampleCount n ratio = .ok k ∧ AboutRatio k n ratio := by
  have hnq : (n : ℚ) ≤ 2 ^ 30 := by exact_mod_cast hn
  have hn0 : (0 : ℚ) ≤ n := by positivity
  have e1 := toF32_err (n : ℚ)
  rw [abs_of_nonneg hn0] at e1
  have f0 := toF32_nonneg hn0
  have p0 : 0 ≤ toF32 (n : ℚ) * ratio := mul_nonneg f0 h0
  have e2 := toF32_err (toF32 (n : ℚ) * ratio)
  rw [abs_of_nonneg p0] at e2
  have q0 := toF32_nonneg p0
  have hnr : (0 : ℚ) ≤ n * ratio := mul_nonneg hn0 h0
  have a1 := abs_le.mp e1
  have b1 : toF32 (n : ℚ) * ratio ≤ (1 + u32) * (n * ratio) := by
    have : toF32 (n : ℚ) ≤ (1 + u32) * n := by linarith [a1.2]
    have := mul_le_mul_of_nonneg_right this h0
    linarith
  have b2 : (1 - u32) * (n * ratio) ≤ toF32 (n : ℚ) * ratio := by
    have : (1 - u32) * n ≤ toF32 (n : ℚ) := by linarith [a1.1]
    have := mul_le_mul_of_nonneg_right this h0
    linarith
  have a2 := abs_le.mp e2
  generalize hq : toF32 (toF32 (n : ℚ) * ratio) = q at *
  have c1 : q ≤ n * ratio * (1 + 1 / 2 ^ 22) := by
    unfold u32 at *; linarith [a2.2]
  have c2 : n * ratio * (1 - 1 / 2 ^ 22) ≤ q := by
    unfold u32 at *; linarith [a2.1]
  have hle : n * ratio ≤ n := by nlinarith
  have hfl := Int.floor_le q
  have hfl2 := Int.lt_floor_add_one q
  have hf0 : 0 ≤ ⌊q⌋ := Int.floor_nonneg.mpr q0
  have hmax : ⌊q⌋ ≤ 2147483647 := by
    have : (⌊q⌋ : ℚ) ≤ 2147483647 := by linarith
    exact_mod_cast this
  refine ⟨⌊q⌋.toNat, ?_, ?_⟩
  · unfold sampleCount sampleInt
    rw [hq, truncInt_nonneg q0, int32, if_pos (by omega), Outcome.bind_ok, Outcome.pure_eq,
      Int.emod_eq_of_lt hf0 (by omega)]
  · have e : ((⌊q⌋.toNat : Nat) : ℚ) = (⌊q⌋ : ℚ) := by exact_mod_cast Int.toNat_of_nonneg hf0
    unfold AboutRatio
    rw [e]
    constructor <;> linarith

/-- C94: for a ratio between 0 and 1 and at most 2^30 points the sampler writes a selection of the points,
in their order, of about the asked size. -/
theorem C94_sample_partial {α : Type} (S : Sampler α) (ratio : ℚ) (h0 : 0 ≤ ratio) (h1 : ratio ≤ 1)
    (ps : List α) (hn : ps.length ≤ 2 ^ 30) :
    ∃ out, pcdSampler S ratio (some ps) = .ok (0, some out) ∧ out.Sublist ps ∧
      AboutRatio out.length ps.length ratio := by
  obtain ⟨k, hk, ha⟩ := sampleCount_about ps.length hn ratio h0 h1
  simp only [pcdSampler]
  rw [hk, Outcome.bind_ok, Outcome.pure_eq]
  refine ⟨_, rfl, ?_, ?_⟩
  · split
    · exact List.Sublist.refl _
    · exact S.sub k ps
  · split
    · rename_i hle
      have : ((ps.length : Nat) : ℚ) ≤ k := by exact_mod_cast hle
      have h2 : (ps.length : ℚ) * ratio ≤ ps.length := by
        have : (0 : ℚ) ≤ ps.length := by positivity
        nlinarith
      have h3 : (0 : ℚ) ≤ (ps.length : ℚ) * ratio := mul_nonneg (by positivity) h0
      exact ⟨le_trans this ha.1, by linarith⟩
    · rename_i hlt
      rw [S.length k ps (by omega)]
      exact ha

/-- C94: with at most 2^24 points and a ratio from 1 to 100 everything is kept. -/
theorem C94_sample_all {α : Type} (S : Sampler α) (ratio : ℚ) (h1 : 1 ≤ ratio) (h2 : ratio ≤ 100)
    (ps : List α) (hn : ps.length ≤ 2 ^ 24) : pcdSampler S ratio (some ps) = .ok (0, some ps) := by
  have hnq : (ps.length : ℚ) ≤ 2 ^ 24 := by exact_mod_cast hn
  have hn0 : (0 : ℚ) ≤ ps.length := by positivity
  simp only [pcdSampler, sampleCount, sampleInt]
  rw [toF32_int hn]
  have a : (ps.length : ℚ) ≤ toF32 (ps.length * ratio) := by
    have := toF32_mono (show (ps.length : ℚ) ≤ ps.length * ratio by nlinarith)
    rwa [toF32_int hn] at this
  have b : toF32 (ps.length * ratio) ≤ 2 ^ 24 * 100 := by
    have h := toF32_mono (show (ps.length : ℚ) * ratio ≤ 2 ^ 24 * 100 by nlinarith)
    have e : toF32 (2 ^ 24 * 100) = 2 ^ 24 * 100 := by decide +kernel
    rwa [e] at h
  generalize toF32 (ps.length * ratio) = q at *
  have q0 : 0 ≤ q := le_trans hn0 a
  have f1 : (ps.length : Int) ≤ ⌊q⌋ := Int.le_floor.mpr (by exact_mod_cast a)
  have f2 : ⌊q⌋ ≤ 1677721600 := by
    have : (⌊q⌋ : ℚ) ≤ 1677721600 := by have := Int.floor_le q; linarith
    exact_mod_cast this
  rw [truncInt_nonneg q0, int32, if_pos (by omega), Outcome.bind_ok, Outcome.pure_eq, Outcome.bind_ok,
    Int.emod_eq_of_lt (by omega) (by omega), if_pos (by omega), Outcome.pure_eq]

/-- C94 fails for large clouds: the number of points is rounded to single precision, so with ratio 1 a
point of a cloud of 2^24 + 1 points is lost. -/
theorem C94_sample_full_fails {α : Type} (S : Sampler α) (ps : List α) (hn : ps.length = 2 ^ 24 + 1) :
    ∃ out, pcdSampler S 1 (some ps) = .ok (0, some out) ∧ out.length < ps.length := by
  have e : sampleCount (2 ^ 24 + 1) 1 = .ok (2 ^ 24) := by decide +kernel
  simp only [pcdSampler]
  rw [hn, e, Outcome.bind_ok, Outcome.pure_eq, if_neg (by norm_num)]
  exact ⟨_, rfl, by rw [S.length _ _ (by omega)]; norm_num⟩

/-- C94 fails for a negative ratio, which is not refused: the count becomes a huge unsigned number and
every point is kept. -/
theorem C94_sample_negative_fails {α : Type} (S : Sampler α) (ps : List α) (hn : ps.length = 10) :
    pcdSampler S (-1 / 2) (some ps) = .ok (0, some ps) := by
  have e : sampleCount 10 (-1 / 2) = .ok 4294967291 := by decide +kernel
  simp only [pcdSampler]
  rw [hn, e, Outcome.bind_ok, Outcome.pure_eq, if_pos (by norm_num)]

/-- C94 fails for a large ratio: the conversion to `int` is undefined. -/
theorem C94_sample_range_fails {α : Type} (S : Sampler α) (ps : List α) (hn : ps.length = 2 ^ 24) :
    pcdSampler S 128 (some ps) = .ub := by
  have e : sampleCount (2 ^ 24) 128 = .ub := by decide +kernel
  simp only [pcdSampler]
  rw [hn, e, Outcome.bind_ub]

/-! ### LAS files -/

theorem wrap32_count {c : RawCloud} (hn : c.height * c.width < 2 ^ 31) :
    (lasCount c).toNat = c.height * c.width := by
  unfold lasCount
  have h : ((c.height : Int) * c.width) = ((c.height * c.width : Nat) : Int) := by push_cast; rfl
  rw [h]
  generalize c.height * c.width = n at *
  rw [Int.emod_eq_of_lt (by omega) (by omega), wrap32_id (by omega) (by omega)]
  simp

/-- C94: for a cloud of less than 2^31 points whose x, y and z are floating point numbers of at most
21000 km, the LAS file has one point per point of the cloud, in order, to half a centimetre. -/
theorem C94_las_partial (c : RawCloud) (pos : Nat → Vec3 ℚ) (h : HasXyz c pos) (hn : c.height * c.width < 2 ^ 31)
    (hb : ∀ i, i < c.height * c.width → |(pos i).x| ≤ 21000000 ∧ |(pos i).y| ≤ 21000000 ∧ |(pos i).z| ≤ 21000000) :
    ∃ ps, pcdToLas (some c) true = .ok (0, some ps) ∧ ps.length = c.height * c.width ∧
      ∀ i, i < c.height * c.width → ∃ q, ps[i]? = some q ∧ Centi q.x (pos i).x ∧ Centi q.y (pos i).y ∧
        Centi q.z (pos i).z := by
  have hval : ∀ (name : List Char) (coord : Nat → ℚ), HoldsCoord c name coord → ∃ f ∈ c.fields, f.name = name ∧
      ∀ i, i < c.height * c.width → fieldValue c f (i * c.pointStep) = .ok (coord i) := by
    rintro name coord ⟨f, hf, hfn, hd⟩
    refine ⟨f, hf, hfn, fun i hi => ?_⟩
    have hroom : i * c.pointStep + c.pointStep ≤ c.dataLength := by
      have h1 : (i + 1) * c.pointStep ≤ c.height * c.width * c.pointStep := Nat.mul_le_mul_right _ hi
      have := h.room
      rw [Nat.add_mul, Nat.one_mul] at h1
      omega
    unfold fieldValue
    rcases hd with ⟨h1, h2, h3⟩ | ⟨h1, h2, h3⟩
    · rw [h1]
      simp only []
      rw [if_pos (by omega), h3 i hi]
    · rw [h1]
      simp only []
      rw [if_pos (by omega), h3 i hi]
  obtain ⟨fx, hfx, nx, vx⟩ := hval _ _ h.x
  obtain ⟨fy, hfy, ny, vy⟩ := hval _ _ h.y
  obtain ⟨fz, hfz, nz, vz⟩ := hval _ _ h.z
  have uniq : ∀ f ∈ c.fields, ∀ g ∈ c.fields, f.name = g.name → f = g := by
    intro f hf g hg hfg
    exact List.inj_on_of_nodup_map h.nodup hf hg hfg
  have step : ∀ i, 0 ≤ i → i < 0 + c.height * c.width → ∃ q,
      lasFields c (i * c.pointStep) c.fields ⟨0, 0, 0⟩ = .ok q ∧
      (Centi q.x (pos i).x ∧ Centi q.y (pos i).y ∧ Centi q.z (pos i).z) := by
    intro i _ hi
    rw [Nat.zero_add] at hi
    let val : LasField → ℚ := fun f =>
      if f.name = ['x'] then (pos i).x else if f.name = ['y'] then (pos i).y else (pos i).z
    have wx : val fx = (pos i).x := by simp [val, nx]
    have wy : val fy = (pos i).y := by simp [val, ny]
    have wz : val fz = (pos i).z := by simp [val, nz]
    obtain ⟨q, hq, q1, q2, q3, -⟩ := lasFields_ok c (i * c.pointStep) val c.fields h.nodup (by
      intro f hf hname
      rcases hname with e | e | e
      · have := uniq f hf fx hfx (by rw [e, nx])
        subst this
        rw [wx]; exact ⟨vx i hi, (hb i hi).1⟩
      · have := uniq f hf fy hfy (by rw [e, ny])
        subst this
        rw [wy]; exact ⟨vy i hi, (hb i hi).2.1⟩
      · have := uniq f hf fz hfz (by rw [e, nz])
        subst this
        rw [wz]; exact ⟨vz i hi, (hb i hi).2.2⟩) ⟨0, 0, 0⟩
    exact ⟨q, hq, wx ▸ q1 fx hfx nx, wy ▸ q2 fy hfy ny, wz ▸ q3 fz hfz nz⟩
  obtain ⟨ps, hps, hl, hi⟩ := lasLoop_ok c
    (fun i q => Centi q.x (pos i).x ∧ Centi q.y (pos i).y ∧ Centi q.z (pos i).z) (c.height * c.width) 0 step
  rw [Nat.zero_mul] at hps
  refine ⟨ps, ?_, hl, ?_⟩
  · simp only [pcdToLas, if_true, Option.getD_some]
    rw [wrap32_count hn, hps, Outcome.bind_ok, Outcome.pure_eq]
  · intro i h'
    obtain ⟨q, h1, h2⟩ := hi i h'
    rw [Nat.zero_add] at h2
    exact ⟨q, h1, h2⟩

/-- C94 fails for coordinates stored as whole numbers: the file is written without complaint, all its
points at the origin, whatever the data. -/
theorem C94_las_integers_fails (n : Nat) (hn : n < 2 ^ 31) (data : Nat) (f4 f8 : Nat → ℚ) :
    pcdToLas (some ⟨1, n, [⟨['x'], .other, 0⟩, ⟨['y'], .other, 4⟩, ⟨['z'], .other, 8⟩], 12, data, f4, f8⟩) true =
      .ok (0, some (List.replicate n ⟨0, 0, 0⟩)) := by
  have hraw : lasRaw 0 = .ok 0 := by decide +kernel
  have loop : ∀ (k start : Nat),
      lasLoop ⟨1, n, [⟨['x'], .other, 0⟩, ⟨['y'], .other, 4⟩, ⟨['z'], .other, 8⟩], 12, data, f4, f8⟩ k start =
      .ok (List.replicate k ⟨0, 0, 0⟩) := by
    intro k
    induction k with
    | zero => intro start; rfl
    | succ k ih =>
      intro start
      unfold lasLoop
      simp only [lasFields, fieldValue, if_true, Outcome.bind_ok, hraw, ih, Outcome.pure_eq,
        List.replicate_succ]
      rw [if_neg (by decide), if_neg (by decide), if_neg (by decide)]
      rfl
  simp only [pcdToLas, if_true, Option.getD_some]
  rw [wrap32_count (by show 1 * n < 2 ^ 31; omega), loop, Outcome.bind_ok, Outcome.pure_eq]
  show Outcome.ok (0, some (List.replicate (1 * n) _)) = _
  rw [Nat.one_mul]

/-- C94: a cloud of at least one point whose data ends within the number of a coordinate is read past
its end. -/
theorem C94_las_truncated (c : RawCloud) (f : LasField) (fs : List LasField) (hf : c.fields = f :: fs)
    (hx : f.name = ['x'] ∨ f.name = ['y'] ∨ f.name = ['z'])
    (hd : (f.datatype = .float32 ∧ c.dataLength < f.offset + 4) ∨ (f.datatype = .float64 ∧ c.dataLength < f.offset + 8))
    (hn : 1 ≤ c.height * c.width ∧ c.height * c.width < 2 ^ 31) : pcdToLas (some c) true = .ub := by
  have hv : fieldValue c f 0 = .ub := by
    unfold fieldValue
    rcases hd with ⟨h1, h2⟩ | ⟨h1, h2⟩ <;> rw [h1] <;> simp only [] <;> rw [if_neg (by omega)]
  have hl : lasFields c 0 c.fields ⟨0, 0, 0⟩ = .ub := by
    rw [hf]
    rcases hx with h | h | h <;> simp [lasFields, h, hv, Outcome.bind_ub]
  simp only [pcdToLas, if_true, Option.getD_some]
  rw [wrap32_count hn.2]
  obtain ⟨k, hk⟩ : ∃ k, c.height * c.width = k + 1 := ⟨c.height * c.width - 1, by omega⟩
  rw [hk]
  simp only [lasLoop, hl, Outcome.bind_ub]

example : pcdToLas (some ⟨1, 1, [⟨['x'], .float32, 0⟩], 4, 3, fun _ => 1, fun _ => 1⟩) true = .ub :=
  C94_las_truncated _ _ _ rfl (Or.inl rfl) (Or.inl ⟨rfl, by decide⟩) (by decide)

/-- C94: without a cloud the sampler writes nothing and reports a failure. -/
theorem C94_sampler_missing {α : Type} (S : Sampler α) (ratio : ℚ) : pcdSampler S ratio none = .ok (-1, none) := rfl

/-- C94: the converter reports success exactly if it has written a file, and that depends only on whether the file
could be opened. -/
theorem C94_las_report (c : Option RawCloud) (opens : Bool) (code : Int) (out : Option (List (Vec3 Int)))
    (h : pcdToLas c opens = .ok (code, out)) : (code = 0 ↔ out.isSome = true) ∧ (out.isSome = true ↔ opens = true) ∧
      (code = 0 ∨ code = -1) := by
  unfold pcdToLas at h
  cases opens with
  | true =>
    rw [if_pos rfl, Outcome.bind_eq_ok] at h
    obtain ⟨ps, -, h⟩ := h
    cases h
    simp
  | false =>
    rw [if_neg (by simp)] at h
    cases h
    simp

example : pcdToLas none false = .ok (-1, none) := rfl

/-- C94 fails for missing files: an empty LAS file is written and the tool reports success. -/
theorem C94_las_missing_fails : pcdToLas none true = .ok (0, some []) := by decide +kernel

/-- C94 fails for 2^31 points and more: nothing is written. -/
theorem C94_las_many_fails (c : RawCloud) (h : c.height = 2 ^ 16) (w : c.width = 2 ^ 15) :
    pcdToLas (some c) true = .ok (0, some []) := by
  have : (lasCount c).toNat = 0 := by
    unfold lasCount
    rw [h, w]
    decide +kernel
  simp only [pcdToLas, if_true, Option.getD_some, this, lasLoop]
  rfl

/-! Non-vacuity. -/

example : pathStatistic (some [⟨⟨1 / 3, -2, 0⟩, 0⟩, ⟨⟨5, 0, 1 / 2⟩, 1⟩]) true =
    (0, some "0.333333,-2.000000,0.000000,0.000000\n5.000000,0.000000,0.500000,1.000000\n".toList) := by
  decide +kernel

/-- A sampler: the first points. -/
def firstPoints (α : Type) : Sampler α :=
  ⟨fun k l => l.take k, fun k l h => by simp; omega, fun k l => List.take_sublist k l⟩

example : pcdSampler (firstPoints Nat) (toF32 (1 / 5)) (some [1, 2, 3, 4, 5, 6, 7, 8, 9, 10]) =
    .ok (0, some [1, 2]) := by decide +kernel

/-- A cloud of two points with single-precision x and y and a double-precision z. -/
def rawExample : RawCloud :=
  ⟨1, 2, [⟨['x'], .float32, 0⟩, ⟨['y'], .float32, 4⟩, ⟨['z'], .float64, 8⟩, ⟨['r', 'g', 'b'], .other, 16⟩], 20, 40,
    fun a => if a = 0 then 5 / 4 else if a = 4 then -7 else if a = 20 then 100 else 3,
    fun a => if a = 8 then 1 / 200 else 2⟩

example : HasXyz rawExample fun i => if i = 0 then ⟨5 / 4, -7, 1 / 200⟩ else ⟨100, 3, 2⟩ := by
  refine ⟨by decide, by decide, ?_, ?_, ?_⟩
  · refine ⟨⟨['x'], .float32, 0⟩, by simp [rawExample], rfl, Or.inl ⟨rfl, by decide, ?_⟩⟩
    intro i hi
    have : i < 2 := hi
    interval_cases i <;> rfl
  · refine ⟨⟨['y'], .float32, 4⟩, by simp [rawExample], rfl, Or.inl ⟨rfl, by decide, ?_⟩⟩
    intro i hi
    have : i < 2 := hi
    interval_cases i <;> rfl
  · refine ⟨⟨['z'], .float64, 8⟩, by simp [rawExample], rfl, Or.inr ⟨rfl, by decide, ?_⟩⟩
    intro i hi
    have : i < 2 := hi
    interval_cases i <;> rfl

example : pcdToLas (some rawExample) true = .ok (0, some [⟨125, -700, 1⟩, ⟨10000, 300, 200⟩]) := by
  decide +kernel

end Verif
