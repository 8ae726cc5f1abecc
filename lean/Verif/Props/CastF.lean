import Verif.Proofs.CastF
/-! Property theorems C91: ray casting and the static map's insertion with the code's number types. -/
namespace Verif
open Spec

/-- C91 (part): for points up to 2^23 voxels from zero (838 km at the supplied 0.1 m) casting neither
overflows nor stops, and joins the voxels of the two points.  A point can be counted to the voxel above
its own only if it is within one part in 2^24 of its size of the face between them.  Missing: points
just below a face (`C91_face_fails`) and points further away (`C91_wrapped_fails`,
`C91_overflow_fails`). -/
theorem C91_ray_partial (p q : Vec3 Rat) (step : ℚ) (hs : 0 < step) (hp : WithinCells step p) (hq : WithinCells step q) :
    ∃ path a b, voxelCastingF p q step = .ok path ∧ IsRay a b path ∧ NearVoxel a step p ∧
      NearVoxel b step q := by
  obtain ⟨path, a, b, h1, h2, h3, h4, -⟩ := castingF_ok hs hp hq
  exact ⟨path, a, b, h1, h2, h3, h4⟩

/-- C91: away from the faces the result is that of exact arithmetic (C05). -/
theorem C91_exact (p q : Vec3 Rat) (step : ℚ) (hs : 0 < step) (hp : WithinCells step p) (hq : WithinCells step q)
    (px : ClearOfFace step p.x) (py : ClearOfFace step p.y) (pz : ClearOfFace step p.z)
    (qx : ClearOfFace step q.x) (qy : ClearOfFace step q.y) (qz : ClearOfFace step q.z) :
    voxelCastingF p q step = voxelCastingBresenham p q step := by
  apply castingF_exact hs hp hq
  · unfold voxelOf
    rw [floorF_exact hs hp.1 px, floorF_exact hs hp.2.1 py, floorF_exact hs hp.2.2 pz]
  · unfold voxelOf
    rw [floorF_exact hs hq.1 qx, floorF_exact hs hq.2.1 qy, floorF_exact hs hq.2.2 qz]

/-- C91: with a voxel size that is a power of two there is no exception: the voxels of single-precision
points are exact. -/
theorem C91_power_of_two (k : ℤ) (px py pz qx qy qz : ℚ)
    (hp : WithinCells (2 ^ k) ⟨toF32 px, toF32 py, toF32 pz⟩) (hq : WithinCells (2 ^ k) ⟨toF32 qx, toF32 qy, toF32 qz⟩) :
    voxelCastingF ⟨toF32 px, toF32 py, toF32 pz⟩ ⟨toF32 qx, toF32 qy, toF32 qz⟩ (2 ^ k) =
      voxelCastingBresenham ⟨toF32 px, toF32 py, toF32 pz⟩ ⟨toF32 qx, toF32 qy, toF32 qz⟩ (2 ^ k) := by
  apply castingF_exact (by positivity) hp hq
  · unfold voxelOf
    simp only [floorF_pow2]
  · unfold voxelOf
    simp only [floorF_pow2]

/-- The supplied voxel size, as a `float`. -/
def tenth : ℚ := 13421773 / 134217728

example : tenth = toF32 (1 / 10) := by decide +kernel

/-- C91 fails without the exception: at the supplied voxel size the point (1, 0, 0) lies in voxel
(9, 0, 0), since the `float` next to 0.1 is larger than 0.1, and is counted to voxel (10, 0, 0). -/
theorem C91_face_fails : ∃ p : Vec3 Rat, WithinCells tenth p ∧ toF32 p.x = p.x ∧
    voxelCastingF p p tenth = .ok [⟨10, 0, 0⟩] ∧ voxelCastingBresenham p p tenth = .ok [⟨9, 0, 0⟩] := by
  refine ⟨⟨1, 0, 0⟩, ?_, by decide +kernel, by decide +kernel, by decide +kernel⟩
  unfold WithinCells tenth; norm_num

/-- C91 fails for far points: with voxels of 1 cm a point at 50000 km is counted to a voxel 7000 km
from the origin, because the index is cut down to 32 bits. -/
theorem C91_wrapped_fails : ∃ i : Int, voxelCastingF ⟨50000000, 0, 0⟩ ⟨50000000, 0, 0⟩ (toF32 (1 / 100)) = .ok [⟨i, 0, 0⟩] ∧
    (i + 1 : ℚ) * toF32 (1 / 100) < 8000000 := by
  refine ⟨705032704, by decide +kernel, by decide +kernel⟩

/-- C91 fails for far points: a ray of 120000 km through voxels of 5 cm overflows. -/
theorem C91_overflow_fails :
    voxelCastingF ⟨-60000000, 0, 0⟩ ⟨60000000, 0, 0⟩ (toF32 (1 / 20)) = .ub := by decide +kernel

/-- C91 fails for the other caster (C06, not used by the map): the first time an error term stays
negative it is shifted to the left, which C++14 leaves undefined. -/
theorem C91_shift_fails : dda32 ⟨0, 0, 0⟩ ⟨5, 1, 0⟩ = .ub ∧
    bresenham32 ⟨0, 0, 0⟩ ⟨5, 1, 0⟩ = bresenham ⟨0, 0, 0⟩ ⟨5, 1, 0⟩ := by decide

/-- **C91.** The number of a cell is undefined exactly if the quotient, rounded down, does not fit 64 bits; else it
is kept in 32 bits. -/
theorem C91_index (p step : ℚ) :
    (voxelIdxF p step = .ub ↔ toF32 (p / step) < -2 ^ 63 ∨ 2 ^ 63 ≤ toF32 (p / step)) ∧
    (∀ i, voxelIdxF p step = .ok i → -2 ^ 31 ≤ i ∧ i < 2 ^ 31 ∧ ∃ k : Int, ⌊toF32 (p / step)⌋ = i + 2 ^ 32 * k) ∧
    voxelIdxF p step ≠ .abort := by
  have h1 : toF32 (p / step) < -2 ^ 63 ↔ ⌊toF32 (p / step)⌋ < -9223372036854775808 := by
    rw [Int.floor_lt]; norm_num
  have h2 : 2 ^ 63 ≤ toF32 (p / step) ↔ 9223372036854775807 < ⌊toF32 (p / step)⌋ := by
    rw [← Int.add_one_le_iff, Int.le_floor]; norm_num
  rw [h1, h2]
  unfold voxelIdxF
  dsimp only
  generalize ⌊toF32 (p / step)⌋ = q
  split
  · refine ⟨⟨by simp, by omega⟩, fun i hi => ?_, by simp⟩
    rw [Outcome.ok.injEq] at hi
    subst hi
    unfold wrap32
    exact ⟨by omega, by omega, (q + 2147483648) / 4294967296, by omega⟩
  · exact ⟨⟨fun _ => by omega, fun _ => rfl⟩, by simp, by simp⟩

/-- **C91.** The other way of casting a ray (`VoxelCastingDDA`): whatever it returns is a ray, whole and without
gaps, if the cells are less than 2^29 apart. -/
theorem C91_dda_partial (a b : Voxel) (hd : chebyshev a b < 2 ^ 29) (path : List Voxel) (h : dda32 a b = .ok path) :
    IsRay a b path := dda32_isRay a b hd path h

/-- **C91.** It is defined along an axis, along a diagonal, and for every ray that goes at least half as far in one
direction as in any other, or not at all. -/
theorem C91_dda_defined (a b : Voxel) (hd : chebyshev a b < 2 ^ 29)
    (ha : (-2 ^ 31 ≤ a.x ∧ a.x < 2 ^ 31) ∧ (-2 ^ 31 ≤ a.y ∧ a.y < 2 ^ 31) ∧ (-2 ^ 31 ≤ a.z ∧ a.z < 2 ^ 31))
    (hb : (-2 ^ 31 ≤ b.x ∧ b.x < 2 ^ 31) ∧ (-2 ^ 31 ≤ b.y ∧ b.y < 2 ^ 31) ∧ (-2 ^ 31 ≤ b.z ∧ b.z < 2 ^ 31))
    (hx : a.x = b.x ∨ chebyshev a b ≤ 2 * (b.x - a.x).natAbs) (hy : a.y = b.y ∨ chebyshev a b ≤ 2 * (b.y - a.y).natAbs)
    (hz : a.z = b.z ∨ chebyshev a b ≤ 2 * (b.z - a.z).natAbs) : ∃ path, dda32 a b = .ok path ∧ IsRay a b path :=
  dda32_defined a b hd (by unfold voxelFits; omega) (by unfold voxelFits; omega) hx hy hz

example : dda32 ⟨0, 0, 0⟩ ⟨3, -2, 0⟩ = .ok [⟨0, 0, 0⟩, ⟨1, -1, 0⟩, ⟨2, -1, 0⟩, ⟨3, -2, 0⟩] := by decide

/-- C91: no integer of a ray overflows as long as its length does not. -/
theorem C91_no_overflow (a b : Voxel)
    (ha : (-2147483648 ≤ a.x ∧ a.x ≤ 2147483647) ∧ (-2147483648 ≤ a.y ∧ a.y ≤ 2147483647) ∧
      (-2147483648 ≤ a.z ∧ a.z ≤ 2147483647))
    (hb : (-2147483648 ≤ b.x ∧ b.x ≤ 2147483647) ∧ (-2147483648 ≤ b.y ∧ b.y ≤ 2147483647) ∧
      (-2147483648 ≤ b.z ∧ b.z ≤ 2147483647)) (hd : chebyshev a b < 2147483647) :
    ∃ path, bresenham32 a b = .ok path ∧ IsRay a b path := by
  rw [bresenham32_eq ha hb hd]; exact bresenham_isRay a b

/-- C91: after any insertions into an empty map that end normally, every stored point is in the voxel
it is stored under, up to the rounding of its lower face. -/
theorem C91_stored (cfg : MrvmCfg) (hr : 0 < cfg.resolution)
    (cs : List (Option (List (InnerPoint Rat)) × Vec3 Rat)) {m : VMap}
    (h : insertCloudsF cfg (fun _ => none) cs = .ok m) (v : Voxel) (c : Cell) (hv : m v = some c)
    (p : InnerPoint Rat) (hp : p ∈ c.points) (hw : WithinCells cfg.resolution ⟨p.x, p.y, p.z⟩) :
    NearVoxel v cfg.resolution ⟨p.x, p.y, p.z⟩ := by
  have h1 := insertCloudsF_placed cs (fun v c h => by simp at h) h v c hv p hp
  obtain ⟨w, h2, h3, -⟩ := voxelOfF_ok hr hw
  rw [h1, Outcome.ok.injEq] at h2
  exact h2 ▸ h3

/-- C91 (part): inserting clouds whose points and origins are within 2^23 voxels and shorter than
10^8 m never stops and is never undefined. -/
theorem C91_defined_partial (cfg : MrvmCfg) (hr : 0 < cfg.resolution) (m : VMap)
    (cs : List (Option (List (InnerPoint Rat)) × Vec3 Rat))
    (ho : ∀ c ∈ cs, WithinCells cfg.resolution { c.2 with z := toF32 (c.2.z + cfg.zOffset) })
    (hp : ∀ c ∈ cs, ∀ ps, c.1 = some ps → ∀ p ∈ ps, WithinCells cfg.resolution ⟨p.x, p.y, p.z⟩ ∧
      p.x * p.x + p.y * p.y + p.z * p.z < 100000000 ^ 2) :
    ∃ m', insertCloudsF cfg m cs = .ok m' := by
  induction cs generalizing m with
  | nil => exact ⟨m, rfl⟩
  | cons c cs ih =>
    have : ∃ t, insertCloudF cfg m c.1 c.2 = .ok t := by
      unfold insertCloudF
      cases hc : c.1 with
      | none => exact ⟨m, rfl⟩
      | some ps =>
        simp only []
        split
        · exact ⟨m, rfl⟩
        · obtain ⟨s, hs⟩ := insertPointsF_ok hr (ho c (List.mem_cons_self ..)) ps (m, [])
            (hp c (List.mem_cons_self ..) ps hc)
          rw [hs]; exact ⟨_, rfl⟩
    obtain ⟨t, ht⟩ := this
    obtain ⟨m', hm'⟩ := ih t (fun d hd => ho d (List.mem_cons_of_mem _ hd))
      (fun d hd => hp d (List.mem_cons_of_mem _ hd))
    exact ⟨m', by simp only [insertCloudsF, ht, Outcome.bind_ok, hm']⟩

/-- C91: if no coordinate is just below a face, the map is the one of exact arithmetic, so C25, C26, C53
and C90 hold of it. -/
theorem C91_map_exact (cfg : MrvmCfg) (hr : 0 < cfg.resolution) (m : VMap)
    (cs : List (Option (List (InnerPoint Rat)) × Vec3 Rat))
    (ho : ∀ c ∈ cs, toF32 (c.2.z + cfg.zOffset) = c.2.z + cfg.zOffset ∧
      WithinCells cfg.resolution { c.2 with z := c.2.z + cfg.zOffset } ∧ ClearOfFace cfg.resolution c.2.x ∧
      ClearOfFace cfg.resolution c.2.y ∧ ClearOfFace cfg.resolution (c.2.z + cfg.zOffset))
    (hp : ∀ c ∈ cs, ∀ ps, c.1 = some ps → ∀ p ∈ ps, WithinCells cfg.resolution ⟨p.x, p.y, p.z⟩ ∧
      (ClearOfFace cfg.resolution p.x ∧ ClearOfFace cfg.resolution p.y ∧ ClearOfFace cfg.resolution p.z) ∧
      p.x * p.x + p.y * p.y + p.z * p.z < 100000000 ^ 2) :
    insertCloudsF cfg m cs = insertClouds cfg m cs := by
  induction cs generalizing m with
  | nil => rfl
  | cons c cs ih =>
    simp only [insertCloudsF, insertClouds]
    have : insertCloudF cfg m c.1 c.2 = insertCloud cfg m c.1 c.2 := by
      unfold insertCloudF insertCloud
      cases hc : c.1 with
      | none => rfl
      | some ps =>
        obtain ⟨h1, h2, h3, h4, h5⟩ := ho c (List.mem_cons_self ..)
        simp only [h1]
        rw [insertPointsF_eq ps (m, []) (fun p hpm => ?_)]
        obtain ⟨w, ⟨cx, cy, cz⟩, l⟩ := hp c (List.mem_cons_self ..) ps hc p hpm
        exact ⟨C91_exact _ _ _ hr h2 w h3 h4 h5 cx cy cz, l⟩
    rw [this]
    congr 1
    funext t
    exact ih t (fun d hd => ho d (List.mem_cons_of_mem _ hd))
      (fun d hd => hp d (List.mem_cons_of_mem _ hd))

/-- C91 fails for far points: the length of a point is looked at only if its voxel has room.  A point at
429000 km, cut down to voxel (0, 0, 0), is counted as a hit there once that voxel is full. -/
theorem C91_full_voxel_fails :
    ∃ (cfg : MrvmCfg) (near far : InnerPoint Rat) (s : VMap × List Voxel), ¬ shortPoint far ∧
      insertPointsF cfg ⟨0, 0, 0⟩ (fun _ => none, []) [near, far] = .ok s ∧
      s.2 = [⟨0, 0, 0⟩, ⟨0, 0, 0⟩] := by
  have h : (match insertPointsF ⟨1, 11 / 20, 12 / 25, tenth, 0, false, true⟩ ⟨0, 0, 0⟩ (fun _ => none, [])
      [⟨1 / 32, 0, 0, 1, 0⟩, ⟨4294967296 * tenth, 0, 0, 1, 0⟩] with
      | .ok s => decide (s.2 = [⟨0, 0, 0⟩, ⟨0, 0, 0⟩]) | _ => false) = true := by decide +kernel
  cases hs : insertPointsF ⟨1, 11 / 20, 12 / 25, tenth, 0, false, true⟩ ⟨0, 0, 0⟩ (fun _ => none, [])
      [⟨1 / 32, 0, 0, 1, 0⟩, ⟨4294967296 * tenth, 0, 0, 1, 0⟩] with
  | ok s =>
    rw [hs] at h
    exact ⟨_, _, _, s, by decide +kernel, hs, of_decide_eq_true h⟩
  | abort => rw [hs] at h; cases h
  | ub => rw [hs] at h; cases h

-- the hypotheses are met by ordinary points
example : WithinCells tenth ⟨12.5, -7.25, 1.5⟩ := by unfold WithinCells tenth; norm_num
example : voxelCastingF ⟨1 / 4, 0, 13 / 8⟩ ⟨9 / 16, -1 / 16, 13 / 8⟩ tenth =
    .ok [⟨2, 0, 16⟩, ⟨3, 0, 16⟩, ⟨4, -1, 16⟩, ⟨5, -1, 16⟩] := by decide +kernel
theorem tenth_clear : ClearOfFace tenth (25 / 4) := by
  intro i h
  have h2 : (62 : ℚ) < i := by
    by_contra hc
    push Not at hc
    unfold tenth at h
    linarith
  have h3 : (63 : ℚ) ≤ i := by exact_mod_cast (by exact_mod_cast h2 : (62 : ℤ) < i)
  rw [abs_of_pos (by norm_num)]
  unfold tenth
  nlinarith
example : ∃ m, insertCloudsF ⟨1, 11 / 20, 12 / 25, tenth, 0, false, true⟩ (fun _ => none)
    [(some [⟨1, 2, 3, 0, 0⟩], ⟨0, 0, 1⟩)] = .ok m :=
  C91_defined_partial _ (by norm_num [tenth]) _ _
    (by
      intro c hc
      rw [List.mem_singleton] at hc
      subst hc
      have : toF32 (1 + 0 : ℚ) = 1 := by decide +kernel
      simp only [this]
      unfold WithinCells tenth; norm_num)
    (by
      intro c hc ps hps p hp
      rw [List.mem_singleton] at hc
      subst hc
      simp only [Option.some.injEq] at hps
      subst hps
      rw [List.mem_singleton] at hp
      subst hp
      unfold WithinCells tenth; norm_num)

end Verif
