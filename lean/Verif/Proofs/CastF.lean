import Verif.Model.CastF
import Verif.Spec.CastF
import Verif.Proofs.Floats
import Verif.Proofs.VoxelCasting
import Verif.Proofs.Mrvm
namespace Verif
open Spec

theorem int32_ok {z : Int} (h1 : -2147483648 ≤ z) (h2 : z ≤ 2147483647) : int32 z = .ok z :=
  if_pos ⟨h1, h2⟩

theorem wrap32_id {z : Int} (h1 : -2147483648 ≤ z) (h2 : z ≤ 2147483647) : wrap32 z = z := by
  unfold wrap32; omega

/-! ### the index of a coordinate -/

theorem floorF_lt {q : ℚ} (h : |q| ≤ 2 ^ 23) : q < (⌊toF32 q⌋ : ℚ) + 1 := by
  by_contra hc
  push Not at hc
  have ha := abs_le.mp h
  have hfl := Int.lt_floor_add_one (toF32 q)
  have h1 : |toF32 q| ≤ 2 ^ 23 + 1 := by
    have e := flRound_err 24 q
    have := abs_sub_abs_le_abs_sub (toF32 q) q
    unfold toF32 at *
    have : |q| / 2 ^ 24 ≤ 1 := by rw [div_le_one (by norm_num)]; linarith
    linarith
  have h2 := abs_le.mp h1
  have hi : |⌊toF32 q⌋ + 1| ≤ (2 : ℤ) ^ 24 := by
    have a1 : (⌊toF32 q⌋ : ℚ) ≤ 2 ^ 23 + 1 := le_trans (Int.floor_le _) h2.2
    have a2 : -(2 ^ 23 + 1 : ℤ) ≤ ⌊toF32 q⌋ := by
      rw [Int.le_floor]; push_cast; linarith
    have a3 : ⌊toF32 q⌋ ≤ (2 ^ 23 + 1 : ℤ) := by exact_mod_cast a1
    rw [abs_le]; constructor <;> omega
  have e := flRound_int 24 (by norm_num) (⌊toF32 q⌋ + 1) hi
  have m := flRound_mono 24 (by norm_num) hc
  push_cast at e
  rw [e] at m
  unfold toF32 at *
  linarith

theorem floorF_le (q : ℚ) : (⌊toF32 q⌋ : ℚ) ≤ q + |q| / 2 ^ 24 := by
  have h1 := Int.floor_le (toF32 q)
  have h2 := (abs_le.mp (flRound_err 24 q)).2
  unfold toF32 at *
  linarith

theorem floorF_range {q : ℚ} (h : |q| ≤ 2 ^ 23) : -8388609 ≤ ⌊toF32 q⌋ ∧ ⌊toF32 q⌋ ≤ 8388609 := by
  have ha := abs_le.mp h
  have h1 := floorF_lt h
  have h2 := floorF_le q
  have h3 : |q| / 2 ^ 24 ≤ 1 := by rw [div_le_one (by norm_num)]; linarith
  constructor
  · have : (-8388609 : ℚ) ≤ ⌊toF32 q⌋ := by norm_num at *; linarith
    exact_mod_cast this
  · have : (⌊toF32 q⌋ : ℚ) ≤ 8388609 := by norm_num at *; linarith
    exact_mod_cast this

theorem voxelIdxF_ok {p step : ℚ} (hs : 0 < step) (h : |p| ≤ 2 ^ 23 * step) :
    ∃ i, voxelIdxF p step = .ok i ∧ NearCell i step p ∧ -8388609 ≤ i ∧ i ≤ 8388609 ∧
      i = ⌊toF32 (p / step)⌋ := by
  have hq : |p / step| ≤ 2 ^ 23 := by
    rw [abs_div, abs_of_pos hs, div_le_iff₀ hs]; exact h
  have hr := floorF_range hq
  refine ⟨⌊toF32 (p / step)⌋, ?_, ⟨?_, ?_⟩, hr.1, hr.2, rfl⟩
  · unfold voxelIdxF
    simp only []
    rw [if_pos (by omega), wrap32_id (by omega) (by omega)]
  · have h1 := floorF_le (p / step)
    have h2 := mul_le_mul_of_nonneg_right h1 hs.le
    have e : (p / step + |p / step| / 2 ^ 24) * step = p + |p| / 2 ^ 24 := by
      rw [abs_div, abs_of_pos hs]; field_simp
    rw [e] at h2; linarith
  · have h1 := floorF_lt hq
    rw [div_lt_iff₀ hs] at h1
    exact h1

/-- Clear of the faces, the computed index is the exact one. -/
theorem floorF_exact {p step : ℚ} (hs : 0 < step) (h : |p| ≤ 2 ^ 23 * step) (hc : ClearOfFace step p) :
    ⌊toF32 (p / step)⌋ = (p / step).floor := by
  obtain ⟨i, -, ⟨h1, h2⟩, -, -, e⟩ := voxelIdxF_ok hs h
  obtain ⟨b1, b2⟩ := voxel_bounds hs p
  rw [← e]
  generalize (p / step).floor = j at b1 b2
  have l : i ≤ j := by
    by_contra hn
    have hji : (j : ℚ) + 1 ≤ i := by exact_mod_cast (by omega : j + 1 ≤ i)
    have h3 := hc (j + 1) (by push_cast; exact b2)
    push_cast at h3
    have := mul_le_mul_of_nonneg_right hji hs.le
    linarith
  have g : j ≤ i := by
    by_contra hn
    have hij : (i : ℚ) + 1 ≤ j := by exact_mod_cast (by omega : i + 1 ≤ j)
    have := mul_le_mul_of_nonneg_right hij hs.le
    linarith
  omega

theorem voxelOfF_ok {p : Vec3 Rat} {step : ℚ} (hs : 0 < step) (h : WithinCells step p) :
    ∃ v, voxelOfF p step = .ok v ∧ NearVoxel v step p ∧ (-8388609 ≤ v.x ∧ v.x ≤ 8388609) ∧
      (-8388609 ≤ v.y ∧ v.y ≤ 8388609) ∧ (-8388609 ≤ v.z ∧ v.z ≤ 8388609) ∧
      v = ⟨⌊toF32 (p.x / step)⌋, ⌊toF32 (p.y / step)⌋, ⌊toF32 (p.z / step)⌋⟩ := by
  obtain ⟨x, ex, nx, x1, x2, fx⟩ := voxelIdxF_ok hs h.1
  obtain ⟨y, ey, ny, y1, y2, fy⟩ := voxelIdxF_ok hs h.2.1
  obtain ⟨z, ez, nz, z1, z2, fz⟩ := voxelIdxF_ok hs h.2.2
  refine ⟨⟨x, y, z⟩, ?_, ⟨nx, ny, nz⟩, ⟨x1, x2⟩, ⟨y1, y2⟩, ⟨z1, z2⟩, by rw [← fx, ← fy, ← fz]⟩
  unfold voxelOfF
  rw [ex, ey, ez]; rfl

/-! ### the loop with checked integers -/

theorem bresAxis32_eq {d dm s : Int} {a : Int × Int} (hd : 0 ≤ d) (hdm : d ≤ dm) (hm : dm ≤ 2147483647)
    (h0 : 0 ≤ a.1) (h1 : a.1 ≤ dm) (hp : -2147483648 ≤ (bresAxis d dm s a).2 ∧ (bresAxis d dm s a).2 ≤ 2147483647) :
    bresAxis32 d dm s a = .ok (bresAxis d dm s a) ∧ 0 ≤ (bresAxis d dm s a).1 ∧ (bresAxis d dm s a).1 ≤ dm := by
  unfold bresAxis32 bresAxis at *
  rw [int32_ok (by omega) (by omega)]
  simp only [Outcome.bind_ok] at *
  split at hp <;> rename_i hneg
  · rw [if_pos hneg, if_pos hneg, int32_ok (by omega) (by omega)]
    simp only [Outcome.bind_ok]
    rw [int32_ok hp.1 hp.2]
    exact ⟨rfl, by omega, by omega⟩
  · rw [if_neg hneg, if_neg hneg]
    exact ⟨rfl, by omega, by omega⟩

def voxelFits (v : Voxel) : Prop :=
  (-2147483648 ≤ v.x ∧ v.x ≤ 2147483647) ∧ (-2147483648 ≤ v.y ∧ v.y ≤ 2147483647) ∧
  (-2147483648 ≤ v.z ∧ v.z ≤ 2147483647)

theorem bresLoop32_eq {d : Voxel} {dm : Int} {s : Voxel} (hm : dm ≤ 2147483647)
    (hx : 0 ≤ d.x ∧ d.x ≤ dm) (hy : 0 ≤ d.y ∧ d.y ≤ dm) (hz : 0 ≤ d.z ∧ d.z ≤ dm) (i : Nat)
    {ax ay az : Int × Int} (ex : 0 ≤ ax.1 ∧ ax.1 ≤ dm) (ey : 0 ≤ ay.1 ∧ ay.1 ≤ dm)
    (ez : 0 ≤ az.1 ∧ az.1 ≤ dm) (hf : ∀ v ∈ (bresLoop d dm s i ax ay az).1, voxelFits v) :
    bresLoop32 d dm s i ax ay az = .ok (bresLoop d dm s i ax ay az) := by
  induction i generalizing ax ay az with
  | zero => rfl
  | succ i ih =>
    simp only [bresLoop, List.mem_cons] at hf
    have hin : (⟨(bresAxis d.x dm s.x ax).2, (bresAxis d.y dm s.y ay).2, (bresAxis d.z dm s.z az).2⟩ : Voxel)
        ∈ (bresLoop d dm s i (bresAxis d.x dm s.x ax) (bresAxis d.y dm s.y ay)
          (bresAxis d.z dm s.z az)).1 := by
      cases i <;> simp [bresLoop]
    obtain ⟨fx, fy, fz⟩ := hf _ (Or.inr hin)
    obtain ⟨e1, l1, u1⟩ := bresAxis32_eq hx.1 hx.2 hm ex.1 ex.2 fx
    obtain ⟨e2, l2, u2⟩ := bresAxis32_eq hy.1 hy.2 hm ey.1 ey.2 fy
    obtain ⟨e3, l3, u3⟩ := bresAxis32_eq hz.1 hz.2 hm ez.1 ez.2 fz
    have := ih ⟨l1, u1⟩ ⟨l2, u2⟩ ⟨l3, u3⟩ (fun v hv => hf v (Or.inr hv))
    simp only [bresLoop32, e1, e2, e3, Outcome.bind_ok, this, bresLoop, Outcome.pure_eq]

theorem absDiff32_ok {a b : Int} (h1 : -2147483647 ≤ b - a) (h2 : b - a ≤ 2147483647) :
    absDiff32 a b = .ok ((b - a).natAbs : Int) := by
  unfold absDiff32
  rw [int32_ok (by omega) h2]
  simp only [Outcome.bind_ok]
  rw [int32_ok (by omega) (by omega)]

theorem between_fits {a p b : Int} (h : Between a p b) (ha : -2147483648 ≤ a ∧ a ≤ 2147483647)
    (hb : -2147483648 ≤ b ∧ b ≤ 2147483647) : -2147483648 ≤ p ∧ p ≤ 2147483647 := by
  unfold Between at h; omega

/-- Between voxels whose distance is an `int` smaller than the largest, no operation overflows. -/
theorem bresenham32_eq {v0 v1 : Voxel} (h0 : voxelFits v0) (h1 : voxelFits v1)
    (hd : chebyshev v0 v1 < 2147483647) : bresenham32 v0 v1 = bresenham v0 v1 := by
  obtain ⟨path, hp, hr⟩ := bresenham_isRay v0 v1
  have mx : (v1.x - v0.x).natAbs ≤ chebyshev v0 v1 := by unfold chebyshev; omega
  have my : (v1.y - v0.y).natAbs ≤ chebyshev v0 v1 := by unfold chebyshev; omega
  have mz : (v1.z - v0.z).natAbs ≤ chebyshev v0 v1 := by unfold chebyshev; omega
  have hdm : max (max ((v1.x - v0.x).natAbs : Int) (v1.y - v0.y).natAbs) (v1.z - v0.z).natAbs
      = (chebyshev v0 v1 : Int) := by unfold chebyshev; omega
  have hpath : ∀ v ∈ path, voxelFits v := fun v hv =>
    ⟨between_fits (hr.inBox v hv).1 h0.1 h1.1, between_fits (hr.inBox v hv).2.1 h0.2.1 h1.2.1,
      between_fits (hr.inBox v hv).2.2 h0.2.2 h1.2.2⟩
  unfold bresenham32
  rw [absDiff32_ok (by omega) (by omega), absDiff32_ok (by omega) (by omega),
    absDiff32_ok (by omega) (by omega)]
  unfold bresenham at hp ⊢
  simp only [Outcome.bind_ok] at hp ⊢
  rw [hdm] at hp ⊢
  rw [int32_ok (by omega) (by omega)]
  simp only [Outcome.bind_ok]
  simp only [Outcome.check_bind_eq_ok, Outcome.pure_eq, Outcome.ok.injEq] at hp
  have hl := hp.2.2.2
  rw [bresLoop32_eq (by omega) (by simp only []; omega) (by simp only []; omega)
    (by simp only []; omega) _ (by simp only []; omega) (by simp only []; omega)
    (by simp only []; omega) (by rw [hl]; exact hpath)]
  rfl

/-! ### the other caster -/

theorem int32_eq_ok {z r : Int} (h : int32 z = .ok r) : r = z := by
  unfold int32 at h
  split at h
  · exact (Outcome.ok.inj h).symm
  · cases h

theorem ddaAxis32_of_ok {d dm s : Int} {a r : Int × Int} (hs : a.1 + d < 2 ^ 30) (h : ddaAxis32 d dm s a = .ok r) :
    r = ddaAxis d dm s a := by
  unfold ddaAxis32 at h
  obtain ⟨e, he, h⟩ := (Outcome.bind_eq_ok ..).mp h
  have := int32_eq_ok he
  subst this
  obtain ⟨e2, he2, h⟩ := (Outcome.bind_eq_ok ..).mp h
  have e2e : e2 = 2 * (a.1 + d) := by
    unfold shl1 at he2
    split at he2
    · cases he2
    · rw [if_pos (by omega)] at he2
      exact (Outcome.ok.inj he2).symm
  subst e2e
  unfold ddaAxis
  dsimp only
  split at h <;> rename_i hc
  · rw [if_pos hc]
    obtain ⟨q, hq, h⟩ := (Outcome.bind_eq_ok ..).mp h
    obtain ⟨e', he', h⟩ := (Outcome.bind_eq_ok ..).mp h
    rw [int32_eq_ok hq, int32_eq_ok he'] at h
    exact (Outcome.ok.inj h).symm
  · rw [if_neg hc]
    exact (Outcome.ok.inj h).symm

theorem ddaAxis_small {d dm s : Int} {a : Int × Int} (hd : d ≤ dm) (ha : 2 * a.1 ≤ dm) :
    2 * (ddaAxis d dm s a).1 ≤ dm := by
  unfold ddaAxis
  dsimp only
  split <;> dsimp only <;> omega

theorem ddaLoop32_of_ok {d : Voxel} {dm : Int} {s : Voxel} (hm : dm < 2 ^ 29) (hx : d.x ≤ dm) (hy : d.y ≤ dm) (hz : d.z ≤ dm)
    (i : Nat) {ax ay az : Int × Int} (ex : 2 * ax.1 ≤ dm) (ey : 2 * ay.1 ≤ dm) (ez : 2 * az.1 ≤ dm)
    {r : List Voxel × Voxel} (h : ddaLoop32 d dm s i ax ay az = .ok r) : r = ddaLoop d dm s i ax ay az := by
  induction i generalizing ax ay az r with
  | zero => exact (Outcome.ok.inj h).symm
  | succ i ih =>
    unfold ddaLoop32 at h
    obtain ⟨bx, h1, h⟩ := (Outcome.bind_eq_ok ..).mp h
    obtain ⟨by', h2, h⟩ := (Outcome.bind_eq_ok ..).mp h
    obtain ⟨bz, h3, h⟩ := (Outcome.bind_eq_ok ..).mp h
    obtain ⟨r', h4, h⟩ := (Outcome.bind_eq_ok ..).mp h
    have e1 := ddaAxis32_of_ok (by omega) h1
    have e2 := ddaAxis32_of_ok (by omega) h2
    have e3 := ddaAxis32_of_ok (by omega) h3
    subst e1 e2 e3
    have := ih (ddaAxis_small hx ex) (ddaAxis_small hy ey) (ddaAxis_small hz ez) h4
    subst this
    exact (Outcome.ok.inj h).symm

theorem absDiff32_of_ok {a b r : Int} (h : absDiff32 a b = .ok r) : r = ((b - a).natAbs : Int) := by
  unfold absDiff32 at h
  obtain ⟨d, hd, h⟩ := (Outcome.bind_eq_ok ..).mp h
  rw [int32_eq_ok h, int32_eq_ok hd]

/-- `dda` with the values used by `dda32`. -/
theorem dda_alt (v0 v1 : Voxel) : dda v0 v1 = (do
    let r := ddaLoop ⟨(v1.x - v0.x).natAbs, (v1.y - v0.y).natAbs, (v1.z - v0.z).natAbs⟩ (chebyshev v0 v1)
      ⟨if v0.x ≤ v1.x then 1 else -1, if v0.y ≤ v1.y then 1 else -1, if v0.z ≤ v1.z then 1 else -1⟩
      (chebyshev v0 v1) (0, v0.x) (0, v0.y) (0, v0.z)
    Outcome.check (r.2 = v1)
    return r.1) := by
  have eabs : ∀ t : Int, (if t < 0 then -t else t) = (t.natAbs : Int) := by
    intro t; split <;> omega
  have esig : ∀ a b : Int, (if b - a ≥ 0 then (1 : Int) else -1) = if a ≤ b then 1 else -1 := by
    intro a b; split <;> split <;> omega
  have hdm : (if (if ((v1.x - v0.x).natAbs : Int) > (v1.y - v0.y).natAbs
        then ((v1.x - v0.x).natAbs : Int) else (v1.y - v0.y).natAbs) > (v1.z - v0.z).natAbs
      then (if ((v1.x - v0.x).natAbs : Int) > (v1.y - v0.y).natAbs
        then ((v1.x - v0.x).natAbs : Int) else (v1.y - v0.y).natAbs)
      else ((v1.z - v0.z).natAbs : Int)) = (chebyshev v0 v1 : Int) := by
    unfold chebyshev
    split <;> split <;> omega
  unfold dda
  dsimp only
  simp only [eabs, esig]
  rw [hdm, Int.toNat_natCast]

theorem dda32_isRay (a b : Voxel) (hd : chebyshev a b < 2 ^ 29) (path : List Voxel) (h : dda32 a b = .ok path) :
    IsRay a b path := by
  obtain ⟨p, hp, hr⟩ := dda_isRay a b
  rw [dda_alt] at hp
  unfold dda32 at h
  obtain ⟨dx, h1, h⟩ := (Outcome.bind_eq_ok ..).mp h
  obtain ⟨dy, h2, h⟩ := (Outcome.bind_eq_ok ..).mp h
  obtain ⟨dz, h3, h⟩ := (Outcome.bind_eq_ok ..).mp h
  have e1 := absDiff32_of_ok h1
  have e2 := absDiff32_of_ok h2
  have e3 := absDiff32_of_ok h3
  subst e1 e2 e3
  have hdm : max (max ((b.x - a.x).natAbs : Int) (b.y - a.y).natAbs) (b.z - a.z).natAbs
      = (chebyshev a b : Int) := by unfold chebyshev; omega
  have mx : (b.x - a.x).natAbs ≤ chebyshev a b := by unfold chebyshev; omega
  have my : (b.y - a.y).natAbs ≤ chebyshev a b := by unfold chebyshev; omega
  have mz : (b.z - a.z).natAbs ≤ chebyshev a b := by unfold chebyshev; omega
  dsimp only at h
  rw [hdm, Int.toNat_natCast] at h
  obtain ⟨_, _, h⟩ := (Outcome.bind_eq_ok ..).mp h
  obtain ⟨r, h4, h⟩ := (Outcome.bind_eq_ok ..).mp h
  have := ddaLoop32_of_ok (by omega) (by simp only []; omega) (by simp only []; omega) (by simp only []; omega) _
    (by simp only []; omega) (by simp only []; omega) (by simp only []; omega) h4
  subst this
  have : path = p := by
    rw [Outcome.check_bind_eq_ok] at h hp
    rw [← Outcome.ok.injEq, ← hp.2]
    exact h.2.symm
  rw [this]
  exact hr

theorem ddaAxis32_eq {d dm s : Int} {a : Int × Int} (hd : d = 0 ∨ dm ≤ 2 * d) (hd0 : 0 ≤ d) (hdm : d ≤ dm)
    (hm : dm < 2 ^ 29) (h0 : d = 0 ∧ a.1 = 0 ∧ 0 < dm ∨ dm ≤ 2 * d ∧ -d ≤ a.1) (h1 : 2 * a.1 ≤ dm)
    (hp : -2147483648 ≤ (ddaAxis d dm s a).2 ∧ (ddaAxis d dm s a).2 ≤ 2147483647) :
    ddaAxis32 d dm s a = .ok (ddaAxis d dm s a) ∧
      (d = 0 ∧ (ddaAxis d dm s a).1 = 0 ∧ 0 < dm ∨ dm ≤ 2 * d ∧ -d ≤ (ddaAxis d dm s a).1) := by
  unfold ddaAxis32
  rw [int32_ok (by omega) (by omega)]
  simp only [Outcome.bind_ok]
  have : shl1 (a.1 + d) = .ok (2 * (a.1 + d)) := by
    unfold shl1
    rw [if_neg (by omega), if_pos (by omega)]
  rw [this]
  unfold ddaAxis at *
  simp only [Outcome.bind_ok] at *
  split at hp <;> rename_i hc
  · rw [if_pos hc, if_pos hc, int32_ok hp.1 hp.2]
    simp only [Outcome.bind_ok]
    rw [int32_ok (by omega) (by omega)]
    exact ⟨rfl, by omega⟩
  · rw [if_neg hc, if_neg hc]
    exact ⟨rfl, by omega⟩

theorem ddaLoop32_eq {d : Voxel} {dm : Int} {s : Voxel} (hm : dm < 2 ^ 29)
    (dx : d.x = 0 ∨ dm ≤ 2 * d.x) (dy : d.y = 0 ∨ dm ≤ 2 * d.y) (dz : d.z = 0 ∨ dm ≤ 2 * d.z)
    (hx : 0 ≤ d.x ∧ d.x ≤ dm) (hy : 0 ≤ d.y ∧ d.y ≤ dm) (hz : 0 ≤ d.z ∧ d.z ≤ dm) (i : Nat)
    {ax ay az : Int × Int} (ex : d.x = 0 ∧ ax.1 = 0 ∧ 0 < dm ∨ dm ≤ 2 * d.x ∧ -d.x ≤ ax.1)
    (ey : d.y = 0 ∧ ay.1 = 0 ∧ 0 < dm ∨ dm ≤ 2 * d.y ∧ -d.y ≤ ay.1)
    (ez : d.z = 0 ∧ az.1 = 0 ∧ 0 < dm ∨ dm ≤ 2 * d.z ∧ -d.z ≤ az.1)
    (fx : 2 * ax.1 ≤ dm) (fy : 2 * ay.1 ≤ dm) (fz : 2 * az.1 ≤ dm)
    (hf : ∀ v ∈ (ddaLoop d dm s i ax ay az).1, voxelFits v) :
    ddaLoop32 d dm s i ax ay az = .ok (ddaLoop d dm s i ax ay az) := by
  induction i generalizing ax ay az with
  | zero => rfl
  | succ i ih =>
    simp only [ddaLoop, List.mem_cons] at hf
    have hin : (⟨(ddaAxis d.x dm s.x ax).2, (ddaAxis d.y dm s.y ay).2, (ddaAxis d.z dm s.z az).2⟩ : Voxel)
        ∈ (ddaLoop d dm s i (ddaAxis d.x dm s.x ax) (ddaAxis d.y dm s.y ay)
          (ddaAxis d.z dm s.z az)).1 := by
      cases i <;> simp [ddaLoop]
    obtain ⟨gx, gy, gz⟩ := hf _ (Or.inr hin)
    obtain ⟨e1, l1⟩ := ddaAxis32_eq dx hx.1 hx.2 hm ex fx gx
    obtain ⟨e2, l2⟩ := ddaAxis32_eq dy hy.1 hy.2 hm ey fy gy
    obtain ⟨e3, l3⟩ := ddaAxis32_eq dz hz.1 hz.2 hm ez fz gz
    have := ih l1 l2 l3 (ddaAxis_small hx.2 fx) (ddaAxis_small hy.2 fy) (ddaAxis_small hz.2 fz)
      (fun v hv => hf v (Or.inr hv))
    simp only [ddaLoop32, e1, e2, e3, Outcome.bind_ok, this, ddaLoop, Outcome.pure_eq]

theorem dda32_defined (a b : Voxel) (hd : chebyshev a b < 2 ^ 29) (h0 : voxelFits a) (h1 : voxelFits b)
    (hx : a.x = b.x ∨ chebyshev a b ≤ 2 * (b.x - a.x).natAbs) (hy : a.y = b.y ∨ chebyshev a b ≤ 2 * (b.y - a.y).natAbs)
    (hz : a.z = b.z ∨ chebyshev a b ≤ 2 * (b.z - a.z).natAbs) : ∃ path, dda32 a b = .ok path ∧ IsRay a b path := by
  obtain ⟨p, hp, hr⟩ := dda_isRay a b
  refine ⟨p, ?_, hr⟩
  rw [dda_alt] at hp
  dsimp only at hp
  rw [Outcome.check_bind_eq_ok] at hp
  have hl : (ddaLoop _ _ _ _ _ _ _).1 = p := Outcome.ok.inj hp.2
  have hpath : ∀ v ∈ p, voxelFits v := fun v hv =>
    ⟨between_fits (hr.inBox v hv).1 h0.1 h1.1, between_fits (hr.inBox v hv).2.1 h0.2.1 h1.2.1,
      between_fits (hr.inBox v hv).2.2 h0.2.2 h1.2.2⟩
  have mx : (b.x - a.x).natAbs ≤ chebyshev a b := by unfold chebyshev; omega
  have my : (b.y - a.y).natAbs ≤ chebyshev a b := by unfold chebyshev; omega
  have mz : (b.z - a.z).natAbs ≤ chebyshev a b := by unfold chebyshev; omega
  have hdm : max (max ((b.x - a.x).natAbs : Int) (b.y - a.y).natAbs) (b.z - a.z).natAbs
      = (chebyshev a b : Int) := by unfold chebyshev; omega
  unfold dda32
  rw [absDiff32_ok (by omega) (by omega), absDiff32_ok (by omega) (by omega),
    absDiff32_ok (by omega) (by omega)]
  simp only [Outcome.bind_ok]
  rw [hdm, Int.toNat_natCast, int32_ok (by omega) (by omega)]
  simp only [Outcome.bind_ok]
  have key : ∀ t : Nat, (t = 0 ∨ chebyshev a b ≤ 2 * t) → (t : Int) = 0 ∧ (0 : Int) = 0 ∧ 0 < (chebyshev a b : Int) ∨
      (chebyshev a b : Int) ≤ 2 * (t : Int) ∧ -(t : Int) ≤ 0 := by intro t ht; omega
  rw [ddaLoop32_eq (by omega) (by simp only []; omega) (by simp only []; omega) (by simp only []; omega)
    (by simp only []; omega) (by simp only []; omega) (by simp only []; omega) _
    (key _ (by omega)) (key _ (by omega)) (key _ (by omega)) (by simp only []; omega)
    (by simp only []; omega) (by simp only []; omega) (by rw [hl]; exact hpath)]
  simp only [Outcome.bind_ok]
  rw [Outcome.check_bind_eq_ok]
  exact ⟨hp.1, by rw [hl]; rfl⟩

theorem near_chebyshev {a b : Voxel} (ax : -8388609 ≤ a.x ∧ a.x ≤ 8388609) (ay : -8388609 ≤ a.y ∧ a.y ≤ 8388609)
    (az : -8388609 ≤ a.z ∧ a.z ≤ 8388609) (bx : -8388609 ≤ b.x ∧ b.x ≤ 8388609)
    (by' : -8388609 ≤ b.y ∧ b.y ≤ 8388609) (bz : -8388609 ≤ b.z ∧ b.z ≤ 8388609) :
    bresenham32 a b = bresenham a b := by
  apply bresenham32_eq
  · exact ⟨by omega, by omega, by omega⟩
  · exact ⟨by omega, by omega, by omega⟩
  · unfold chebyshev; omega

theorem castingF_ok {p q : Vec3 Rat} {step : ℚ} (hs : 0 < step) (hp : WithinCells step p) (hq : WithinCells step q) :
    ∃ path a b, voxelCastingF p q step = .ok path ∧ IsRay a b path ∧ NearVoxel a step p ∧
      NearVoxel b step q ∧ voxelOfF q step = .ok b := by
  obtain ⟨a, ea, na, a1, a2, a3, -⟩ := voxelOfF_ok hs hp
  obtain ⟨b, eb, nb, b1, b2, b3, -⟩ := voxelOfF_ok hs hq
  obtain ⟨path, h1, h2⟩ := bresenham_isRay a b
  refine ⟨path, a, b, ?_, h2, na, nb, eb⟩
  unfold voxelCastingF
  rw [ea, eb]
  simp only [Outcome.bind_ok]
  rw [near_chebyshev a1 a2 a3 b1 b2 b3, h1]

theorem castingF_exact {p q : Vec3 Rat} {step : ℚ} (hs : 0 < step) (hp : WithinCells step p) (hq : WithinCells step q)
    (ep : (⟨⌊toF32 (p.x / step)⌋, ⌊toF32 (p.y / step)⌋, ⌊toF32 (p.z / step)⌋⟩ : Voxel) = voxelOf p step)
    (eq : (⟨⌊toF32 (q.x / step)⌋, ⌊toF32 (q.y / step)⌋, ⌊toF32 (q.z / step)⌋⟩ : Voxel) = voxelOf q step) :
    voxelCastingF p q step = voxelCastingBresenham p q step := by
  obtain ⟨a, ea, na, a1, a2, a3, fa⟩ := voxelOfF_ok hs hp
  obtain ⟨b, eb, nb, b1, b2, b3, fb⟩ := voxelOfF_ok hs hq
  unfold voxelCastingF voxelCastingBresenham
  rw [ea, eb]
  simp only [Outcome.bind_ok]
  rw [near_chebyshev a1 a2 a3 b1 b2 b3, fa, fb, ep, eq]

/-- Dividing a `float` by a power of two is exact. -/
theorem floorF_pow2 (k : ℤ) (t : ℚ) : ⌊toF32 (toF32 t / 2 ^ k)⌋ = (toF32 t / 2 ^ k).floor := by
  obtain ⟨m, j, hm, e⟩ := flRound_form 24 (by norm_num) t
  have : toF32 t / 2 ^ k = (m : ℚ) * 2 ^ (j - k) := by
    unfold toF32; rw [e, zpow_sub₀ (by norm_num)]; ring
  rw [this]
  unfold toF32
  rw [flRound_exact 24 (by norm_num) m (j - k) hm]
  rfl

/-! ### the map -/

theorem bresLoop32_last (d : Voxel) (dm : Int) (s : Voxel) (i : Nat) {ax ay az : Int × Int}
    {r : List Voxel × Voxel} (h : bresLoop32 d dm s i ax ay az = .ok r) : r.1.getLast? = some r.2 := by
  induction i generalizing ax ay az r with
  | zero => simp only [bresLoop32, Outcome.ok.injEq] at h; rw [← h]; rfl
  | succ i ih =>
    simp only [bresLoop32, Outcome.bind_eq_ok, Outcome.pure_eq, Outcome.ok.injEq] at h
    obtain ⟨ax', -, ay', -, az', -, r', h1, rfl⟩ := h
    have := ih h1
    simp only [List.getLast?_cons, this, Option.getD_some]

theorem castingF_last {p q : Vec3 Rat} {step : ℚ} {path : List Voxel} (h : voxelCastingF p q step = .ok path) :
    ∃ e, voxelOfF q step = .ok e ∧ path.getLast? = some e := by
  unfold voxelCastingF bresenham32 at h
  obtain ⟨a, -, h⟩ := (Outcome.bind_eq_ok _ _ _).mp h
  obtain ⟨b, hb, h⟩ := (Outcome.bind_eq_ok _ _ _).mp h
  obtain ⟨dx, -, h⟩ := (Outcome.bind_eq_ok _ _ _).mp h
  obtain ⟨dy, -, h⟩ := (Outcome.bind_eq_ok _ _ _).mp h
  obtain ⟨dz, -, h⟩ := (Outcome.bind_eq_ok _ _ _).mp h
  obtain ⟨-, -, h⟩ := (Outcome.bind_eq_ok _ _ _).mp h
  obtain ⟨r, hr, h⟩ := (Outcome.bind_eq_ok _ _ _).mp h
  obtain ⟨h1, h⟩ := (Outcome.check_bind_eq_ok _ _ _).mp h
  obtain ⟨h2, h⟩ := (Outcome.check_bind_eq_ok _ _ _).mp h
  obtain ⟨h3, h⟩ := (Outcome.check_bind_eq_ok _ _ _).mp h
  simp only [Outcome.pure_eq, Outcome.ok.injEq] at h
  subst h
  refine ⟨b, hb, ?_⟩
  rw [bresLoop32_last _ _ _ _ hr]
  congr 1
  cases b; cases hv : r.2; rw [hv] at h1 h2 h3; simp only at h1 h2 h3; rw [h1, h2, h3]

theorem missFold_points (cfg : MrvmCfg) (l : List Voxel) (m : VMap) (v : Voxel) :
    (l.foldl (missAt cfg) m v).map Cell.points = (m v).map Cell.points := by
  induction l generalizing m with
  | nil => rfl
  | cons w l ih =>
    rw [List.foldl_cons, ih, missAt_apply]
    split
    · cases m v with
      | none => rfl
      | some c => simp only [Option.map_some, missCell]; split <;> rfl
    · rfl

theorem releaseAll_points (m : VMap) (es : List Voxel) (v : Voxel) (p : InnerPoint Rat)
    (h : ∃ c, releaseAll m es v = some c ∧ p ∈ c.points) : ∃ c, m v = some c ∧ p ∈ c.points := by
  obtain ⟨c, h1, h2⟩ := h
  rw [releaseAll_apply] at h1
  split at h1
  · simp only [Option.some.injEq] at h1
    cases hm : m v with
    | none => rw [hm] at h1; rw [← h1] at h2; simp at h2
    | some c' => rw [hm] at h1; rw [← h1] at h2; exact ⟨c', rfl, h2⟩
  · exact ⟨c, h1, h2⟩

/-- Every stored point is in the voxel computed for it. -/
def PlacedF (step : ℚ) (m : VMap) : Prop :=
  ∀ v c, m v = some c → ∀ p ∈ c.points, voxelOfF ⟨p.x, p.y, p.z⟩ step = .ok v

theorem insertPointF_placed {cfg : MrvmCfg} {o : Vec3 Rat} {s s' : VMap × List Voxel} {p : InnerPoint Rat}
    (hs : PlacedF cfg.resolution s.1) (h : insertPointF cfg o s p = .ok s') : PlacedF cfg.resolution s'.1 := by
  unfold insertPointF at h
  obtain ⟨path, hp, h⟩ := (Outcome.bind_eq_ok _ _ _).mp h
  obtain ⟨e, he, hl⟩ := castingF_last hp
  rw [hl] at h
  simp only [] at h
  obtain ⟨-, -, h⟩ := (Outcome.bind_eq_ok _ _ _).mp h
  simp only [Outcome.pure_eq, Outcome.ok.injEq] at h
  subst h
  intro v c hc q hq
  have hm := missFold_points cfg path.dropLast (s.1.set e (hitCell cfg p ((s.1 e).getD {}))) v
  simp only [] at hc
  rw [hc] at hm
  simp only [Option.map_some, VMap.set] at hm
  split at hm
  · rename_i hv
    simp only [Option.map_some, Option.some.injEq, hitCell] at hm
    rw [hm] at hq
    have hold : q ∈ ((s.1 e).getD {}).points → voxelOfF ⟨q.x, q.y, q.z⟩ cfg.resolution = .ok v := by
      intro hq
      cases hse : s.1 e with
      | none => rw [hse] at hq; simp at hq
      | some c' => rw [hse] at hq; rw [hv]; exact hs e c' hse q hq
    split at hq
    · rcases List.mem_append.mp hq with hq | hq
      · exact hold hq
      · rw [List.mem_singleton.mp hq, hv]; exact he
    · exact hold hq
  · cases hsv : s.1 v with
    | none => rw [hsv] at hm; simp at hm
    | some c' =>
      rw [hsv] at hm
      simp only [Option.map_some, Option.some.injEq] at hm
      exact hs v c' hsv q (hm ▸ hq)

theorem insertPointsF_placed {cfg : MrvmCfg} {o : Vec3 Rat} (ps : List (InnerPoint Rat)) {s s' : VMap × List Voxel}
    (hs : PlacedF cfg.resolution s.1) (h : insertPointsF cfg o s ps = .ok s') : PlacedF cfg.resolution s'.1 := by
  induction ps generalizing s with
  | nil => simp only [insertPointsF, Outcome.ok.injEq] at h; exact h ▸ hs
  | cons p ps ih =>
    simp only [insertPointsF, Outcome.bind_eq_ok] at h
    obtain ⟨t, ht, h⟩ := h
    exact ih (insertPointF_placed hs ht) h

theorem insertCloudsF_placed {cfg : MrvmCfg} (cs : List (Option (List (InnerPoint Rat)) × Vec3 Rat)) {m m' : VMap}
    (hs : PlacedF cfg.resolution m) (h : insertCloudsF cfg m cs = .ok m') : PlacedF cfg.resolution m' := by
  induction cs generalizing m with
  | nil => simp only [insertCloudsF, Outcome.ok.injEq] at h; exact h ▸ hs
  | cons c cs ih =>
    simp only [insertCloudsF, Outcome.bind_eq_ok] at h
    obtain ⟨t, ht, h⟩ := h
    refine ih ?_ h
    unfold insertCloudF at ht
    cases hc : c.1 with
    | none => rw [hc] at ht; simp only [Outcome.ok.injEq] at ht; exact ht ▸ hs
    | some ps =>
      rw [hc] at ht
      simp only [] at ht
      split at ht
      · simp only [Outcome.ok.injEq] at ht; exact ht ▸ hs
      · simp only [Outcome.bind_eq_ok, Outcome.pure_eq, Outcome.ok.injEq] at ht
        obtain ⟨r, hr, rfl⟩ := ht
        have := insertPointsF_placed ps hs hr
        intro v c' hc' q hq
        obtain ⟨c2, h1, h2⟩ := releaseAll_points r.1 r.2 v q ⟨c', hc', hq⟩
        exact this v c2 h1 q h2

/-- Where rounding does not matter, the insertion is that of `Model/Mrvm`. -/
theorem insertPointF_eq {cfg : MrvmCfg} {o : Vec3 Rat} (s : VMap × List Voxel) {p : InnerPoint Rat}
    (he : voxelCastingF o ⟨p.x, p.y, p.z⟩ cfg.resolution =
      voxelCastingBresenham o ⟨p.x, p.y, p.z⟩ cfg.resolution) (hp : shortPoint p) :
    insertPointF cfg o s p = insertPoint cfg o s p := by
  unfold insertPointF insertPoint
  rw [he]
  congr 1
  funext path
  cases path.getLast? with
  | none => rfl
  | some e => simp only [roomCheck, Outcome.check_pos hp, ite_self, Outcome.bind_ok]

theorem insertPointsF_eq {cfg : MrvmCfg} {o : Vec3 Rat} (ps : List (InnerPoint Rat)) (s : VMap × List Voxel)
    (h : ∀ p ∈ ps, voxelCastingF o ⟨p.x, p.y, p.z⟩ cfg.resolution =
      voxelCastingBresenham o ⟨p.x, p.y, p.z⟩ cfg.resolution ∧ shortPoint p) :
    insertPointsF cfg o s ps = insertPoints cfg o s ps := by
  induction ps generalizing s with
  | nil => rfl
  | cons p ps ih =>
    simp only [insertPointsF, insertPoints]
    rw [insertPointF_eq s (h p (List.mem_cons_self ..)).1 (h p (List.mem_cons_self ..)).2]
    congr 1
    funext t
    exact ih t (fun q hq => h q (List.mem_cons_of_mem _ hq))

theorem insertPointsF_ok {cfg : MrvmCfg} (hr : 0 < cfg.resolution) {o : Vec3 Rat} (ho : WithinCells cfg.resolution o)
    (ps : List (InnerPoint Rat)) (s : VMap × List Voxel)
    (h : ∀ p ∈ ps, WithinCells cfg.resolution ⟨p.x, p.y, p.z⟩ ∧ shortPoint p) :
    ∃ s', insertPointsF cfg o s ps = .ok s' := by
  induction ps generalizing s with
  | nil => exact ⟨s, rfl⟩
  | cons p ps ih =>
    obtain ⟨h1, h2⟩ := h p (List.mem_cons_self ..)
    obtain ⟨path, a, b, e, hray, -, -, -⟩ := castingF_ok hr ho h1
    have : ∃ t, insertPointF cfg o s p = .ok t := by
      unfold insertPointF
      rw [e]
      simp only [Outcome.bind_ok, hray.ends, roomCheck, Outcome.check_pos h2, ite_self]
      exact ⟨_, rfl⟩
    obtain ⟨t, ht⟩ := this
    obtain ⟨s', hs'⟩ := ih t (fun q hq => h q (List.mem_cons_of_mem _ hq))
    exact ⟨s', by simp only [insertPointsF, ht, Outcome.bind_ok, hs']⟩

end Verif
