import Verif.Props.Filters
/-! Property theorem C24. -/
namespace Verif
open Spec

namespace Spec

/-- The result of thinning `input` to one mean point per occupied voxel, where `vox` says in which
voxel a point lies: there is a list of the occupied voxels, each once, and the output lists, in that
order, the mean of the input points of each. -/
structure VoxelMeans (vox : InnerPoint Rat → Voxel) (input output : List (InnerPoint Rat)) (vs : List Voxel) : Prop where
  once : vs.Nodup
  occupied : ∀ v, v ∈ vs ↔ ∃ p ∈ input, vox p = v
  count : output.length = vs.length
  means : ∀ (i : Nat) (v : Voxel) (q : InnerPoint Rat), vs[i]? = some v → output[i]? = some q →
    let ps := input.filter (fun p => decide (vox p = v))
    q.x = mean (ps.map (·.x)) ∧ q.y = mean (ps.map (·.y)) ∧ q.z = mean (ps.map (·.z)) ∧
    q.intensity = mean (ps.map (·.intensity))
  same : ∀ (i : Nat) (v : Voxel) (q : InnerPoint Rat), vs[i]? = some v → output[i]? = some q → vox q = v

/-- Sum of one coordinate of the output points, each weighted with the number of input points of its
voxel. -/
def weightedTotal (vox : InnerPoint Rat → Voxel) (coord : InnerPoint Rat → Rat) (input output : List (InnerPoint Rat)) : Rat :=
  (output.map fun q => (input.countP (fun p => decide (vox p = vox q)) : Rat) * coord q).sum

end Spec

/-- The voxel of a point, from the property's point of view: the nearest grid node. -/
theorem lround_bounds (q : Rat) : |q - lround q| ≤ 1 / 2 := by
  unfold lround
  split
  · rw [abs_le]
    have h1 := Int.floor_le (q + 1 / 2)
    have h2 := Int.lt_floor_add_one (q + 1 / 2)
    constructor <;> linarith
  · rw [abs_le]
    have h1 := Int.le_ceil (q - 1 / 2)
    have h2 := Int.ceil_lt_add_one (q - 1 / 2)
    constructor <;> linarith

theorem gridKey_meanPoint (size : Rat) (hs : 0 < size) (ps : List (InnerPoint Rat)) (h : ps ≠ []) (v : Voxel)
    (hv : ∀ p ∈ ps, gridKey size p = v) : gridKey size (meanPoint ps) = v := by
  obtain ⟨vx, vy, vz⟩ := v
  simp only [gridKey, Vec3.mk.injEq] at hv
  have ne : ∀ f : InnerPoint Rat → Rat, ps.map f ≠ [] := by intro f; simpa using h
  have hx := lround_mean (ps.map (·.x)) (ne _) size hs vx (by
    simp only [List.mem_map]; rintro _ ⟨p, hp, rfl⟩; exact (hv p hp).1)
  have hy := lround_mean (ps.map (·.y)) (ne _) size hs vy (by
    simp only [List.mem_map]; rintro _ ⟨p, hp, rfl⟩; exact (hv p hp).2.1)
  have hz := lround_mean (ps.map (·.z)) (ne _) size hs vz (by
    simp only [List.mem_map]; rintro _ ⟨p, hp, rfl⟩; exact (hv p hp).2.2)
  simp only [gridKey, meanPoint, Vec3.mk.injEq]
  exact ⟨hx, hy, hz⟩

/-- C24: whatever order the hash table is traversed in, the voxel-grid filter succeeds; it outputs
one mean point per occupied voxel, inside that voxel, keeps the stamp, preserves weighted totals and
is never larger than the input nor empty for a non-empty input. -/
theorem C24_voxel_grid (size : Rat) (hs : 0 < size) (io : IterOrder (Voxel × List (InnerPoint Rat)))
    (st : FState Rat) (c out : InnerCloud Rat) (hc : c.points ≠ []) :
    ∃ r, voxelGridFilter size io (st.setInput (some c)) out = .ok r ∧
      (∃ vs, VoxelMeans (gridKey size) c.points r.2.points vs) ∧
      r.2.stamp = c.stamp ∧
      (∀ coord ∈ [InnerPoint.x, InnerPoint.y, InnerPoint.z, InnerPoint.intensity],
        weightedTotal (gridKey size) coord c.points r.2.points = (c.points.map coord).sum) ∧
      r.2.points.length ≤ c.points.length ∧ r.2.points ≠ [] := by
  rw [setInput_input st c hc]
  have inv := (tableInv_all (gridKey size) c.points).perm (io.perm (bucketAll (gridKey size) c.points))
  simp only [voxelGridFilter, filterPrepare]
  generalize io.order (bucketAll (gridKey size) c.points) = t at *
  rw [averageAll_eq t (fun e he => (inv.content e he).2)]
  have hvox : ∀ e ∈ t, ∀ p ∈ e.2, gridKey size p = e.1 := by
    intro e he p hp
    rw [(inv.content e he).1] at hp
    simpa using (List.mem_filter.1 hp).2
  refine ⟨_, rfl, ⟨t.map Prod.fst, ?_⟩, rfl, ?_, ?_, ?_⟩
  · refine ⟨inv.nodup, ?_, ?_, ?_, ?_⟩
    · intro v
      rw [List.mem_map]
      constructor
      · rintro ⟨e, he, rfl⟩
        obtain ⟨p, hp⟩ := List.exists_mem_of_ne_nil _ (inv.content e he).2
        refine ⟨p, ?_, hvox e he p hp⟩
        rw [(inv.content e he).1] at hp
        exact (List.mem_filter.1 hp).1
      · rintro ⟨p, hp, rfl⟩
        obtain ⟨e, he, hk⟩ := inv.all p hp
        exact ⟨e, he, hk⟩
    · simp
    · intro i v q hv hq
      simp only [List.nil_append, List.getElem?_map, Option.map_eq_some_iff] at hv hq
      obtain ⟨e, he, rfl⟩ := hv
      obtain ⟨e', he', rfl⟩ := hq
      rw [he] at he'
      cases he'
      have := (inv.content e (List.mem_of_getElem? he)).1
      rw [← this]
      exact ⟨rfl, rfl, rfl, rfl⟩
    · intro i v q hv hq
      simp only [List.nil_append, List.getElem?_map, Option.map_eq_some_iff] at hv hq
      obtain ⟨e, he, rfl⟩ := hv
      obtain ⟨e', he', rfl⟩ := hq
      rw [he] at he'
      cases he'
      have hm := List.mem_of_getElem? he
      exact gridKey_meanPoint size hs e.2 (inv.content e hm).2 e.1 (hvox e hm)
  · intro coord hcoord
    have hmean : ∀ ps : List (InnerPoint Rat), coord (meanPoint ps) = mean (ps.map coord) := by
      intro ps
      simp only [List.mem_cons, List.not_mem_nil, or_false] at hcoord
      rcases hcoord with rfl | rfl | rfl | rfl <;> rfl
    unfold weightedTotal
    simp only [List.nil_append, List.map_map]
    have step : (t.map ((fun q => (List.countP (fun p => decide (gridKey size p = gridKey size q)) c.points : Rat) * coord q) ∘
        fun e => meanPoint e.2)) = t.map (fun e => (e.2.map coord).sum) := by
      apply List.map_congr_left
      intro e he
      simp only [Function.comp]
      rw [gridKey_meanPoint size hs e.2 (inv.content e he).2 e.1 (hvox e he), hmean, mean,
        List.countP_eq_length_filter, ← (inv.content e he).1, List.length_map]
      have : (e.2.length : Rat) ≠ 0 := by
        have := List.length_pos_iff.2 (inv.content e he).2
        exact_mod_cast (by omega : e.2.length ≠ 0)
      field_simp
    rw [step]
    have hperm := (inv.flatten.map coord).sum_eq
    rw [← hperm]
    clear hperm step inv hvox
    induction t with
    | nil => simp
    | cons e t ih => simp [ih]
  · have hperm := inv.flatten.length_eq
    rw [← hperm]
    have hne := fun e he => (inv.content e he).2
    simp only [List.nil_append, List.length_map]
    clear hperm hvox inv
    induction t with
    | nil => simp
    | cons e t ih =>
      have h1 := List.length_pos_iff.2 (hne e (by simp))
      have h2 := ih (fun e he => hne e (by simp [he]))
      simp only [List.length_cons, List.flatMap_cons, List.length_append]
      omega
  · intro h
    simp only [List.nil_append, List.map_eq_nil_iff] at h
    subst h
    obtain ⟨p, hp⟩ := List.exists_mem_of_ne_nil _ hc
    obtain ⟨e, he, -⟩ := inv.all p hp
    simp at he

/-- C24: the voxel of a point is the one whose centre is nearest, so every output point is within
half a voxel of its voxel centre in each coordinate. -/
theorem C24_voxel_nearest (size : Rat) (hs : 0 < size) (p : InnerPoint Rat) :
    |p.x - size * (gridKey size p).x| ≤ size / 2 ∧ |p.y - size * (gridKey size p).y| ≤ size / 2 ∧
    |p.z - size * (gridKey size p).z| ≤ size / 2 := by
  have key : ∀ a : Rat, |a - size * (lround (a / size) : Int)| ≤ size / 2 := by
    intro a
    have h := lround_bounds (a / size)
    have e : a - size * (lround (a / size) : Int) = size * (a / size - (lround (a / size) : Int)) := by
      field_simp
    rw [e, abs_mul, abs_of_pos hs]
    calc size * |a / size - (lround (a / size) : Int)| ≤ size * (1 / 2) := by gcongr
      _ = size / 2 := by ring
  exact ⟨key _, key _, key _⟩

-- three points in two voxels
example : (match voxelGridFilter 1 ⟨id, fun _ => List.Perm.refl _⟩ (({} : FState Rat).setInput
    (some ⟨⟨7, 0, 1⟩, [⟨0, 0, 0, 4, 0⟩, ⟨5, 0, 0, 4, 0⟩, ⟨1/4, 0, 0, 8, 0⟩]⟩)) freshCloud with
  | .ok r => r.2.points
  | _ => []) = [⟨1/8, 0, 0, 6, 0⟩, ⟨5, 0, 0, 4, 0⟩] := by decide +kernel

end Verif
