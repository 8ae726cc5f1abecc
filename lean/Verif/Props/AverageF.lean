import Verif.Proofs.AverageF
import Verif.Props.CastF
import Verif.Props.VoxelGrid
import Verif.Props.Mrvm
/-
C93: the averaged points of the voxel-grid filter (`double` sums) and of the static map (`float` sums).
-/
namespace Verif
open Spec

/-- C93: for `float` coordinates within 2^30 voxels of the origin and at most 2^29 points, the voxel-grid
filter writes one point per occupied voxel, inside the box spanned by that voxel's points and in that voxel,
and within `M / 2^22` of their mean, `M` bounding the coordinates. -/
theorem C93_voxel_grid_partial (size : ℚ) (hs : 0 < size) (io : IterOrder (Voxel × List (InnerPoint Rat)))
    (st : FState Rat) (c out : InnerCloud Rat) (hc : c.points ≠ []) (hn : c.points.length ≤ 2 ^ 29)
    (hf : ∀ p ∈ c.points, Single p.x ∧ Single p.y ∧ Single p.z ∧ Single p.intensity)
    (hr : ∀ p ∈ c.points, |p.x| ≤ 2 ^ 30 * size ∧ |p.y| ≤ 2 ^ 30 * size ∧ |p.z| ≤ 2 ^ 30 * size) :
    ∃ r, voxelGridFilterF size io (st.setInput (some c)) out = .ok r ∧
      (∃ vs, VoxelBoxes (gridKeyF size) c.points r.2.points vs) ∧
      r.2.stamp = c.stamp ∧ r.2.points.length ≤ c.points.length ∧ r.2.points ≠ [] := by
  rw [setInput_input st c hc]
  have inv := (tableInv_all (gridKeyF size) c.points).perm (io.perm (bucketAll (gridKeyF size) c.points))
  simp only [voxelGridFilterF, filterPrepare]
  rw [if_pos (fun p hp => ⟨longOk_of hs (hr p hp).1, longOk_of hs (hr p hp).2.1, longOk_of hs (hr p hp).2.2⟩)]
  generalize io.order (bucketAll (gridKeyF size) c.points) = t at *
  rw [averageAllF_eq t (fun e he => (inv.content e he).2)]
  have hsub : ∀ e ∈ t, ∀ p ∈ e.2, p ∈ c.points ∧ gridKeyF size p = e.1 := by
    intro e he p hp
    rw [(inv.content e he).1] at hp
    have := List.mem_filter.1 hp
    exact ⟨this.1, by simpa using this.2⟩
  have hlen : ∀ e ∈ t, e.2.length ≤ 2 ^ 29 := by
    intro e he
    rw [(inv.content e he).1]
    exact le_trans (List.length_filter_le _ _) hn
  have hbox : ∀ e ∈ t, Amid (meanPointF e.2).x (e.2.map (·.x)) ∧ Amid (meanPointF e.2).y (e.2.map (·.y)) ∧
      Amid (meanPointF e.2).z (e.2.map (·.z)) ∧ Amid (meanPointF e.2).intensity (e.2.map (·.intensity)) := by
    intro e he
    have gen : ∀ f : InnerPoint Rat → ℚ, (∀ p ∈ c.points, Single (f p)) → Amid (avgF64 (e.2.map f)) (e.2.map f) := by
      intro f hff
      refine avgF64_amid _ (by simpa using (inv.content e he).2) ?_ (by simpa using hlen e he)
      simp only [List.mem_map]
      rintro _ ⟨p, hp, rfl⟩
      exact hff p (hsub e he p hp).1
    exact ⟨gen _ fun p hp => (hf p hp).1, gen _ fun p hp => (hf p hp).2.1, gen _ fun p hp => (hf p hp).2.2.1,
      gen _ fun p hp => (hf p hp).2.2.2⟩
  refine ⟨_, rfl, ⟨t.map Prod.fst, ?_⟩, rfl, ?_, ?_⟩
  · refine ⟨inv.nodup, ?_, ?_, ?_, ?_, ?_⟩
    · intro v
      rw [List.mem_map]
      constructor
      · rintro ⟨e, he, rfl⟩
        obtain ⟨p, hp⟩ := List.exists_mem_of_ne_nil _ (inv.content e he).2
        exact ⟨p, hsub e he p hp⟩
      · rintro ⟨p, hp, rfl⟩
        obtain ⟨e, he, hk⟩ := inv.all p hp
        exact ⟨e, he, hk⟩
    · simp
    · intro i v q hv hq
      simp only [List.nil_append, List.getElem?_map, Option.map_eq_some_iff] at hv hq
      obtain ⟨e, he, rfl⟩ := hv
      obtain ⟨e', he', rfl⟩ := hq
      rw [he] at he'
      cases he'
      have hm := List.mem_of_getElem? he
      rw [← (inv.content e hm).1]
      exact hbox e hm
    · intro i v q hv hq
      simp only [List.nil_append, List.getElem?_map, Option.map_eq_some_iff] at hv hq
      obtain ⟨e, he, rfl⟩ := hv
      obtain ⟨e', he', rfl⟩ := hq
      rw [he] at he'
      cases he'
      have hm := List.mem_of_getElem? he
      obtain ⟨b1, b2, b3, -⟩ := hbox e hm
      have gen : ∀ (f : InnerPoint Rat → ℚ) (k : ℤ) (q : ℚ), Amid q (e.2.map f) →
          (∀ p ∈ e.2, |f p| ≤ 2 ^ 30 * size) → (∀ p ∈ e.2, gridIdxF size (f p) = k) → gridIdxF size q = k := by
        intro f k q ha h1 h2
        refine gridIdxF_amid hs (e.2.map f) k ha ?_ ?_ <;>
        · simp only [List.mem_map]
          rintro _ ⟨p, hp, rfl⟩
          first | exact h1 p hp | exact h2 p hp
      have hv : ∀ p ∈ e.2, gridIdxF size p.x = e.1.x ∧ gridIdxF size p.y = e.1.y ∧ gridIdxF size p.z = e.1.z := by
        intro p hp
        rw [← (hsub e hm p hp).2]
        exact ⟨rfl, rfl, rfl⟩
      have r1 := gen _ _ _ b1 (fun p hp => (hr p (hsub e hm p hp).1).1) (fun p hp => (hv p hp).1)
      have r2 := gen _ _ _ b2 (fun p hp => (hr p (hsub e hm p hp).1).2.1) (fun p hp => (hv p hp).2.1)
      have r3 := gen _ _ _ b3 (fun p hp => (hr p (hsub e hm p hp).1).2.2) (fun p hp => (hv p hp).2.2)
      unfold gridKeyF
      rw [r1, r2, r3]
    · intro i v q M hv hq
      simp only [List.nil_append, List.getElem?_map, Option.map_eq_some_iff] at hv hq
      obtain ⟨e, he, rfl⟩ := hv
      obtain ⟨e', he', rfl⟩ := hq
      rw [he] at he'
      cases he'
      have hm := List.mem_of_getElem? he
      rw [← (inv.content e hm).1]
      intro ps hM
      have gen : ∀ f : InnerPoint Rat → ℚ, (∀ p ∈ e.2, |f p| ≤ M) →
          |avgF64 (e.2.map f) - (e.2.map f).sum / e.2.length| ≤ M / 2 ^ 22 := by
        intro f hff
        have := avgF64_near (M := M) (e.2.map f) (by simpa using (inv.content e hm).2) (by
          simp only [List.mem_map]
          rintro _ ⟨p, hp, rfl⟩
          exact hff p hp) (by simpa using hlen e hm)
        rwa [List.length_map] at this
      exact ⟨gen _ fun p hp => (hM p hp).1, gen _ fun p hp => (hM p hp).2.1, gen _ fun p hp => (hM p hp).2.2.1,
        gen _ fun p hp => (hM p hp).2.2.2⟩
  · have hperm := inv.flatten.length_eq
    rw [← hperm]
    have hne := fun e he => (inv.content e he).2
    simp only [List.nil_append, List.length_map]
    clear hperm hsub inv hlen hbox
    induction t with
    | nil => simp
    | cons e t ih =>
      have h1 := List.length_pos_iff.2 (hne e (by simp))
      have h2 := ih (fun e he => hne e (by simp [he]))
      simp only [List.length_cons, List.flatMap_cons, List.length_append]
      omega
  · intro h
    simp only [List.nil_append, List.map_eq_nil_iff] at h
    subst h
    obtain ⟨p, hp⟩ := List.exists_mem_of_ne_nil _ hc
    obtain ⟨e, he, -⟩ := inv.all p hp
    simp at he

/-- **C93.** The filter is undefined exactly if the number of a cell does not fit 64 bits; it never aborts. -/
theorem C93_defined (size : ℚ) (io : IterOrder (Voxel × List (InnerPoint Rat))) (st : FState Rat) (c out : InnerCloud Rat)
    (hc : c.points ≠ []) :
    (voxelGridFilterF size io (st.setInput (some c)) out = .ub ↔
      ∃ p ∈ c.points, ∃ t ∈ [p.x, p.y, p.z], lround (toF32 (t / size)) < -2 ^ 63 ∨ 2 ^ 63 ≤ lround (toF32 (t / size))) ∧
    voxelGridFilterF size io (st.setInput (some c)) out ≠ .abort := by
  have hl : ∀ t, longOk size t ↔ ¬ (lround (toF32 (t / size)) < -2 ^ 63 ∨ 2 ^ 63 ≤ lround (toF32 (t / size))) := by
    intro t
    unfold longOk
    omega
  rw [setInput_input st c hc]
  unfold voxelGridFilterF
  dsimp only
  split
  · rename_i h
    have inv := (tableInv_all (gridKeyF size) c.points).perm (io.perm (bucketAll (gridKeyF size) c.points))
    rw [averageAllF_eq _ (fun e he => (inv.content e he).2), Outcome.bind_ok]
    refine ⟨⟨fun h0 => by simp at h0, ?_⟩, by simp⟩
    rintro ⟨p, hp, t, ht, hb⟩
    obtain ⟨a, b, d⟩ := h p hp
    simp only [List.mem_cons, List.not_mem_nil, or_false] at ht
    rcases ht with rfl | rfl | rfl
    · exact absurd hb ((hl _).mp a)
    · exact absurd hb ((hl _).mp b)
    · exact absurd hb ((hl _).mp d)
  · rename_i h
    push Not at h
    obtain ⟨p, hp, hb⟩ := h
    refine ⟨⟨fun _ => ?_, fun _ => rfl⟩, by simp⟩
    simp only [hl] at hb
    by_contra hn
    push Not at hn
    have h1 := hn p hp p.x (by simp)
    have h2 := hn p hp p.y (by simp)
    have h3 := hn p hp p.z (by simp)
    have := hb (by omega) (by omega)
    omega

/-- C93 fails without the bound on the coordinates: the voxel numbers wrap, two points 2^32 voxels apart
become one point half-way between them. -/
theorem C93_wrap_fails :
    ∃ (size : ℚ) (io : IterOrder (Voxel × List (InnerPoint Rat))) (c : InnerCloud Rat) (r : FState Rat × InnerCloud Rat),
      0 < size ∧ (∀ p ∈ c.points, Single p.x ∧ Single p.y ∧ Single p.z) ∧
      c.points.map (·.x) = [0, 4294967296 * size] ∧
      voxelGridFilterF size io (({} : FState Rat).setInput (some c)) freshCloud = .ok r ∧
      r.2.points.map (·.x) = [2147483648 * size] := by
  have h : (match voxelGridFilterF tenth ⟨id, fun _ => List.Perm.refl _⟩ (({} : FState Rat).setInput
      (some ⟨⟨7, 0, 1⟩, [⟨0, 0, 0, 4, 0⟩, ⟨4294967296 * tenth, 0, 0, 4, 0⟩]⟩)) freshCloud with
      | .ok r => decide (r.2.points.map (·.x) = [2147483648 * tenth]) | _ => false) = true := by decide +kernel
  cases hr : voxelGridFilterF tenth ⟨id, fun _ => List.Perm.refl _⟩ (({} : FState Rat).setInput
      (some ⟨⟨7, 0, 1⟩, [⟨0, 0, 0, 4, 0⟩, ⟨4294967296 * tenth, 0, 0, 4, 0⟩]⟩)) freshCloud with
  | ok r =>
    rw [hr] at h
    refine ⟨tenth, _, _, r, by norm_num [tenth], ?_, rfl, hr, of_decide_eq_true h⟩
    unfold Single
    decide +kernel
  | abort => rw [hr] at h; cases h
  | ub => rw [hr] at h; cases h

/-- C93: after any sequence of insertions the averaged output has one point per voxel that reaches the
threshold, within `(max_points + 1) * M / 2^23` of the mean of that voxel's points. -/
theorem C93_map_average_partial (cfg : MrvmCfg) (h1 : 0 < cfg.maxPoints) (h2 : cfg.maxPoints ≤ 2 ^ 23)
    (cs : List (Option (List (InnerPoint Rat)) × Vec3 Rat)) {m : VMap}
    (h : insertCloudsF cfg (fun _ => none) cs = .ok m) (table : List (Voxel × Cell)) (hl : Lists m table)
    (threshold : Rat) (t : Nat) (ht : threshold8 threshold = .ok t) {out : List (InnerPoint Rat)}
    (ho : outputAverageF cfg threshold table = .ok out) :
    (∀ v c, m v = some c → t ≤ c.prob → ∃ q ∈ out, StandsFor cfg q c) ∧
    ∀ q ∈ out, ∃ v c, m v = some c ∧ t ≤ c.prob ∧ c.points ≠ [] ∧ c.points.length ≤ cfg.maxPoints ∧
      StandsFor cfg q c := by
  unfold outputAverageF at ho
  rw [ht, Outcome.bind_ok] at ho
  have key : ∀ v c, (v, c) ∈ table → t ≤ c.prob → c.points ≠ [] ∧ c.points.length ≤ cfg.maxPoints ∧
      StandsFor cfg (outputCellF cfg c) c := by
    intro v c he hp
    have hv := (hl.same v c).2 he
    have hne : c.points ≠ [] := outputCellsF_nonempty table ho (v, c) he hp
    have hlen : (c.points.length : Int) ≤ cfg.maxPoints :=
      insertCloudsF_few (le_of_lt h1) cs (fun v c hc => by simp at hc) h v c hv
    refine ⟨hne, hlen, rfl, ?_⟩
    intro M hM
    have hM0 : 0 ≤ M := by
      obtain ⟨p, hp⟩ := List.exists_mem_of_ne_nil _ hne
      exact le_trans (abs_nonneg p.x) (hM p hp).1
    have hlq : ((c.points.length : ℚ)) ≤ cfg.maxPoints := by exact_mod_cast hlen
    have gen : ∀ f : InnerPoint Rat → ℚ, (∀ p ∈ c.points, |f p| ≤ M) →
        |avgF32 (c.points.map f) - (c.points.map f).sum / c.points.length| ≤ (cfg.maxPoints + 1) * M / 2 ^ 23 := by
      intro f hf
      have := avgF32_near (M := M) (c.points.map f) (by simpa using hne) (by
        simp only [List.mem_map]
        rintro _ ⟨p, hp, rfl⟩
        exact hf p hp) (by
          rw [List.length_map]
          have : (c.points.length : Int) ≤ 2 ^ 23 := le_trans hlen h2
          exact_mod_cast this)
      rw [List.length_map] at this
      refine le_trans this ?_
      gcongr
    exact ⟨gen _ fun p hp => (hM p hp).1, gen _ fun p hp => (hM p hp).2.1, gen _ fun p hp => (hM p hp).2.2⟩
  constructor
  · intro v c hv hp
    have he := (hl.same v c).1 hv
    exact ⟨_, (outputCellsF_mem table ho _).mpr ⟨(v, c), he, hp, rfl⟩, (key v c he hp).2.2⟩
  · intro q hq
    obtain ⟨⟨v, c⟩, he, hp, rfl⟩ := (outputCellsF_mem table ho q).mp hq
    exact ⟨v, c, (hl.same v c).2 he, hp, key v c he hp⟩

/-- The point of the next theorem: just inside voxel 9 of a grid of tenths. -/
def edgePoint : InnerPoint Rat := ⟨7549747 / 8388608, 0, 0, 1, 0⟩

/-- C93 fails for the averaged static map: three equal points of one voxel are averaged to a different
point, in another voxel. -/
theorem C93_map_average_fails :
    ∃ (cfg : MrvmCfg) (cs : List (Option (List (InnerPoint Rat)) × Vec3 Rat)) (m : VMap) (v w : Voxel) (c : Cell),
      insertCloudsF cfg (fun _ => none) cs = .ok m ∧ m v = some c ∧
      c.points = [edgePoint, edgePoint, edgePoint] ∧ Single edgePoint.x ∧
      (outputCellF cfg c).x ≠ edgePoint.x ∧ (outputCellF cfg c).x < edgePoint.x ∧
      voxelOfF ⟨(outputCellF cfg c).x, (outputCellF cfg c).y, (outputCellF cfg c).z⟩ cfg.resolution = .ok w ∧
      w ≠ v := by
  have h : (match insertCloudsF ⟨10, 11 / 20, 12 / 25, tenth, 0, true, true⟩ (fun _ => none)
      [(some [edgePoint, edgePoint, edgePoint], ⟨edgePoint.x, 0, 0⟩)] with
      | .ok m => (match m ⟨9, 0, 0⟩ with
        | some c => decide (c.points = [edgePoint, edgePoint, edgePoint] ∧
            (outputCellF ⟨10, 11 / 20, 12 / 25, tenth, 0, true, true⟩ c).x < edgePoint.x ∧
            voxelOfF ⟨(outputCellF ⟨10, 11 / 20, 12 / 25, tenth, 0, true, true⟩ c).x,
              (outputCellF ⟨10, 11 / 20, 12 / 25, tenth, 0, true, true⟩ c).y,
              (outputCellF ⟨10, 11 / 20, 12 / 25, tenth, 0, true, true⟩ c).z⟩ tenth = .ok ⟨8, 0, 0⟩)
        | none => false)
      | _ => false) = true := by decide +kernel
  cases hm : insertCloudsF ⟨10, 11 / 20, 12 / 25, tenth, 0, true, true⟩ (fun _ => none)
      [(some [edgePoint, edgePoint, edgePoint], ⟨edgePoint.x, 0, 0⟩)] with
  | ok m =>
    rw [hm] at h
    simp only [] at h
    cases hc : m ⟨9, 0, 0⟩ with
    | none => rw [hc] at h; cases h
    | some c =>
      rw [hc] at h
      obtain ⟨a, b, d⟩ := of_decide_eq_true h
      exact ⟨_, _, m, ⟨9, 0, 0⟩, ⟨8, 0, 0⟩, c, hm, hc, a, by unfold Single; decide +kernel, ne_of_lt b, b, d,
        by decide⟩
  | abort => rw [hm] at h; cases h
  | ub => rw [hm] at h; cases h

/-! Non-vacuity. -/

example : (match voxelGridFilterF tenth ⟨id, fun _ => List.Perm.refl _⟩ (({} : FState Rat).setInput
    (some ⟨⟨7, 0, 1⟩, [⟨0, 0, 0, 4, 0⟩, ⟨5, 0, 0, 4, 0⟩, ⟨1 / 64, 0, 0, 8, 0⟩]⟩)) freshCloud with
  | .ok r => r.2.points
  | _ => []) = [⟨1 / 128, 0, 0, 6, 0⟩, ⟨5, 0, 0, 4, 0⟩] := by decide +kernel

/-- The hypotheses of `C93_voxel_grid_partial` hold of this cloud. -/
example : ∀ p ∈ [(⟨0, 0, 0, 4, 0⟩ : InnerPoint Rat), ⟨5, 0, 0, 4, 0⟩, ⟨1 / 64, 0, 0, 8, 0⟩],
    (Single p.x ∧ Single p.y ∧ Single p.z ∧ Single p.intensity) ∧
    |p.x| ≤ 2 ^ 30 * tenth ∧ |p.y| ≤ 2 ^ 30 * tenth ∧ |p.z| ≤ 2 ^ 30 * tenth := by
  unfold Single
  decide +kernel

/-- An averaged output of three points. -/
example : (match outputAverageF ⟨10, 11 / 20, 12 / 25, tenth, 0, true, true⟩ (57 / 100)
    [(⟨0, 0, 0⟩, ⟨200, true, 7, [⟨1 / 64, 0, 0, 1, 0⟩, ⟨3 / 64, 0, 0, 1, 0⟩, ⟨5 / 64, 0, 1 / 16, 7, 0⟩]⟩),
     (⟨4, 0, 0⟩, ⟨20, true, 0, [⟨4, 0, 0, 1, 0⟩]⟩)] with
  | .ok out => out | _ => []) = [⟨3 / 64, 0, 11184811 / 536870912, 7, 0⟩] := by decide +kernel

end Verif
