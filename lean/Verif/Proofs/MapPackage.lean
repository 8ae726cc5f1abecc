import Verif.Spec.MapPackage
import Verif.Proofs.Names
import Mathlib.Tactic.Linarith
import Mathlib.Tactic.FieldSimp
import Mathlib.Tactic.Ring
import Mathlib.Data.List.Nodup
/-! Proofs for C35. -/
namespace Verif
open Spec

theorem foldl_min_le (l : List Rat) : ∀ a : Rat,
    l.foldl (fun m v => if v < m then v else m) a ≤ a ∧
    (∀ v ∈ l, l.foldl (fun m v => if v < m then v else m) a ≤ v) ∧
    (l.foldl (fun m v => if v < m then v else m) a = a ∨
      l.foldl (fun m v => if v < m then v else m) a ∈ l) := by
  induction l with
  | nil => intro a; exact ⟨le_refl _, by simp, Or.inl rfl⟩
  | cons v vs ih =>
    intro a
    obtain ⟨h1, h2, h3⟩ := ih (if v < a then v else a)
    rw [List.foldl_cons]
    have hle : (if v < a then v else a) ≤ a ∧ (if v < a then v else a) ≤ v := by
      by_cases h : v < a
      · rw [if_pos h]; exact ⟨le_of_lt h, le_refl _⟩
      · rw [if_neg h]; exact ⟨le_refl _, not_lt.mp h⟩
    refine ⟨le_trans h1 hle.1, ?_, ?_⟩
    · intro w hw
      rcases List.mem_cons.mp hw with rfl | hw
      · exact le_trans h1 hle.2
      · exact h2 w hw
    · rcases h3 with h3 | h3
      · rw [h3]
        by_cases h : v < a
        · rw [if_pos h]; right; exact List.mem_cons_self
        · rw [if_neg h]; exact Or.inl rfl
      · exact Or.inr (List.mem_cons_of_mem _ h3)

theorem pkgMax_eq (l : List Rat) : pkgMax l = - pkgMin (l.map fun v => -v) := by
  unfold pkgMax pkgMin
  have : ∀ (l : List Rat) (a : Rat), l.foldl (fun m v => if v > m then v else m) (-a) =
      - (l.map fun v => -v).foldl (fun m v => if v < m then v else m) a := by
    intro l
    induction l with
    | nil => intro a; rfl
    | cons v vs ih =>
      intro a
      rw [List.foldl_cons, List.map_cons, List.foldl_cons, ← ih]
      congr 1
      by_cases h : v > -a
      · rw [if_pos h, if_pos (by linarith)]; ring
      · rw [if_neg h, if_neg (by linarith)]
  exact this l _

theorem pkgMin_spec {l : List Rat} (hne : l ≠ []) (hb : ∀ v ∈ l, v ≤ 10 ^ 50) :
    pkgMin l ∈ l ∧ ∀ v ∈ l, pkgMin l ≤ v := by
  obtain ⟨h1, h2, h3⟩ := foldl_min_le l (10 ^ 50)
  refine ⟨?_, h2⟩
  rcases h3 with h3 | h3
  · obtain ⟨v, hv⟩ := List.exists_mem_of_ne_nil l hne
    have : pkgMin l = v := by
      have a := h2 v hv
      have b := hb v hv
      have c : pkgMin l = 10 ^ 50 := h3
      have a' : pkgMin l ≤ v := a
      linarith
    rw [this]; exact hv
  · exact h3

theorem pkgMax_spec {l : List Rat} (hne : l ≠ []) (hb : ∀ v ∈ l, -(10 ^ 50) ≤ v) :
    pkgMax l ∈ l ∧ ∀ v ∈ l, v ≤ pkgMax l := by
  rw [pkgMax_eq]
  have hne' : (l.map fun v => -v) ≠ [] := by simpa using hne
  obtain ⟨a, b⟩ := pkgMin_spec hne' (by
    intro v hv
    obtain ⟨w, hw, rfl⟩ := List.mem_map.mp hv
    have := hb w hw
    linarith)
  constructor
  · obtain ⟨w, hw, e⟩ := List.mem_map.mp a
    rw [← e]; simpa using hw
  · intro v hv
    have := b (-v) (List.mem_map.mpr ⟨v, hv, rfl⟩)
    linarith

theorem le_pkgMin_iff {l : List Rat} (hne : l ≠ []) (hb : ∀ v ∈ l, v ≤ 10 ^ 50) (b x : Rat) :
    pkgMin l - b ≤ x ↔ ∃ v ∈ l, v - b ≤ x := by
  obtain ⟨h1, h2⟩ := pkgMin_spec hne hb
  constructor
  · intro h; exact ⟨_, h1, h⟩
  · rintro ⟨v, hv, h⟩; have := h2 v hv; linarith

theorem pkgMax_le_iff {l : List Rat} (hne : l ≠ []) (hb : ∀ v ∈ l, -(10 ^ 50) ≤ v) (b x : Rat) :
    x ≤ pkgMax l + b ↔ ∃ v ∈ l, x ≤ v + b := by
  obtain ⟨h1, h2⟩ := pkgMax_spec hne hb
  constructor
  · intro h; exact ⟨_, h1, h⟩
  · rintro ⟨v, hv, h⟩; have := h2 v hv; linarith

theorem pkgClamp_spec {v lo hi : Rat} (h : lo ≤ hi) :
    lo ≤ pkgClamp v lo hi ∧ pkgClamp v lo hi ≤ hi ∧
    (∀ w, lo ≤ w → v ≤ w → pkgClamp v lo hi ≤ w) ∧ (∀ w, w ≤ hi → w ≤ v → w ≤ pkgClamp v lo hi) := by
  unfold pkgClamp
  by_cases h1 : v > hi
  · rw [if_pos h1]
    exact ⟨h, le_refl _, fun w _ hw => le_trans (le_of_lt h1) hw, fun w hw _ => hw⟩
  · rw [if_neg h1]
    by_cases h2 : v < lo
    · rw [if_pos h2]
      exact ⟨le_refl _, h, fun w hw _ => hw, fun w _ hw => le_trans hw (le_of_lt h2)⟩
    · rw [if_neg h2]
      exact ⟨not_lt.mp h2, not_lt.mp h1, fun w _ hw => hw, fun w _ hw => hw⟩

/-- In one direction, every coordinate between the ends is in one of the intervals. -/
theorem pkg_axis_cover {lo hi half v : Rat} {n : Nat} (hh : 0 < half)
    (hs : pkgSteps lo hi half = .ok (some n)) (h1 : lo ≤ v) (h2 : v ≤ hi) :
    ∃ x, x < n ∧ pkgClamp (lo + ((x : Rat) + 1) * half - half) lo hi ≤ v ∧
      v ≤ pkgClamp (lo + ((x : Rat) + 1) * half + half) lo hi := by
  have hlh : lo ≤ hi := le_trans h1 h2
  have hq0 : 0 ≤ (hi - lo) / half := div_nonneg (by linarith) (le_of_lt hh)
  -- the number of steps
  have hn : 0 < n ∧ (hi - lo) / half < (n : Rat) + 1 := by
    unfold pkgSteps at hs
    rw [if_neg (ne_of_gt hh)] at hs
    simp only [if_pos hq0] at hs
    split at hs
    · cases hs
    · split at hs
      · cases hs
      · split at hs
        · rename_i h0
          simp only [Outcome.ok.injEq, Option.some.injEq] at hs
          subst hs
          refine ⟨by omega, ?_⟩
          have := Int.lt_floor_add_one ((hi - lo) / half)
          rw [h0] at this
          push_cast at this ⊢
          linarith
        · rename_i hneg h0
          simp only [Outcome.ok.injEq, Option.some.injEq] at hs
          subst hs
          refine ⟨by omega, ?_⟩
          have := Int.lt_floor_add_one ((hi - lo) / half)
          have e : ((⌊(hi - lo) / half⌋.toNat : Int)) = ⌊(hi - lo) / half⌋ :=
            Int.toNat_of_nonneg (by omega)
          have e' : ((⌊(hi - lo) / half⌋.toNat : Nat) : Rat) = ((⌊(hi - lo) / half⌋ : Int) : Rat) := by
            exact_mod_cast congrArg (Int.cast : Int → Rat) e
          rw [e']
          exact this
  obtain ⟨hn0, hn1⟩ := hn
  have hhi : hi - lo < ((n : Rat) + 1) * half := (div_lt_iff₀ hh).mp hn1
  have hk0 : 0 ≤ (v - lo) / half := div_nonneg (by linarith) (le_of_lt hh)
  obtain ⟨k, hk⟩ : ∃ k : Nat, (k : Int) = ⌊(v - lo) / half⌋ :=
    ⟨⌊(v - lo) / half⌋.toNat, Int.toNat_of_nonneg (Int.floor_nonneg.mpr hk0)⟩
  have hkl : (k : Rat) * half ≤ v - lo := by
    have := Int.floor_le ((v - lo) / half)
    rw [← hk] at this
    have t := (le_div_iff₀ hh).mp this
    simpa using t
  have hku : v - lo < ((k : Rat) + 1) * half := by
    have := Int.lt_floor_add_one ((v - lo) / half)
    rw [← hk] at this
    have t := (div_lt_iff₀ hh).mp this
    simpa using t
  by_cases hkn : k < n
  · refine ⟨k, hkn, ?_, ?_⟩
    · exact (pkgClamp_spec hlh).2.2.1 v h1 (by linarith)
    · exact (pkgClamp_spec hlh).2.2.2 v h2 (by linarith)
  · refine ⟨n - 1, by omega, ?_, ?_⟩
    · have hnk : ((n - 1 : Nat) : Rat) + 1 ≤ (k : Rat) := by
        have : n - 1 + 1 ≤ k := by omega
        exact_mod_cast this
      refine (pkgClamp_spec hlh).2.2.1 v h1 ?_
      have := mul_le_mul_of_nonneg_right hnk (le_of_lt hh)
      linarith
    · have hnk : ((n - 1 : Nat) : Rat) + 1 = (n : Rat) := by
        have : n - 1 + 1 = n := by omega
        exact_mod_cast this
      refine (pkgClamp_spec hlh).2.2.2 v h2 ?_
      rw [hnk]
      linarith

theorem insideBox_iff (x0 x1 y0 y1 : Rat) (p : Vec3 Rat) :
    insideBox x0 x1 y0 y1 p = true ↔ x0 ≤ p.x ∧ p.x ≤ x1 ∧ y0 ≤ p.y ∧ p.y ≤ y1 := by
  simp only [insideBox, Bool.and_eq_true, decide_eq_true_eq]
  tauto

/-- What a written package looks like. -/
theorem savePackage_ok {vm : List (Vec3 Rat × List (Vec3 Rat)) → List (Vec3 Rat)} {eo : Bool}
    {o : PkgOptions} {submaps : List PkgSubmap} {pkg : Package}
    (h : savePackage vm eo o submaps = .ok (some pkg)) :
    ∃ nx ny,
      pkgSteps (pkgMin (submaps.map fun s => s.pos.x) - o.border)
        (pkgMax (submaps.map fun s => s.pos.x) + o.border) (o.width * (1 / 2)) = .ok (some nx) ∧
      pkgSteps (pkgMin (submaps.map fun s => s.pos.y) - o.border)
        (pkgMax (submaps.map fun s => s.pos.y) + o.border) (o.width * (1 / 2)) = .ok (some ny) ∧
      pkg.pieces = ((List.range nx).flatMap fun x => (List.range ny).map fun y =>
        pkgPiece vm o submaps (pkgMin (submaps.map fun s => s.pos.x) - o.border)
          (pkgMax (submaps.map fun s => s.pos.x) + o.border)
          (pkgMin (submaps.map fun s => s.pos.y) - o.border)
          (pkgMax (submaps.map fun s => s.pos.y) + o.border) (o.width * (1 / 2)) x y) ∧
      pkg.description = pkg.pieces.map (fun p => (p.cx, p.cy, p.file)) := by
  unfold savePackage at h
  rw [Outcome.bind_eq_ok] at h
  obtain ⟨nx, h1, h⟩ := h
  rw [Outcome.bind_eq_ok] at h
  obtain ⟨ny, h2, h⟩ := h
  cases nx with
  | none => simp at h
  | some nx =>
    cases ny with
    | none => simp at h
    | some ny =>
      dsimp only at h
      rw [Outcome.bind_eq_ok] at h
      obtain ⟨_, _, h⟩ := h
      simp only [Outcome.pure_eq, Outcome.ok.injEq, Option.some.injEq] at h
      subst h
      exact ⟨nx, ny, h1, h2, rfl, rfl⟩

theorem mem_pieces {vm : List (Vec3 Rat × List (Vec3 Rat)) → List (Vec3 Rat)}
    {o : PkgOptions} {submaps : List PkgSubmap} {a b c d e : Rat} {nx ny : Nat} {pc : PkgPiece} :
    pc ∈ ((List.range nx).flatMap fun x => (List.range ny).map fun y =>
        pkgPiece vm o submaps a b c d e x y) ↔
      ∃ x y, x < nx ∧ y < ny ∧ pc = pkgPiece vm o submaps a b c d e x y := by
  simp only [List.mem_flatMap, List.mem_range, List.mem_map]
  constructor
  · rintro ⟨x, hx, y, hy, rfl⟩; exact ⟨x, y, hx, hy, rfl⟩
  · rintro ⟨x, y, hx, hy, rfl⟩; exact ⟨x, hx, y, hy, rfl⟩

/-- Different pieces have different file names. -/
theorem pieces_file_inj {vm : List (Vec3 Rat × List (Vec3 Rat)) → List (Vec3 Rat)}
    {o : PkgOptions} {submaps : List PkgSubmap} {a b c d e : Rat} {x y x' y' : Nat}
    (h : (pkgPiece vm o submaps a b c d e x y).file = (pkgPiece vm o submaps a b c d e x' y').file) :
    x = x' ∧ y = y' := by
  have h' : pieceFileName o.filePrefix x y = pieceFileName o.filePrefix x' y' := h
  have := pieceFileName_inj h'
  constructor
  · have := this.1; omega
  · have := this.2; omega

theorem pieces_files_nodup {vm : List (Vec3 Rat × List (Vec3 Rat)) → List (Vec3 Rat)}
    {o : PkgOptions} {submaps : List PkgSubmap} {a b c d e : Rat} (nx ny : Nat) :
    (((List.range nx).flatMap fun x => (List.range ny).map fun y =>
        pkgPiece vm o submaps a b c d e x y).map (·.file)).Nodup := by
  rw [List.map_flatMap, List.nodup_flatMap]
  constructor
  · intro x _
    rw [List.map_map]
    refine List.Nodup.map ?_ List.nodup_range
    intro y y' h
    exact (pieces_file_inj h).2
  · refine List.Pairwise.imp_of_mem ?_ List.nodup_range
    intro x x' _ _ hne
    rw [Function.onFun, List.disjoint_left]
    intro f hf hf'
    rw [List.map_map, List.mem_map] at hf hf'
    obtain ⟨y, _, e1⟩ := hf
    obtain ⟨y', _, e2⟩ := hf'
    exact hne (pieces_file_inj (e1.trans e2.symm)).1

theorem find_reverse_nodup {l : List PkgPiece} (h : (l.map (·.file)).Nodup) {p : PkgPiece}
    (hp : p ∈ l) : l.reverse.find? (fun q => q.file = p.file) = some p := by
  have hr : (l.reverse.map (·.file)).Nodup := by
    rw [List.map_reverse]; exact List.nodup_reverse.mpr h
  have hp' : p ∈ l.reverse := List.mem_reverse.mpr hp
  revert hr hp'
  generalize l.reverse = r
  intro hr hp'
  induction r with
  | nil => cases hp'
  | cons q qs ih =>
    rw [List.map_cons, List.nodup_cons] at hr
    rw [List.find?_cons]
    by_cases hq : q.file = p.file
    · have : q = p := by
        rcases List.mem_cons.mp hp' with rfl | hm
        · rfl
        · exact absurd (hq ▸ List.mem_map.mpr ⟨p, hm, rfl⟩) hr.1
      simp [this]
    · have hm : p ∈ qs := by
        rcases List.mem_cons.mp hp' with rfl | hm
        · exact absurd rfl hq
        · exact hm
      simp only [hq, decide_false]
      exact ih hr.2 hm

theorem mem_joinPieces {pkg : Package} (hn : (pkg.pieces.map (·.file)).Nodup)
    (hd : pkg.description = pkg.pieces.map (fun p => (p.cx, p.cy, p.file))) (q : Vec3 Rat) :
    q ∈ joinPieces pkg ↔
      ∃ pc ∈ pkg.pieces, ∃ p ∈ pc.cloud, q = { x := p.x + pc.cx, y := p.y + pc.cy, z := p.z } := by
  simp only [joinPieces, hd, List.mem_flatMap, List.mem_map, Package.read]
  constructor
  · rintro ⟨e, ⟨pc, hpc, rfl⟩, hq⟩
    simp only at hq
    rw [find_reverse_nodup hn hpc] at hq
    simp only [Option.map_some, List.mem_map] at hq
    obtain ⟨p, hp, rfl⟩ := hq
    exact ⟨pc, hpc, p, hp, rfl⟩
  · rintro ⟨pc, hpc, p, hp, rfl⟩
    refine ⟨_, ⟨pc, hpc, rfl⟩, ?_⟩
    simp only
    rw [find_reverse_nodup hn hpc]
    simp only [Option.map_some, List.mem_map]
    exact ⟨p, hp, rfl⟩

/-- A point of a nearby submap inside the rectangle is inserted. -/
theorem piece_inserted {vm : List (Vec3 Rat × List (Vec3 Rat)) → List (Vec3 Rat)}
    {o : PkgOptions} {submaps : List PkgSubmap} {a b c d e : Rat} {x y : Nat} {s : PkgSubmap}
    (hs : s ∈ submaps) {p : Vec3 Rat} (hp : p ∈ s.cloud)
    (hin : InPiece (pkgPiece vm o submaps a b c d e x y) p)
    (hx : |p.x - s.pos.x| ≤ o.border) (hy : |p.y - s.pos.y| ≤ o.border) :
    ∃ e' ∈ (pkgPiece vm o submaps a b c d e x y).inserted, e'.1 = s.pos ∧ p ∈ e'.2 := by
  obtain ⟨x1, x2, y1, y2⟩ := hin
  obtain ⟨ax1, ax2⟩ := abs_le.mp hx
  obtain ⟨ay1, ay2⟩ := abs_le.mp hy
  have hc : ∃ e' ∈ pkgInsert (pkgPiece vm o submaps a b c d e x y).minX
      (pkgPiece vm o submaps a b c d e x y).maxX (pkgPiece vm o submaps a b c d e x y).minY
      (pkgPiece vm o submaps a b c d e x y).maxY s, e'.1 = s.pos ∧ p ∈ e'.2 := by
    unfold pkgInsert
    split
    · exact ⟨_, List.mem_singleton.mpr rfl, rfl, hp⟩
    · have hf : p ∈ s.cloud.filter (insideBox (pkgPiece vm o submaps a b c d e x y).minX
        (pkgPiece vm o submaps a b c d e x y).maxX (pkgPiece vm o submaps a b c d e x y).minY
        (pkgPiece vm o submaps a b c d e x y).maxY) := List.mem_filter.mpr
        ⟨hp, (insideBox_iff _ _ _ _ _).mpr ⟨x1, x2, y1, y2⟩⟩
      dsimp only
      split
      · rename_i hempty
        rw [List.isEmpty_iff] at hempty
        rw [hempty] at hf; cases hf
      · exact ⟨_, List.mem_singleton.mpr rfl, rfl, hf⟩
  obtain ⟨e', he, he'⟩ := hc
  refine ⟨e', List.mem_flatMap.mpr ⟨s, List.mem_filter.mpr ⟨hs, ?_⟩, he⟩, he'⟩
  rw [insideBox_iff]
  refine ⟨?_, ?_, ?_, ?_⟩
  · have : (pkgPiece vm o submaps a b c d e x y).minX - o.border ≤ s.pos.x := by linarith
    exact this
  · have : s.pos.x ≤ (pkgPiece vm o submaps a b c d e x y).maxX + o.border := by linarith
    exact this
  · have : (pkgPiece vm o submaps a b c d e x y).minY - o.border ≤ s.pos.y := by linarith
    exact this
  · have : s.pos.y ≤ (pkgPiece vm o submaps a b c d e x y).maxY + o.border := by linarith
    exact this

theorem mem_piece_moved {vm : List (Vec3 Rat × List (Vec3 Rat)) → List (Vec3 Rat)}
    {o : PkgOptions} {submaps : List PkgSubmap} {a b c d e : Rat} {x y : Nat} {pc : PkgPiece}
    (hpc : pc = pkgPiece vm o submaps a b c d e x y) (q : Vec3 Rat) :
    (∃ p ∈ pc.cloud, q = { x := p.x + pc.cx, y := p.y + pc.cy, z := p.z }) ↔
      q ∈ vm pc.inserted ∧ InPiece pc q := by
  have hcl : pc.cloud = ((vm pc.inserted).filter (insideBox pc.minX pc.maxX pc.minY pc.maxY)).map
      fun p => { x := p.x - pc.cx, y := p.y - pc.cy, z := p.z } := by rw [hpc]; rfl
  rw [hcl]
  constructor
  · rintro ⟨p, hp, rfl⟩
    obtain ⟨r, hr, rfl⟩ := List.mem_map.mp hp
    obtain ⟨hr1, hr2⟩ := List.mem_filter.mp hr
    have e : ({ x := r.x - pc.cx + pc.cx, y := r.y - pc.cy + pc.cy, z := r.z } : Vec3 Rat) = r := by
      apply Vec3.ext'
      · exact sub_add_cancel r.x pc.cx
      · exact sub_add_cancel r.y pc.cy
      · rfl
    dsimp only
    rw [e]
    exact ⟨hr1, (insideBox_iff _ _ _ _ _).mp hr2⟩
  · rintro ⟨hq, hin⟩
    refine ⟨{ x := q.x - pc.cx, y := q.y - pc.cy, z := q.z }, ?_, ?_⟩
    · exact List.mem_map.mpr ⟨q, List.mem_filter.mpr ⟨hq, (insideBox_iff _ _ _ _ _).mpr hin⟩, rfl⟩
    · apply Vec3.ext' <;> simp

theorem pkgSteps_some {lo hi half : Rat} (hh : 0 < half) (h : lo ≤ hi)
    (hlt : hi - lo < 2147483648 * half) : ∃ n, pkgSteps lo hi half = .ok (some n) := by
  have hq0 : 0 ≤ (hi - lo) / half := div_nonneg (by linarith) (le_of_lt hh)
  have h0 : 0 ≤ ⌊(hi - lo) / half⌋ := Int.floor_nonneg.mpr hq0
  have h1 : ⌊(hi - lo) / half⌋ < 2147483648 := by
    rw [Int.floor_lt, div_lt_iff₀ hh]
    push_cast
    exact hlt
  unfold pkgSteps
  rw [if_neg (ne_of_gt hh)]
  simp only [if_pos hq0]
  rw [if_neg (by omega), if_neg (by omega)]
  split
  · exact ⟨_, rfl⟩
  · exact ⟨_, rfl⟩

end Verif
