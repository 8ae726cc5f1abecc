import Verif.Proofs.MapPackage
/-!
C35: map packages.

English: the pieces of a map package together cover the whole bounding box of the trajectory (with
border): every map point inside it is in at least one piece; every point in a piece, moved back by
that piece's centre, is a map point inside the bounding box; pieces have distinct grid positions and
the description file lists exactly the pieces.

`vm` is what the voxel map of a piece makes of the clouds inserted in it.
-/
namespace Verif
open Spec

variable {vm : List (Vec3 Rat × List (Vec3 Rat)) → List (Vec3 Rat)} {eo : Bool}
  {o : PkgOptions} {submaps : List PkgSubmap} {pkg : Package}

/-- The rectangles of the pieces cover the area, and lie in it. -/
theorem C35_cover (hw : 0 < o.width) (hbd : 0 ≤ o.border) (hne : submaps ≠ []) (hb : Bounded submaps)
    (h : savePackage vm eo o submaps = .ok (some pkg)) (p : Vec3 Rat) :
    InArea o.border submaps p ↔ ∃ pc ∈ pkg.pieces, InPiece pc p := by
  obtain ⟨nx, ny, h1, h2, h3, _⟩ := savePackage_ok h
  have hx : (submaps.map fun s => s.pos.x) ≠ [] := by simpa using hne
  have hy : (submaps.map fun s => s.pos.y) ≠ [] := by simpa using hne
  have hbx : ∀ v ∈ (submaps.map fun s => s.pos.x), v ≤ 10 ^ 50 := by
    intro v hv
    obtain ⟨s, hs, rfl⟩ := List.mem_map.mp hv
    exact (abs_le.mp (hb s hs).1).2
  have hby : ∀ v ∈ (submaps.map fun s => s.pos.y), v ≤ 10 ^ 50 := by
    intro v hv
    obtain ⟨s, hs, rfl⟩ := List.mem_map.mp hv
    exact (abs_le.mp (hb s hs).2).2
  have hbx' : ∀ v ∈ (submaps.map fun s => s.pos.x), -(10 ^ 50) ≤ v := by
    intro v hv
    obtain ⟨s, hs, rfl⟩ := List.mem_map.mp hv
    exact (abs_le.mp (hb s hs).1).1
  have hby' : ∀ v ∈ (submaps.map fun s => s.pos.y), -(10 ^ 50) ≤ v := by
    intro v hv
    obtain ⟨s, hs, rfl⟩ := List.mem_map.mp hv
    exact (abs_le.mp (hb s hs).2).1
  have hh : 0 < o.width * (1 / 2) := by linarith
  have harea : InArea o.border submaps p ↔
      pkgMin (submaps.map fun s => s.pos.x) - o.border ≤ p.x ∧
      p.x ≤ pkgMax (submaps.map fun s => s.pos.x) + o.border ∧
      pkgMin (submaps.map fun s => s.pos.y) - o.border ≤ p.y ∧
      p.y ≤ pkgMax (submaps.map fun s => s.pos.y) + o.border := by
    rw [le_pkgMin_iff hx hbx, pkgMax_le_iff hx hbx', le_pkgMin_iff hy hby, pkgMax_le_iff hy hby']
    simp [InArea]
  rw [harea, h3]
  constructor
  · rintro ⟨a, b, c, d⟩
    obtain ⟨x, hxn, x1, x2⟩ := pkg_axis_cover hh h1 a b
    obtain ⟨y, hyn, y1, y2⟩ := pkg_axis_cover hh h2 c d
    exact ⟨_, mem_pieces.mpr ⟨x, y, hxn, hyn, rfl⟩, x1, x2, y1, y2⟩
  · rintro ⟨pc, hpc, hin⟩
    obtain ⟨x, y, _, _, rfl⟩ := mem_pieces.mp hpc
    obtain ⟨x1, x2, y1, y2⟩ := hin
    have lx : pkgMin (submaps.map fun s => s.pos.x) - o.border ≤
        pkgMax (submaps.map fun s => s.pos.x) + o.border := by
      obtain ⟨a, _⟩ := pkgMin_spec hx hbx
      have := (pkgMax_spec hx hbx').2 _ a
      linarith
    have ly : pkgMin (submaps.map fun s => s.pos.y) - o.border ≤
        pkgMax (submaps.map fun s => s.pos.y) + o.border := by
      obtain ⟨a, _⟩ := pkgMin_spec hy hby
      have := (pkgMax_spec hy hby').2 _ a
      linarith
    exact ⟨le_trans (pkgClamp_spec lx).1 x1, le_trans x2 (pkgClamp_spec lx).2.1,
      le_trans (pkgClamp_spec ly).1 y1, le_trans y2 (pkgClamp_spec ly).2.1⟩

/-- A map point in the area is handed to the voxel map of a piece whose rectangle contains it, and
if that voxel map keeps it, it is in the joined map again, unchanged.  Missing: points further than
the border from the position of their submap, see `C35_far_fails`. -/
theorem C35_points_partial (hw : 0 < o.width) (hbd : 0 ≤ o.border) (hb : Bounded submaps)
    (h : savePackage vm eo o submaps = .ok (some pkg)) {s : PkgSubmap} (hs : s ∈ submaps)
    {p : Vec3 Rat} (hp : p ∈ s.cloud) (ha : InArea o.border submaps p)
    (hx : |p.x - s.pos.x| ≤ o.border) (hy : |p.y - s.pos.y| ≤ o.border) :
    ∃ pc ∈ pkg.pieces, InPiece pc p ∧ (∃ e ∈ pc.inserted, e.1 = s.pos ∧ p ∈ e.2) ∧
      (p ∈ vm pc.inserted → p ∈ joinPieces pkg) := by
  have hne : submaps ≠ [] := List.ne_nil_of_mem hs
  obtain ⟨pc, hpc, hin⟩ := (C35_cover hw hbd hne hb h p).mp ha
  refine ⟨pc, hpc, hin, ?_⟩
  obtain ⟨nx, ny, h1, h2, h3, h4⟩ := savePackage_ok h
  have hpc' := hpc
  rw [h3] at hpc'
  obtain ⟨x, y, _, _, rfl⟩ := mem_pieces.mp hpc'
  obtain ⟨x1, x2, y1, y2⟩ := hin
  constructor
  · exact piece_inserted hs hp ⟨x1, x2, y1, y2⟩ hx hy
  · intro hv
    have hn : (pkg.pieces.map (·.file)).Nodup := by rw [h3]; exact pieces_files_nodup nx ny
    rw [mem_joinPieces hn h4]
    exact ⟨_, hpc, (mem_piece_moved rfl p).mpr ⟨hv, x1, x2, y1, y2⟩⟩

/-- The joined map is exactly what the pieces' voxel maps hold inside the pieces' rectangles; in
particular every joined point lies in the area. -/
theorem C35_join (h : savePackage vm eo o submaps = .ok (some pkg)) (q : Vec3 Rat) :
    q ∈ joinPieces pkg ↔ ∃ pc ∈ pkg.pieces, q ∈ vm pc.inserted ∧ InPiece pc q := by
  obtain ⟨nx, ny, _, _, h3, h4⟩ := savePackage_ok h
  have hn : (pkg.pieces.map (·.file)).Nodup := by rw [h3]; exact pieces_files_nodup nx ny
  rw [mem_joinPieces hn h4]
  constructor
  · rintro ⟨pc, hpc, hp⟩
    refine ⟨pc, hpc, ?_⟩
    rw [h3] at hpc
    obtain ⟨x, y, _, _, e⟩ := mem_pieces.mp hpc
    exact (mem_piece_moved e q).mp hp
  · rintro ⟨pc, hpc, hq⟩
    refine ⟨pc, hpc, ?_⟩
    rw [h3] at hpc
    obtain ⟨x, y, _, _, e⟩ := mem_pieces.mp hpc
    exact (mem_piece_moved e q).mpr hq

/-- Only points of submaps are handed to the voxel maps. -/
theorem C35_inserted (h : savePackage vm eo o submaps = .ok (some pkg)) :
    ∀ pc ∈ pkg.pieces, ∀ e ∈ pc.inserted, ∃ s ∈ submaps, e.1 = s.pos ∧ ∀ p ∈ e.2, p ∈ s.cloud := by
  obtain ⟨nx, ny, _, _, h3, _⟩ := savePackage_ok h
  intro pc hpc e he
  rw [h3] at hpc
  obtain ⟨x, y, _, _, rfl⟩ := mem_pieces.mp hpc
  obtain ⟨s, hs, he⟩ := List.mem_flatMap.mp he
  refine ⟨s, (List.mem_filter.mp hs).1, ?_⟩
  unfold pkgInsert at he
  split at he
  · rw [List.mem_singleton] at he
    subst he
    exact ⟨rfl, fun p hp => hp⟩
  · dsimp only at he
    split at he
    · cases he
    · rw [List.mem_singleton] at he
      subst he
      exact ⟨rfl, fun p hp => (List.mem_filter.mp hp).1⟩

/-- Grid positions are distinct, so are file names, and the description lists exactly the pieces. -/
theorem C35_description (h : savePackage vm eo o submaps = .ok (some pkg)) :
    (∃ nx ny, pkg.pieces.map (fun p => (p.ix, p.iy)) =
      (List.range nx).flatMap fun x => (List.range ny).map fun y => (x, y)) ∧
    (pkg.pieces.map (·.file)).Nodup ∧
    pkg.description = pkg.pieces.map (fun p => (p.cx, p.cy, p.file)) := by
  obtain ⟨nx, ny, _, _, h3, h4⟩ := savePackage_ok h
  refine ⟨⟨nx, ny, ?_⟩, by rw [h3]; exact pieces_files_nodup nx ny, h4⟩
  rw [h3, List.map_flatMap]
  simp only [List.map_map]
  rfl

/-- A package is written whenever the area is less than 2³¹ half pieces wide and high (and empty
pieces can be stored). -/
theorem C35_written (hw : 0 < o.width) (hbd : 0 ≤ o.border) (hne : submaps ≠ [])
    (hb : Bounded submaps)
    (hx : ∀ s ∈ submaps, ∀ t ∈ submaps, t.pos.x - s.pos.x + 2 * o.border < 2147483648 * (o.width / 2))
    (hy : ∀ s ∈ submaps, ∀ t ∈ submaps, t.pos.y - s.pos.y + 2 * o.border < 2147483648 * (o.width / 2)) :
    ∃ pkg, savePackage vm true o submaps = .ok (some pkg) := by
  have hh : 0 < o.width * (1 / 2) := by linarith
  have hx' : (submaps.map fun s => s.pos.x) ≠ [] := by simpa using hne
  have hy' : (submaps.map fun s => s.pos.y) ≠ [] := by simpa using hne
  have hsx : ∃ n, pkgSteps (pkgMin (submaps.map fun s => s.pos.x) - o.border)
      (pkgMax (submaps.map fun s => s.pos.x) + o.border) (o.width * (1 / 2)) = .ok (some n) := by
    have m1 := pkgMin_spec hx' (by
      intro v hv
      obtain ⟨s, hs, rfl⟩ := List.mem_map.mp hv
      exact (abs_le.mp (hb s hs).1).2)
    have m2 := pkgMax_spec hx' (by
      intro v hv
      obtain ⟨s, hs, rfl⟩ := List.mem_map.mp hv
      exact (abs_le.mp (hb s hs).1).1)
    obtain ⟨s, hs, es⟩ := List.mem_map.mp m1.1
    obtain ⟨t, ht, et⟩ := List.mem_map.mp m2.1
    refine pkgSteps_some hh ?_ ?_
    · have := m1.2 _ m2.1; linarith
    · have := hx s hs t ht
      rw [es, et] at this
      linarith
  have hsy : ∃ n, pkgSteps (pkgMin (submaps.map fun s => s.pos.y) - o.border)
      (pkgMax (submaps.map fun s => s.pos.y) + o.border) (o.width * (1 / 2)) = .ok (some n) := by
    have m1 := pkgMin_spec hy' (by
      intro v hv
      obtain ⟨s, hs, rfl⟩ := List.mem_map.mp hv
      exact (abs_le.mp (hb s hs).2).2)
    have m2 := pkgMax_spec hy' (by
      intro v hv
      obtain ⟨s, hs, rfl⟩ := List.mem_map.mp hv
      exact (abs_le.mp (hb s hs).2).1)
    obtain ⟨s, hs, es⟩ := List.mem_map.mp m1.1
    obtain ⟨t, ht, et⟩ := List.mem_map.mp m2.1
    refine pkgSteps_some hh ?_ ?_
    · have := m1.2 _ m2.1; linarith
    · have := hy s hs t ht
      rw [es, et] at this
      linarith
  obtain ⟨nx, e1⟩ := hsx
  obtain ⟨ny, e2⟩ := hsy
  simp only [savePackage, e1, e2, Outcome.bind_ok]
  rw [Outcome.check_pos (Or.inl trivial)]
  exact ⟨_, rfl⟩

/-- A voxel map that keeps everything. -/
def keepAll (l : List (Vec3 Rat × List (Vec3 Rat))) : List (Vec3 Rat) := l.flatMap Prod.snd

/-- The joined map of a package, and whether one was written. -/
def joinedMap (eo : Bool) (o : PkgOptions) (submaps : List PkgSubmap) : Bool × List (Vec3 Rat) :=
  match savePackage keepAll eo o submaps with
  | .ok (some pkg) => (true, joinPieces pkg)
  | _ => (false, [])

/-- A piece width of zero is a division by zero converted to an integer: undefined, whatever the submaps. -/
theorem C35_zero_width (vm : List (Vec3 Rat × List (Vec3 Rat)) → List (Vec3 Rat)) (eo : Bool) (o : PkgOptions)
    (submaps : List PkgSubmap) (hw : o.width = 0) : savePackage vm eo o submaps = .ub := by
  have h0 : ∀ lo hi : Rat, pkgSteps lo hi (o.width * (1 / 2)) = .ub := by
    intro lo hi
    unfold pkgSteps
    rw [if_pos (by rw [hw]; norm_num)]
  simp only [savePackage, h0]
  rfl

/-- Pieces of width 4, border 1, submaps at 0 and 20: the first submap sees the point (10, 0), which
is in the middle of the area, and the point is in no piece, although no voxel map dropped it. -/
theorem C35_far_fails :
    let o : PkgOptions := { border := 1, width := 4, filePrefix := [] }
    let submaps : List PkgSubmap :=
      [{ pos := ⟨0, 0, 0⟩, cloud := [⟨10, 0, 0⟩, ⟨1, 0, 0⟩] },
       { pos := ⟨20, 0, 0⟩, cloud := [⟨20, 1, 0⟩] }]
    InArea 1 submaps ⟨10, 0, 0⟩ ∧ (joinedMap true o submaps).1 = true ∧
      ⟨10, 0, 0⟩ ∉ (joinedMap true o submaps).2 ∧ ⟨1, 0, 0⟩ ∈ (joinedMap true o submaps).2 := by
  refine ⟨⟨⟨_, List.mem_cons_self, by norm_num⟩,
    ⟨_, List.mem_cons_of_mem _ List.mem_cons_self, by norm_num⟩,
    ⟨_, List.mem_cons_self, by norm_num⟩, ⟨_, List.mem_cons_self, by norm_num⟩⟩, ?_⟩
  decide +kernel

/-- Without submaps the number of pieces is not representable: undefined. -/
theorem C35_no_submaps_fails :
    (match savePackage keepAll true { border := 100, width := 500, filePrefix := [] } [] with
     | .ub => true | _ => false) = true := by
  decide +kernel

end Verif
