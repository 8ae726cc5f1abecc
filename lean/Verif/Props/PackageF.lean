import Verif.Proofs.PackageF
import Verif.Props.MapPackage
/-!
C100: map packages with the number types of the code.

English: also with positions in `double` and points in `float`, every map point inside the area is in a piece, and
cutting a map into pieces and joining them gives every point back to within the resolution of a `float`.
-/
namespace Verif
open Spec

variable {vm : List (Vec3 Rat × List (Vec3 Rat)) → List (Vec3 Rat)} {eo : Bool} {stack : Nat}
  {o : PkgOptions} {submaps : List PkgSubmap} {pkg : Package}

/-- **Partial.** Numbers up to `A` (positions with the border, and the width of a piece): a map point at least
`A / 2^46` inside the area (for a map of 100 km that is about a nanometre), and within the border from its submap,
is handed to the voxel map of a piece whose rectangle contains it; if that voxel map keeps it, the joined map has a
point with the same height that is off by at most (width / 2 + its coordinate) / 2^24 or so in each direction.
Missing: the outermost points, see `C100_edge_fails`. -/
theorem C100_points_partial {A : Rat} (hA : PkgScale A o submaps)
    (h : savePackageF vm eo stack o submaps = .ok (some pkg)) {s : PkgSubmap} (hs : s ∈ submaps)
    {p : Vec3 Rat} (hp : p ∈ s.cloud) (ha : WellInArea o.border (A / 2 ^ 46) submaps p)
    (hx : |p.x - s.pos.x| ≤ o.border - A / 2 ^ 46) (hy : |p.y - s.pos.y| ≤ o.border - A / 2 ^ 46) :
    ∃ pc ∈ pkg.pieces, InPiece pc p ∧ (∃ e ∈ pc.inserted, e.1 = s.pos ∧ p ∈ e.2) ∧
      (p ∈ vm pc.inserted → ∃ q ∈ joinPiecesF pkg, q.z = p.z ∧
        |q.x - p.x| ≤ 1001 / 1000 * (o.width / 2 + |p.x|) / 2 ^ 24 ∧
        |q.y - p.y| ≤ 1001 / 1000 * (o.width / 2 + |p.y|) / 2 ^ 24) := by
  obtain ⟨nx, ny, lx, hx', ly, hy', hf, e1, e2, e3, e4, e5, h1, h2, -, h3, h4⟩ := savePackageF_ok h
  obtain ⟨⟨ux, hux, hux'⟩, ⟨vx, hvx, hvx'⟩, ⟨uy, huy, huy'⟩, ⟨vy, hvy, hvy'⟩⟩ := ha
  obtain ⟨x, hxn, x1, x2, x3, x4⟩ := pkgF_axis (l := submaps.map fun s => s.pos.x) (v := p.x) (A := A) (b := o.border) (w := o.width) (n := nx) e1 e2 e5
    (by intro u hu; obtain ⟨s, hs, rfl⟩ := List.mem_map.1 hu; exact (hA.pos s hs).1)
    hA.border hA.double hA.width hA.wide hA.fine hA.max h1
    ⟨ux.pos.x, List.mem_map.2 ⟨ux, hux, rfl⟩, hux'⟩ ⟨vx.pos.x, List.mem_map.2 ⟨vx, hvx, rfl⟩, hvx'⟩
  obtain ⟨y, hyn, y1, y2, y3, y4⟩ := pkgF_axis (l := submaps.map fun s => s.pos.y) (v := p.y) (A := A) (b := o.border) (w := o.width) (n := ny) e3 e4 e5
    (by intro u hu; obtain ⟨s, hs, rfl⟩ := List.mem_map.1 hu; exact (hA.pos s hs).2)
    hA.border hA.double hA.width hA.wide hA.fine hA.max h2
    ⟨uy.pos.y, List.mem_map.2 ⟨uy, huy, rfl⟩, huy'⟩ ⟨vy.pos.y, List.mem_map.2 ⟨vy, hvy, rfl⟩, hvy'⟩
  have l1 := x4 _ (List.mem_map.2 ⟨s, hs, rfl⟩) hx
  have l2 := y4 _ (List.mem_map.2 ⟨s, hs, rfl⟩) hy
  have hn : (pkg.pieces.map (·.file)).Nodup := by rw [h3]; exact piecesF_nodup nx ny
  exact piecesF_result h3 hn h4 hs hp hxn hyn ⟨x1, x2⟩ ⟨y1, y2⟩ l1 l2 x3 y3

/-- A coordinate that is five times farther from the origin than from the centre of its piece comes back exactly
as it was. -/
theorem C100_exact {p c : Rat} (hp : IsFloat p) (hc : 5 * |p - c| ≤ |p|) : pkgJoinF (pkgCutF p c) c = p := by
  refine joinF_exact ?_ hc
  obtain ⟨m, k, hm, rfl⟩ := hp
  exact flRound_exact 24 (by norm_num) m k hm

example : pkgJoinF (pkgCutF (13421773 / 2 ^ 10) 13000) 13000 = 13421773 / 2 ^ 10 := by decide +kernel

/-- Every joined point is a point that the voxel map of a piece holds inside its rectangle, off by at most the
resolution. -/
theorem C100_join (h : savePackageF vm eo stack o submaps = .ok (some pkg)) (q : Vec3 Rat)
    (hq : q ∈ joinPiecesF pkg) : ∃ pc ∈ pkg.pieces, ∃ p ∈ vm pc.inserted, InPiece pc p ∧ q.z = p.z ∧
      |q.x - p.x| ≤ 1001 / 1000 * (|p.x - pc.cx| + |p.x|) / 2 ^ 24 ∧
      |q.y - p.y| ≤ 1001 / 1000 * (|p.y - pc.cy| + |p.y|) / 2 ^ 24 := by
  obtain ⟨nx, ny, lx, hx', ly, hy', hf, e1, e2, e3, e4, e5, h1, h2, -, h3, h4⟩ := savePackageF_ok h
  have hn : (pkg.pieces.map (·.file)).Nodup := by rw [h3]; exact piecesF_nodup nx ny
  obtain ⟨pc, hpc, r, hr, rfl⟩ := (mem_joinPiecesF hn h4 _).1 hq
  refine ⟨pc, hpc, ?_⟩
  rw [h3] at hpc
  obtain ⟨x, y, _, _, rfl⟩ := mem_piecesF.1 hpc
  obtain ⟨p, hp, rfl⟩ := List.mem_map.1 hr
  obtain ⟨hv, hbox⟩ := List.mem_filter.1 hp
  refine ⟨p, hv, (insideBox_iff _ _ _ _ p).1 hbox, rfl, ?_, ?_⟩
  · refine le_trans (joinF_err _ _) (le_of_eq ?_)
    show (1001 / 1000 * |p.x - pkgCentreF _ _ x| + 1001 / 1000 * |p.x|) / 2 ^ 24 =
      1001 / 1000 * (|p.x - pkgCentreF _ _ x| + |p.x|) / 2 ^ 24
    ring
  · refine le_trans (joinF_err _ _) (le_of_eq ?_)
    show (1001 / 1000 * |p.y - pkgCentreF _ _ y| + 1001 / 1000 * |p.y|) / 2 ^ 24 =
      1001 / 1000 * (|p.y - pkgCentreF _ _ y| + |p.y|) / 2 ^ 24
    ring

/-- The pieces are kept on the stack: with more of them than it holds the program is undefined. -/
theorem C100_stack (h : savePackageF vm eo stack o submaps = .ok (some pkg)) : pkg.pieces.length ≤ stack := by
  obtain ⟨nx, ny, lx, hx', ly, hy', hf, -, -, -, -, -, -, -, hst, h3, -⟩ := savePackageF_ok h
  rw [h3]
  simpa [List.length_flatMap] using hst

/-- The joined map of a package, and whether one was written. -/
def joinedMapF (stack : Nat) (o : PkgOptions) (submaps : List PkgSubmap) : Option (List (Vec3 Rat)) :=
  match savePackageF keepAll true stack o submaps with
  | .ok (some pkg) => some (joinPiecesF pkg)
  | _ => none

/-- Non-vacuity: pieces of 4 m, border 1 m, two submaps. -/
example : joinedMapF 100 { border := 1, width := 16, filePrefix := [] }
      [{ pos := ⟨0, 0, 0⟩, cloud := [⟨1 / 2, 0, 3⟩] }, { pos := ⟨5, 0, 0⟩, cloud := [⟨5, 1 / 2, 0⟩] }] =
    some [⟨1 / 2, 0, 3⟩, ⟨5, 1 / 2, 0⟩] := by decide +kernel

example : PkgScale 6 { border := 1, width := 4, filePrefix := [] }
    [{ pos := ⟨0, 0, 0⟩, cloud := [⟨1 / 2, 0, 3⟩] }, { pos := ⟨5, 0, 0⟩, cloud := [⟨5, 1 / 2, 0⟩] }] where
  pos := by
    intro s hs
    simp only [List.mem_cons, List.not_mem_nil, or_false] at hs
    rcases hs with rfl | rfl <;> norm_num
  border := by norm_num
  double := ⟨4, 0, by norm_num, by norm_num⟩
  width := by norm_num
  wide := by norm_num
  fine := by norm_num
  max := by norm_num

example : WellInArea 1 (6 / 2 ^ 46) [{ pos := ⟨0, 0, 0⟩, cloud := [⟨1 / 2, 0, 3⟩] }, { pos := ⟨5, 0, 0⟩, cloud := [] }]
    ⟨1 / 2, 0, 3⟩ :=
  ⟨⟨_, List.mem_cons_self, by norm_num⟩, ⟨_, List.mem_cons_self, by norm_num⟩,
    ⟨_, List.mem_cons_self, by norm_num⟩, ⟨_, List.mem_cons_self, by norm_num⟩⟩

/-- C100 is false at the edge of the area: with pieces of 500 m and no border the lower edge of the first piece is
computed as 0 although the leftmost submap is at -2^-60, and its point there is in no piece. -/
theorem C100_edge_fails :
    let submaps : List PkgSubmap :=
      [{ pos := ⟨-(1 / 2 ^ 60), 0, 0⟩, cloud := [⟨-(1 / 2 ^ 60), 0, 0⟩] }, { pos := ⟨1, 0, 0⟩, cloud := [⟨1, 0, 0⟩] }]
    InArea 0 submaps ⟨-(1 / 2 ^ 60), 0, 0⟩ ∧
    joinedMapF 100 { border := 0, width := 500, filePrefix := [] } submaps = some [⟨1, 0, 0⟩] := by
  refine ⟨⟨⟨_, List.mem_cons_self, by norm_num⟩, ⟨_, List.mem_cons_self, by norm_num⟩,
    ⟨_, List.mem_cons_self, by norm_num⟩, ⟨_, List.mem_cons_self, by norm_num⟩⟩, ?_⟩
  decide +kernel

/-- The joined points are not exactly the old ones: 0.1 in a piece with centre 50 comes back as
0.0999985. -/
theorem C100_exact_fails :
    IsFloat (13421773 / 2 ^ 27) ∧ pkgJoinF (pkgCutF (13421773 / 2 ^ 27) 50) 50 ≠ 13421773 / 2 ^ 27 ∧
    |pkgJoinF (pkgCutF (13421773 / 2 ^ 27) 50) 50 - 13421773 / 2 ^ 27| < 2 / 10 ^ 6 := by
  refine ⟨⟨13421773, -27, by norm_num, by norm_num⟩, by decide +kernel, by decide +kernel⟩

/-- A map of 100 km by 100 km in pieces of 2 m: 10^10 pieces do not fit on any stack. -/
theorem C100_stack_fails :
    (match savePackageF keepAll true 1000000 { border := 0, width := 2, filePrefix := [] }
      [{ pos := ⟨0, 0, 0⟩, cloud := [] }, { pos := ⟨100000, 100000, 0⟩, cloud := [] }] with
     | .ub => true | _ => false) = true := by decide +kernel

end Verif
