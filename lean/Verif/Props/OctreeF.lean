import Verif.Proofs.OctreeF
/-
C89: with the rounding of double precision the octree still keeps every point exactly once -- for
cubes on the binary grid.  For other cubes it stops the program or loses points.
-/
namespace Verif
open Spec

/-- If the cube can be halved exactly down to the greatest depth, the tree is built, without a
failed check; every leaf is at most at the greatest depth, holds at most the allowed number of
points unless it is there, and is a cube of the size that belongs to its depth. -/
theorem C89_builds_partial (cfg : OctreeConfig) (d : ℕ) (hd : cfg.maxDepth = d)
    (hc : Halvable d cfg.center cfg.maxSize) (hn : 0 ≤ cfg.maxNum) (points : List Pt)
    (fuel : Nat) (hf : d < fuel) :
    ∃ root, octInitF cfg fuel points = .ok root ∧
      ∀ l ∈ octOutput [root], 0 ≤ l.1 ∧ l.1 ≤ d ∧ (l.1 = d ∨ (l.2.2.length : Int) ≤ cfg.maxNum) ∧
        l.2.1 = CubeBox.ofCenter l.2.1.center l.2.1.size ∧
        l.2.1.size * 2 ^ l.1.toNat = cfg.maxSize := by
  obtain ⟨hg, -, -, hs⟩ := halvable_grid hc
  obtain ⟨root, hr⟩ := octBuildF_ok cfg fuel d 0 _ points hg (by omega) hf
  refine ⟨root, hr, ?_⟩
  intro l hl
  have hl' : l ∈ root.leaves := by simpa using (octOutput_perm [root]).mem_iff.1 hl
  obtain ⟨h1, h2, h3, h4, h5⟩ := octBuildF_shape cfg fuel d 0 _ points root hg (by omega) hr l hl'
  refine ⟨h3, by omega, ?_, h4, by rw [← hs, ← h5]; simp⟩
  rcases h1 with h1 | h1
  · exact Or.inl (by omega)
  · right
    unfold sizeLeMaxNum at h1
    rw [if_neg (by omega)] at h1
    simpa using h1

/-- Every point of the cube is in exactly one leaf, as often as it was given, and inside the cube
of that leaf; nothing else is in a leaf. -/
theorem C89_once_partial (cfg : OctreeConfig) (d : ℕ) (hd : cfg.maxDepth = d)
    (hc : Halvable d cfg.center cfg.maxSize) (points : List Pt) (fuel : Nat) (root : OctNode)
    (h : octInitF cfg fuel points = .ok root) :
    (∀ p ∈ points, InCube cfg.center (cfg.maxSize / 2) p →
      (octOutput [root]).countP (fun l => decide (p ∈ l.2.2)) = 1 ∧
        ∀ l ∈ octOutput [root], p ∈ l.2.2 →
          l.2.2.count p = points.count p ∧ InCube l.2.1.center (l.2.1.half) p) ∧
      ∀ l ∈ octOutput [root], ∀ p ∈ l.2.2, p ∈ points := by
  obtain ⟨hg, hh, hcen, -⟩ := halvable_grid hc
  have hperm : (octOutput [root]).Perm root.leaves := by simpa using octOutput_perm [root]
  constructor
  · intro p hp hin
    obtain ⟨h1, h2⟩ := octBuildF_once cfg fuel d 0 _ points root hg (by omega) p hp
      (by rw [hh, hcen]; exact hin) h
    exact ⟨by rw [hperm.countP_eq]; exact h1, fun l hl => h2 l (hperm.mem_iff.1 hl)⟩
  · intro l hl p hp
    by_contra hc'
    exact octBuildF_absent cfg fuel d 0 _ points root hg (by omega) p hc' h l (hperm.mem_iff.1 hl) hp

/-- A point outside the cube by more than a rounding is dropped, if there are more points than
fit into one leaf. -/
theorem C89_outside_partial (cfg : OctreeConfig) (d : ℕ) (hd : cfg.maxDepth = d)
    (hc : Halvable d cfg.center cfg.maxSize) (points : List Pt) (fuel : Nat) (root : OctNode)
    (h : octInitF cfg fuel points = .ok root) (h0 : d ≠ 0) (hn : 0 ≤ cfg.maxNum)
    (hmany : cfg.maxNum < points.length) (p : Pt)
    (hout : ¬ InCube cfg.center (cfg.maxSize / 2 * (1 + 1 / 2 ^ 52)) p) :
    ∀ l ∈ octOutput [root], p ∉ l.2.2 := by
  obtain ⟨hg, hh, hcen, -⟩ := halvable_grid hc
  have hperm : (octOutput [root]).Perm root.leaves := by simpa using octOutput_perm [root]
  refine fun l hl => octBuildF_outside cfg fuel d 0 _ points root hg (by omega) p ?_
    (by rw [hh, hcen]; exact hout) h l (hperm.mem_iff.1 hl)
  unfold sizeLeMaxNum
  rw [if_neg (by omega)]
  simp
  omega

/-- The default cube of 100 m around the origin can be halved 15 times, and so can one around any
point given in whole millimetres of `1/1024` m. -/
example : Halvable 15 ⟨0, 0, 0⟩ 100 ∧ Halvable 15 ⟨25 / 2, 3 / 1024, -7⟩ 100 := by
  refine ⟨⟨by norm_num, -14, ⟨0, by norm_num⟩, ⟨0, by norm_num⟩, ⟨0, by norm_num⟩, ⟨25, by norm_num⟩,
    by norm_num, by norm_num, by norm_num⟩, ⟨by norm_num, -14, ⟨204800, by norm_num⟩, ⟨48, by norm_num⟩,
    ⟨-114688, by norm_num⟩, ⟨25, by norm_num⟩, ?_, ?_, ?_⟩⟩ <;> norm_num [abs_of_pos]

/-- A cube of the default size around the point (12.3, 45.6, 7.8) stops the program as soon as it
has to be divided. -/
theorem C89_stops_fails (points : List Pt) (hm : 4 < points.length) (fuel : Nat) (hf : 0 < fuel) :
    octInitF { center := ⟨toF64 (123 / 10), toF64 (456 / 10), toF64 (78 / 10)⟩ } fuel points =
      .abort := by
  obtain ⟨fuel, rfl⟩ : ∃ n, fuel = n + 1 := ⟨fuel - 1, by omega⟩
  unfold octInitF octBuildF
  have h1 : sizeLeMaxNum points.length 4 = false := by
    unfold sizeLeMaxNum
    rw [if_neg (by norm_num)]
    simp; omega
  have h2 : (CubeBox.ofCenterF ⟨toF64 (123 / 10), toF64 (456 / 10), toF64 (78 / 10)⟩ 100).subBoxesF =
      .abort := by decide +kernel
  rw [if_neg (by simp [h1]), h2]
  rfl

/-- A cube of the default size around the point (0, 0, 1.7): five points at its centre are lost
without a message. -/
theorem C89_lost_fails :
    ∃ root, octInitF { center := ⟨0, 0, toF64 (17 / 10)⟩ } 16
      (List.replicate 5 ⟨0, 0, toF64 (17 / 10)⟩) = .ok root ∧
      InCube ⟨0, 0, toF64 (17 / 10)⟩ (100 / 2) ⟨0, 0, toF64 (17 / 10)⟩ ∧
      ∀ l ∈ octOutput [root], l.2.2 = [] := by
  have key : (match octInitF { center := ⟨0, 0, toF64 (17 / 10)⟩ } 16
      (List.replicate 5 ⟨0, 0, toF64 (17 / 10)⟩) with
      | .ok r => r.leaves.all (fun l => l.2.2.isEmpty)
      | _ => false) = true := by decide +kernel
  generalize he : octInitF { center := ⟨0, 0, toF64 (17 / 10)⟩ } 16
      (List.replicate 5 ⟨0, 0, toF64 (17 / 10)⟩) = o at key
  cases o with
  | abort => exact absurd key (by simp)
  | ub => exact absurd key (by simp)
  | ok root =>
    refine ⟨root, rfl, ?_, ?_⟩
    · unfold InCube; norm_num
    · intro l hl
      have hl' : l ∈ root.leaves := by simpa using (octOutput_perm [root]).mem_iff.1 hl
      have := List.all_eq_true.1 key l hl'
      simpa using this

end Verif
