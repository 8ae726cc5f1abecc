import Verif.Model.Filters
import Verif.Model.Mrvm
import Verif.Model.Floats
/-! Thinning a cloud to one point per voxel, with rounded numbers. -/
namespace Verif.Spec

/-- `x` is a number that a `float` can hold. -/
def Single (x : ℚ) : Prop := toF32 x = x

/-- `q` is between two of the numbers `xs`. -/
def Amid (q : ℚ) (xs : List ℚ) : Prop := (∃ a ∈ xs, a ≤ q) ∧ ∃ b ∈ xs, q ≤ b

/-- Like `VoxelMeans`, with rounding: the output has one point per occupied voxel, which lies in that
voxel, inside the smallest box around the voxel's points, and close to their mean. -/
structure VoxelBoxes (vox : InnerPoint Rat → Voxel) (input output : List (InnerPoint Rat)) (vs : List Voxel) : Prop where
  once : vs.Nodup
  occupied : ∀ v, v ∈ vs ↔ ∃ p ∈ input, vox p = v
  count : output.length = vs.length
  box : ∀ (i : Nat) (v : Voxel) (q : InnerPoint Rat), vs[i]? = some v → output[i]? = some q →
    let ps := input.filter (fun p => decide (vox p = v))
    Amid q.x (ps.map (·.x)) ∧ Amid q.y (ps.map (·.y)) ∧ Amid q.z (ps.map (·.z)) ∧
    Amid q.intensity (ps.map (·.intensity))
  same : ∀ (i : Nat) (v : Voxel) (q : InnerPoint Rat), vs[i]? = some v → output[i]? = some q → vox q = v
  near : ∀ (i : Nat) (v : Voxel) (q : InnerPoint Rat) (M : ℚ), vs[i]? = some v → output[i]? = some q →
    let ps := input.filter (fun p => decide (vox p = v))
    (∀ p ∈ ps, |p.x| ≤ M ∧ |p.y| ≤ M ∧ |p.z| ≤ M ∧ |p.intensity| ≤ M) →
    |q.x - (ps.map (·.x)).sum / ps.length| ≤ M / 2 ^ 22 ∧ |q.y - (ps.map (·.y)).sum / ps.length| ≤ M / 2 ^ 22 ∧
    |q.z - (ps.map (·.z)).sum / ps.length| ≤ M / 2 ^ 22 ∧
    |q.intensity - (ps.map (·.intensity)).sum / ps.length| ≤ M / 2 ^ 22

/-- `q` stands for the voxel `c` of the map: near the mean of its points, with its greatest intensity if
that is asked for. -/
def StandsFor (cfg : MrvmCfg) (q : InnerPoint Rat) (c : Cell) : Prop :=
  q.intensity = (if cfg.useMaxIntensity then (c.maxIntensity : ℚ) else 0) ∧
  ∀ M : ℚ, (∀ p ∈ c.points, |p.x| ≤ M ∧ |p.y| ≤ M ∧ |p.z| ≤ M) →
    |q.x - (c.points.map (·.x)).sum / c.points.length| ≤ (cfg.maxPoints + 1) * M / 2 ^ 23 ∧
    |q.y - (c.points.map (·.y)).sum / c.points.length| ≤ (cfg.maxPoints + 1) * M / 2 ^ 23 ∧
    |q.z - (c.points.map (·.z)).sum / c.points.length| ≤ (cfg.maxPoints + 1) * M / 2 ^ 23

end Verif.Spec
