import Verif.Model.Submap
/-! Specification vocabulary for submaps. -/
namespace Verif.Spec
variable {G P : Type} [Group G]

/-- The submap holds exactly the frames `fs`, in order, each with its id (trajectory and submap of
the submap, position in the submap), its pose, time and points, and with the local pose that
composed with the submap's pose gives the frame's pose. -/
structure HoldsFrames (s : Submap G P) (fs : List (Frame G P)) : Prop where
  length : s.frames.length = fs.length
  frame : ∀ (i : Nat) (f : Frame G P), fs[i]? = some f → ∃ f' : Frame G P,
    s.frames[i]? = some f' ∧
    f'.id = ⟨s.id.trajectory, s.id.submap, i⟩ ∧
    f'.globalPose = f.globalPose ∧ f'.cloud = f.cloud ∧ f'.stamp = f.stamp ∧
    s.globalPose * f'.localPose = f.globalPose

/-- What can happen to a submap's poses. -/
inductive PoseOp (G P : Type) where
  | insert (f : Frame G P)
  | setPose (g : G)
  | update

/-- Run a history of insertions and pose updates. -/
def runPose (act : G → P → P) (o : SubmapOpts P) (s : Submap G P) :
    List (PoseOp G P) → Outcome (Submap G P)
  | [] => .ok s
  | .insert f :: ops => do
    let s' ← s.insertFrame act o f
    runPose act o s' ops
  | .setPose g :: ops => runPose act o (s.setPose g) ops
  | .update :: ops => runPose act o s.updateFrames ops

end Verif.Spec
