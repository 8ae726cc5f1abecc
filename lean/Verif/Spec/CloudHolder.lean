import Verif.Model.CloudHolder
namespace Verif.Spec

/-- What a user of a cloud holder believes it contains: the cloud last put in, with all later
transforms applied; swapping does not matter. -/
def logical (c : BitsCloud) : HolderOp → BitsCloud
  | .transform f => { c with points := c.points.map f }
  | .setCloud d => d
  | _ => c

def logicalRun (c : BitsCloud) (ops : List HolderOp) : BitsCloud := ops.foldl logical c

/-- `saved` tells whether the file of the holder holds the current content: true after a save,
false again after a change; unaffected by the other operations. -/
def savedAfter (saved : Bool) : HolderOp → Bool
  | .transform _ => false
  | .setCloud _ => false
  | .save _ => true
  | _ => saved

/-- The content is only cleared while the file is up to date. -/
def ClearsSafely : Bool → List HolderOp → Prop
  | _, [] => True
  | saved, .clear :: ops => saved = true ∧ ClearsSafely saved ops
  | saved, op :: ops => ClearsSafely (savedAfter saved op) ops

end Verif.Spec
