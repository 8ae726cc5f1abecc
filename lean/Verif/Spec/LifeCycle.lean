import Verif.Model.LifeCycle
/-! The order in which a map builder is to be used. -/
namespace Verif.Spec

/-- Never initialised and at most destroyed; or initialised once and first, given clouds, ended at most
once and given more clouds, and destroyed at the end only if it was ended. -/
inductive ProperUse : List LifeCall → Prop
  | unused : ProperUse []
  | thrownAway : ProperUse [.destroy]
  | running (seen : Bool) (m : Nat) : ProperUse (.init seen :: List.replicate m .cloud)
  | ended (seen : Bool) (m k : Nat) :
    ProperUse (.init seen :: List.replicate m .cloud ++ .finish :: List.replicate k .cloud)
  | destroyed (seen : Bool) (m k : Nat) :
    ProperUse (.init seen :: List.replicate m .cloud ++ .finish :: List.replicate k .cloud ++ [.destroy])

end Verif.Spec
