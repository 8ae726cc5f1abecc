import Verif.Model.Pipeline
/-! Specification for C78. -/
namespace Verif.Spec

/-- The clouds that are being matched are in memory: the front end's target, and both submaps of every pair match
under way. -/
structure InUseInMemory (st : Pipe) : Prop where
  front : st.running = true → ∀ k, st.target = some k → st.frameOut k = false
  target : ∀ i ∈ st.active, st.subOut i = false
  source : ∀ i ∈ st.active, st.subOut (i + 1) = false

/-- The size of `frames_` is not read while a frame is being put in. -/
def NoReadWhileTaking (n delay : Nat) : Pipe → List PipeEv → Prop
  | _, [] => True
  | st, e :: es => (e = .read → st.filled = st.slots) ∧ ∀ st', st.step n delay e = .ok st' → NoReadWhileTaking n delay st' es

end Verif.Spec
