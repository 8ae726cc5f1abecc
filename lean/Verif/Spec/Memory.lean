import Verif.Spec.SubmapSwap
namespace Verif.Spec

/-- The submap has been built and then matched and saved. -/
def SavedIn (es : List SwapEv) (id : SubmapId) : Prop :=
  ∃ a b c fs, es = a ++ .matched id :: b ∧ .build id c fs ∈ a

/-- The memory manager counts time forward. -/
def TicksForward (es : List SwapEv) : Prop := ∀ id s, SwapEv.tick id s ∈ es → 0 ≤ s

/-- The points of a cloud are in memory. -/
def InMemory (st : SwapState) (k : CloudKey) : Prop := ∃ h, st.holder k = some h ∧ h.inMemory = true

end Verif.Spec
