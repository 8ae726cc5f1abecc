/-! Specification vocabulary for ids, file names and paths. -/
namespace Verif.Spec

/-- The text ends with a slash. -/
def EndsWithSlash (s : List Char) : Prop := ∃ e, s = e ++ ['/']

/-- `d` is the longest prefix of `s` ending in a slash (empty if there is none). -/
structure IsDirPart (s d : List Char) : Prop where
  isPrefix : d <+: s
  shape : d = [] ∨ EndsWithSlash d
  longest : ∀ p, p <+: s → EndsWithSlash p → p.length ≤ d.length

/-- A boolean comparison is a strict total order whose "neither is smaller" is equality. -/
structure StrictTotal {α : Type} (lt : α → α → Bool) : Prop where
  irrefl : ∀ a, lt a a = false
  trans : ∀ a b c, lt a b = true → lt b c = true → lt a c = true
  total : ∀ a b, lt a b = true ∨ a = b ∨ lt b a = true

end Verif.Spec
