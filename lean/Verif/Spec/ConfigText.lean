import Verif.Spec.XmlHand
import Verif.Spec.Config
import Verif.Model.ConfigText
import Verif.Props.FilterConfig
/-
What a user reads in a settings file (C104): the first element of each name on the way, the first
attribute of the name, and the value its text stands for.
-/
namespace Verif.Spec
open Verif

/-- The first element of that name among some siblings: its attributes and its children. -/
def firstElement : XmlForest → String → Option (XmlAttrs × XmlForest)
  | .nil, _ => none
  | .elem n a k t, m => if n = m.toList then some (a, k) else firstElement t m
  | .text _ t, m => firstElement t m

/-- Going down a path of names from an element. -/
def elementAt (e : XmlAttrs × XmlForest) : List String → Option (XmlAttrs × XmlForest)
  | [] => some e
  | n :: p => (firstElement e.2 n).bind fun e' => elementAt e' p

/-- The settings in a file. -/
def settingsElement (f : XmlForest) : Option (XmlAttrs × XmlForest) := elementAt ([], f) ["edward_liu", "static_mapping"]

/-- The first value given to an attribute. -/
def firstValue : XmlAttrs → String → Option (List Char)
  | [], _ => none
  | (n, v) :: a, m => if n = m.toList then some v else firstValue a m

/-- The text of an option in the file. -/
def writtenOption (f : XmlForest) (path : List String) (attr : String) : Option (List Char) :=
  ((settingsElement f).bind fun e => elementAt e path).bind fun e => firstValue e.1 attr

/-- Where a number ends. -/
def EndsInt (ds rest : List Char) : Prop :=
  (∀ c, rest.head? = some c → c < '0' ∨ '9' < c) ∧ (ds = ['0'] → rest.head? ≠ some 'x' ∧ rest.head? ≠ some 'X')

/-- What a text means as a value of a kind.  Numbers may stand behind blanks and are followed by
something that is no part of a number; a number with a fraction is rounded to the nearest `double`,
and for a `float` option then to the nearest `float`. -/
inductive ReadsAs : OptKind → List Char → OptVal → Prop
  | on {c : Char} {r : List Char} : c = '1' ∨ c = 't' ∨ c = 'T' ∨ c = 'y' ∨ c = 'Y' → ReadsAs .bool (c :: r) (.bool true)
  | off {c : Char} {r : List Char} : c = '0' ∨ c = 'f' ∨ c = 'F' ∨ c = 'n' ∨ c = 'N' → ReadsAs .bool (c :: r) (.bool false)
  | int {b ds rest : List Char} {sign : Option Char} {v : Nat} : Blank b → IsSign sign → digitsVal ds 0 = some v → ds ≠ [] →
      EndsInt ds rest → -2147483648 ≤ withSign sign v → withSign sign v ≤ 2147483647 →
      ReadsAs .int (b ++ sign.toList ++ (ds ++ rest)) (.int (withSign sign v))
  | double {b s rest : List Char} {v : Rat} : Blank b → readSci s = some v → s ≠ [] → EndsNumber rest →
      ReadsAs .double (b ++ s ++ rest) (.num (toF64 v))
  | float {b s rest : List Char} {v : Rat} : Blank b → readSci s = some v → s ≠ [] → EndsNumber rest →
      ReadsAs .float (b ++ s ++ rest) (.num (toF32 (toF64 v)))
  | string {s : List Char} : ReadsAs .string s (.str s)

/-! The filter section -/

/-- All elements of a name among some siblings. -/
def allElements : XmlForest → String → List (XmlAttrs × XmlForest)
  | .nil, _ => []
  | .elem n a k t, m => if n = m.toList then (a, k) :: allElements t m else allElements t m
  | .text _ t, m => allElements t m

/-- The first text inside an element. -/
def bodyOf : XmlForest → List Char
  | .nil => []
  | .elem _ _ _ t => bodyOf t
  | .text v _ => v

/-- The `name` of an element. -/
def nameOf (e : XmlAttrs × XmlForest) : List Char := (firstValue e.1 "name").getD []

/-- The filters in the file. -/
def filterElements (f : XmlForest) : List (XmlAttrs × XmlForest) :=
  match (settingsElement f).bind fun e => elementAt e ["filters"] with
  | none => []
  | some e => allElements e.2 "filter"

/-- The filters the program knows. -/
def knownFilters : List String :=
  ["RandomSampler", "RangeImage", "GroundRemoval", "GroundRemoval2", "Range", "StatisticRemoval", "VoxelGrid", "AxisRange",
    "BoundingBoxRemoval"]

/-- The last `param` of a name in a filter. -/
def lastParam (e : XmlAttrs × XmlForest) (n : String) : Option (XmlAttrs × XmlForest) :=
  ((allElements e.2 "param").filter fun p => decide (nameOf p = n.toList)).getLast?

/-- `w` is what the `param` gives a member of type `t`: with type 0 the integer in its text (the
nearest `float` if the member is one), with type 1 the number in its text, without its fraction if the
member is an integer. -/
def ParamGives (t : ParamType) (p : XmlAttrs × XmlForest) (w : Rat) : Prop :=
  ∃ tt, firstValue p.1 "type" = some tt ∧
    (ReadsAs .int tt (.int 0) → ∀ v, ReadsAs .int (bodyOf p.2) (.int v) →
      (t = .int32 → w = v) ∧ (t = .float → w = toF32 v)) ∧
    (ReadsAs .int tt (.int 1) → ∀ v, ReadsAs .float (bodyOf p.2) (.num v) → Holds t v w)

/-! The matchers -/

/-- The `param` elements for the matcher of a type: those of the first `registrator_options` of that
type in a section. -/
def matcherParamsOf (f : XmlForest) (path : List String) (type : Int) : List (XmlAttrs × XmlForest) :=
  match (settingsElement f).bind fun e => elementAt e path with
  | none => []
  | some m =>
    match (allElements m.2 "registrator_options").find? fun x => decide (((firstValue x.1 "type").map getInt).getD 0 = type) with
    | none => []
    | some x => allElements x.2 "param"

/-- The matcher has been set up from these elements: every parameter has the value in the last one of
its name, or else its default. -/
def MatcherSet (ps : List (XmlAttrs × XmlForest)) (type : Int) (m : List MatcherItem) : Prop :=
  ∃ items, matcherItems type = some items ∧
    List.Forall₂ (fun i j : MatcherItem => j.name = i.name ∧ j.kind = i.kind ∧
      match (ps.filter fun p => decide (nameOf p = i.name.toList)).getLast? with
      | none => j.value = i.value
      | some p => ∀ v, ReadsAs i.kind (bodyOf p.2) v → j.value = v) items m

end Verif.Spec
