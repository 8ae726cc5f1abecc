import Verif.Model.MapFiles
import Verif.Spec.Xml
import Verif.Spec.Seconds
/-
What can be stored in the description file of a map (C103).
-/
namespace Verif.Spec
open Verif

/-- A name that an attribute holds unchanged: no zero byte, no tab. -/
def PlainValue (v : List Char) : Prop := Char.ofNat 0 ∉ v ∧ '\t' ∉ v

/-- A submap as the program has it: numbers of the types `int` and `double`, six pose numbers, a storable file name. -/
structure SubmapStorable (s : TrajSubmap) : Prop where
  id : -2147483648 ≤ s.id.submap ∧ s.id.submap ≤ 2147483647
  file : PlainValue s.file
  x : IsDouble s.x
  y : IsDouble s.y
  rest : s.rest.length = 4 ∧ ∀ v ∈ s.rest, IsDouble v
  connected : ∀ c ∈ s.connected, (-2147483648 ≤ c.trajectory ∧ c.trajectory ≤ 2147483647) ∧
    (-2147483648 ≤ c.submap ∧ c.submap ≤ 2147483647)

structure TrajStorable (t : TrajPkg) : Prop where
  id : -2147483648 ≤ t.id ∧ t.id ≤ 2147483647
  enu : IsDouble t.enuX ∧ IsDouble t.enuY
  submaps : ∀ s ∈ t.submaps, SubmapStorable s

/-- The file of every submap of the map is on the disk, next to the map file. -/
def FilesPresent (d : Disk) (path : List Char) (l : List TrajPkg) : Prop :=
  ∀ t ∈ l, ∀ s ∈ t.submaps, ∃ f, d (path ++ s.file) = some f

end Verif.Spec
