import Verif.Model.CloudHolder
/-
builder/data/cloud_types.cc:428-458 : swapping a cloud out and in when the disk is full.

`std::fstream::write` on a full disk sets `badbit`; the file keeps a beginning of what was to be written.  The code asks
neither the stream nor `close` (147-153, 180-194, 433-437).  Simplification: nothing else writes to the file, and no space
is freed between the failed write and `close`.
-/
namespace Verif

/-- The effect on the file called `name` when only its first `kept` bytes got on the disk. -/
def cutFile (files : Files) (name : String) (kept : Nat) : Files :=
  fun n => if n = name then (files n).map (·.take kept) else files n

/-- cloud_types.cc:428-439 : `SaveToFile` when only `kept` bytes of the file get on the disk.  It returns `true` all the
same. -/
def Holder.saveShort (maxPoints kept : Nat) (st : Holder × Files) (name : String) : Outcome (Holder × Files) := do
  let st' ← Holder.step maxPoints st (.save name)
  return (st'.1, cutFile st'.2 name kept)

/-- submap.cc:219-241 as far as the cloud is concerned: save (238-241), later clear (submap.cc:233, cloud_types.cc:383-393),
later read again (submap.cc:220, cloud_types.cc:441-458). -/
def Holder.swapShort (maxPoints kept : Nat) (st : Holder × Files) (name : String) : Outcome BitsCloud := do
  let s1 ← Holder.saveShort maxPoints kept st name
  let s2 ← Holder.step maxPoints s1 .clear
  Holder.readCloud maxPoints s2

end Verif
