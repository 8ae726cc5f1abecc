import Verif.Model.CloudIO
/-
builder/data/cloud_types.cc:370-466 : `InnerPointCloudData`, the cloud holder that can be swapped
to disk.

Simplifications: the Eigen copy of the cloud is represented by its number of columns and whether
it has normals; the file system is a map from names to bytes in which every open succeeds except
opening a missing file for reading; locks are ignored (every method is one atomic step).  A
transform is an arbitrary function on points (`TransformPoint`, modelled in `CloudGeom`).
-/
namespace Verif

/-- Files by name. -/
abbrev Files := String → Option (List UInt8)

structure Holder where
  inner : BitsCloud
  eigenCount : Nat
  hasNormals : Bool
  filename : String
  inMemory : Bool

/-- `new InnerCloudType` : stamp 0 (judge range 1), no points. -/
def emptyCloud : BitsCloud := { stamp := ⟨0, 0, 1⟩, points := [] }

/-- The operations of the holder.  `calcNormals n` carries the number of points the normal
estimation keeps. -/
inductive HolderOp where
  | clear
  | transform (f : BitsPoint → BitsPoint)
  | calcNormals (kept : Nat)
  | setCloud (c : BitsCloud)
  | save (name : String)
  | cloudInMemory

/-- cloud_types.cc:418-426 with `FromPointCloud`'s CHECK (330): empty clouds abort. -/
def Holder.setInner (h : Holder) (c : BitsCloud) : Outcome Holder :=
  if c.points = [] then .abort
  else .ok { h with inner := c, eigenCount := c.points.length, hasNormals := false, inMemory := true }

/-- cloud_types.cc:370-372. -/
def Holder.new (c : BitsCloud) : Outcome Holder :=
  Holder.setInner ⟨emptyCloud, 0, false, "", false⟩ c

/-- One method call: new holder and files. -/
def Holder.step (maxPoints : Nat) (st : Holder × Files) : HolderOp → Outcome (Holder × Files)
  -- 383-393
  | .clear =>
    if !st.1.inMemory then .ok st
    else .ok ({ st.1 with inner := emptyCloud, eigenCount := 0, hasNormals := false,
                          inMemory := false }, st.2)
  -- 395-404 : `eigen_cloud_` is never null; `ApplyTransform` checks that it has points (290)
  | .transform f =>
    if st.1.eigenCount = 0 then .abort
    else .ok ({ st.1 with inner := { st.1.inner with points := st.1.inner.points.map f } }, st.2)
  -- 406-410, 347-368 : needs at least one column (minCoeff of an empty matrix is undefined)
  | .calcNormals kept =>
    if st.1.eigenCount = 0 then .ub
    else .ok ({ st.1 with eigenCount := kept, hasNormals := kept != 0 }, st.2)
  -- 412-416
  | .setCloud c => do
    let h ← st.1.setInner c
    return (h, st.2)
  -- 428-439
  | .save name =>
    if name = "" then .abort
    else if st.1.inner.points = [] then .abort
    else .ok ({ st.1 with filename := name },
      fun n => if n = name then some (serializeCloud st.1.inner) else st.2 n)
  -- 441-457 : the result of `Deserialize` is ignored
  | .cloudInMemory =>
    if st.1.inMemory then .ok st
    else
      match st.2 st.1.filename with
      | none => .abort
      | some bytes => do
        let r ← deserializeCloud maxPoints { rest := bytes } emptyCloud
        let h ← st.1.setInner r.2
        return (h, st.2)

/-- A history of calls. -/
def Holder.run (maxPoints : Nat) (st : Holder × Files) : List HolderOp → Outcome (Holder × Files)
  | [] => .ok st
  | op :: ops => do
    let st' ← Holder.step maxPoints st op
    Holder.run maxPoints st' ops

/-- Reading the cloud the way all callers do: make sure it is in memory, then
`GetInnerCloud` (464-466). -/
def Holder.readCloud (maxPoints : Nat) (st : Holder × Files) : Outcome BitsCloud := do
  let st' ← Holder.step maxPoints st .cloudInMemory
  return st'.1.inner

end Verif
