import Verif.Model.Filters
import Mathlib.Data.List.Nodup

/-!
# Tables of cells

Models `common/eigen_hash.h`:31-43, the hash of an integer vector, and the hash tables keyed by such vectors:
`voxel_grid` of the voxel grid filter (pre_processors/filter_voxel_grid.cc:44-50), the range image
(pre_processors/filter_range_image.h:53-54) and the voxels of the map (builder/multi_resolution_voxel_map.h:83-85).

Simplifications: the tables of the C++ library are lists of buckets, the bucket of a key being its hash modulo the
number of buckets, with the keys compared within a bucket; when the table grows is a parameter. The map of
voxels is a table of another library (tbb) with the same interface.
-/

namespace Verif

/-- eigen_hash.h:37-39: one element. `std::hash<int>` is the value itself, widened with its sign to `size_t`;
`0x9e3779b9` is widened to 64 bits, and all sums wrap around. -/
def hashStep (seed : BitVec 64) (e : BitVec 32) : BitVec 64 :=
  seed ^^^ (e.signExtend 64 + 0x9e3779b9#64 + (seed <<< 6) + (seed >>> 2))

/-- eigen_hash.h:34-42: all elements, from the first to the last. -/
def vecHash (v : List (BitVec 32)) : BitVec 64 := v.foldl hashStep 0#64

/-- A cell of three coordinates (`Eigen::Vector3i`), or a pixel of two. -/
abbrev CellKey := List (BitVec 32)

/-- filter_voxel_grid.cc:47-49: the three results of `lround`, of type `long`, become `int`. -/
def voxelKey (v : Voxel) : CellKey := [BitVec.ofInt 32 v.x, BitVec.ofInt 32 v.y, BitVec.ofInt 32 v.z]

/-- A hash table: its buckets, each a list of keys with what is stored under them. -/
abbrev CellTable (α : Type) := List (List (CellKey × List α))

/-- The empty table of a fresh `std::unordered_map`: one bucket. -/
def CellTable.empty {α : Type} : CellTable α := [[]]

/-- The bucket of a key. -/
def bucketOf (n : ℕ) (k : CellKey) : ℕ := (vecHash k).toNat % n

/-- `voxel_grid[index].push_back(point)` within a bucket (filter_voxel_grid.cc:49): a key that is there is
appended to, otherwise it is added. -/
def cellPush {α : Type} (k : CellKey) (x : α) : List (CellKey × List α) → List (CellKey × List α)
  | [] => [(k, [x])]
  | e :: r => if e.1 = k then (e.1, e.2 ++ [x]) :: r else e :: cellPush k x r

/-- The same in the table. -/
def CellTable.push {α : Type} (t : CellTable α) (k : CellKey) (x : α) : CellTable α :=
  t.modify (bucketOf t.length k) (cellPush k x)

/-- `find` within a bucket. -/
def cellFind {α : Type} (k : CellKey) : List (CellKey × List α) → Option (List α)
  | [] => none
  | e :: r => if e.1 = k then some e.2 else cellFind k r

/-- `find` of a table (used by the map of voxels, multi_resolution_voxel_map.cc, and the range image). -/
def CellTable.find {α : Type} (t : CellTable α) (k : CellKey) : Option (List α) :=
  match t[bucketOf t.length k]? with
  | none => none
  | some b => cellFind k b

/-- The entries in the order of a loop over the table (filter_voxel_grid.cc:76-78). -/
def CellTable.entries {α : Type} (t : CellTable α) : List (CellKey × List α) := t.flatten

/-- One entry is put into its bucket of a new table. -/
def CellTable.place {α : Type} (t : CellTable α) (e : CellKey × List α) : CellTable α :=
  t.modify (bucketOf t.length e.1) (fun b => e :: b)

/-- The table grows to `n` buckets: every entry moves to its new bucket. -/
def CellTable.rehash {α : Type} (t : CellTable α) (n : ℕ) : CellTable α :=
  t.entries.foldl CellTable.place (List.replicate n [])

/-- What happens to a table. -/
inductive TableOp (α : Type) where
  | push (k : CellKey) (x : α)
  | grow (n : ℕ)

/-- One operation. -/
def CellTable.step {α : Type} (t : CellTable α) : TableOp α → CellTable α
  | .push k x => t.push k x
  | .grow n => t.rehash n

/-- A table after a list of operations. -/
def CellTable.run {α : Type} (ops : List (TableOp α)) : CellTable α := ops.foldl CellTable.step CellTable.empty

end Verif
