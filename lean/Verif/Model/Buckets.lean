/-! Hash tables from keys to vectors (`std::unordered_map<K, std::vector<V>>`), as association
lists.  The list keeps insertion order; code that iterates over such a table does so in an
unspecified order, which the models take as a parameter (a permutation of this list). -/
namespace Verif

/-- `table[k].push_back(x)`. -/
def bucketPush {K V : Type} [DecidableEq K] (k : K) (x : V) :
    List (K × List V) → List (K × List V)
  | [] => [(k, [x])]
  | (k', xs) :: rest => if k' = k then (k', xs ++ [x]) :: rest else (k', xs) :: bucketPush k x rest

/-- Fill a table from a list, in order. -/
def bucketAll {K V : Type} [DecidableEq K] (key : V → K) (xs : List V) : List (K × List V) :=
  xs.foldl (fun t x => bucketPush (key x) x t) []

/-- The unspecified iteration order of a hash table: some permutation of its entries. -/
structure IterOrder (E : Type) where
  order : List E → List E
  perm : ∀ l, (order l).Perm l

end Verif
