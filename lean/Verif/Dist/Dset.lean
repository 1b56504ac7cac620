import Verif.Dist.Index

/-!
# Datasets in memory as sequences, and comparing them

Models `caput/memdata/_memh5.py:1329-1357` (`MemDatasetCommon.__getitem__`, `__len__`, `__iter__`, `__eq__`) and `:1573-1604`
(`MemDatasetDistributed.__iter__`, `__len__`, `__eq__`), with `:1153-1158` (`MemDataset.__eq__`) and
`caput/util/objecttools.py:91-99` (`_assert_equal` for arrays).

Everything besides the array that is compared (name, place, attributes, chunks, compression) is one number here: two datasets agree
in it or not. Warnings are left out.
-/
namespace Verif.Dist

variable {α : Type}

/-- A dataset, as one process has it. -/
inductive Dset (α : Type) where
  | common (A : NArr α) (rest : Nat)
  | dist (A : MArr α) (rest : Nat)

/-- All indices of an array. -/
def places : List Nat → List (List Nat)
  | [] => [[]]
  | n :: s => (List.range n).flatMap fun i => (places s).map (i :: ·)

/-- `np.testing.assert_equal` for two arrays does not raise: the shapes are the same, or one array is a single number without axes,
which is then compared to all elements of the other; and the elements are the same (`same` holds for NaN and NaN). -/
def sameArr (same : α → α → Bool) (A B : NArr α) : Bool :=
  if A.shape = [] then (places B.shape).all fun i => same (A.val []) (B.val i)
  else if B.shape = [] then (places A.shape).all fun i => same (A.val i) (B.val [])
  else A.shape = B.shape && (places A.shape).all fun i => same (A.val i) (B.val i)

/-- _memh5.py:1348-1357, 1595-1604: `d == e`. Distributed arrays are compared by their local parts (objecttools.py:96-97 views
them as plain arrays). -/
def eqDset (same : α → α → Bool) : Dset α → Dset α → Bool
  | .common A m, .common B n => m = n && sameArr same A B
  | .dist A m, .dist B n => m = n && sameArr same A.arr B.arr
  | _, _ => false

/-- _memh5.py:1337-1338, 1584-1585: `len(d)` is that of the array on this process. `none`: an array without axes has no length
(`TypeError`). -/
def lenDset : Dset α → Option Nat
  | .common A _ => A.shape.head?
  | .dist A _ => A.arr.shape.head?

/-- How `numpy` goes through an array: it asks for the elements 0, 1, ... until there is an `IndexError`. The number of steps is
bounded by `fuel`. -/
def seqIter {β : Type} (get : Nat → Except PyErr β) : Nat → Nat → List β
  | 0, _ => []
  | fuel + 1, i =>
    match get i with
    | .ok x => x :: seqIter get fuel (i + 1)
    | .error _ => []

/-- _memh5.py:1340-1343, 1579-1582: what `for x in d` goes through. The elements of a distributed array come from
`MPIArray.__getitem__`. -/
def iterDset (fuel : Nat) : Dset α → List (Got α)
  | .common A _ => seqIter (fun i => (npGetitem A [.int i]).map .plain) fuel 0
  | .dist A _ => seqIter (fun i => getitem A [.int i]) fuel 0

end Verif.Dist
