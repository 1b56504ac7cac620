import Verif.Dist.Index
import Verif.Slice.Model

/-!
# Model of `global_slice` for arrays with any number of axes

Models `_global_resolver` (`caput/mpiarray.py:284-404`). Python's `None` is also `np.newaxis`, so an entry
without data on this process is modelled by `newaxis`.
-/
namespace Verif.Dist

variable {α : Type}

/-- mpiarray.py:307-328: an ellipsis is added at the end if the tuple is short and has none; then every
ellipsis becomes as many `:` as there are axes left. -/
def resolveExpand (ndim : Nat) (sel : List Idx) : List Idx :=
  let sl := if sel.length < ndim ∧ .ellipsis ∉ sel then sel ++ [.ellipsis] else sel
  sl.flatMap fun e => if e = .ellipsis then List.replicate (ndim + 1 - sl.length) .full else [e]

/-- mpiarray.py:332-382: the entry for the distributed axis, translated to the local array, and whether
it is a full slice. `Slice.startOf` and `Slice.stopOf` are lines 350-368. -/
def resolveEntry (offset length localLength : Nat) : Idx → Idx × Bool
  | .int i =>
    (if i - offset < 0 ∨ (localLength : Int) ≤ i - offset then .newaxis else .int (i - offset), false)
  | .sl start stop step =>
    let start' := Slice.startOf offset length start
    let stop' := Slice.stopOf offset length localLength stop
    (if (localLength : Int) ≤ start' ∨ stop' < 0 then .newaxis
      else .sl (some (max (min start' localLength) 0)) (some (max (min stop' localLength) 0)) step,
      start.isNone && stop.isNone && step.isNone)
  | e => (e, true)

/-- What `global_slice` returns: `None`, or what indexing returns. -/
inductive GGot (α : Type) where
  | nothing
  | got (x : Got α)

/-- mpiarray.py:386-404 `__getitem__`. -/
def globalGetitem (A : MArr α) (sel : List Idx) : Except PyErr (GGot α) := do
  let offset ← pyGet A.loff A.axis
  let length ← pyGet A.gshape A.axis
  let localLength ← pyGet A.arr.shape A.axis
  let sl := resolveExpand A.arr.shape.length sel
  let entry ← pyGet sl A.axis
  let (entry', full) := resolveEntry offset length localLength entry
  let sl' ← pySet sl A.axis entry'
  if full = false then
    if entry' = .newaxis then pure .nothing
    else
      let R ← npGetitem A.arr sl'
      pure (.got (.plain R))
  else
    let x ← getitem A (sl'.map fun e => if e = .newaxis then .full else e)
    pure (.got x)

/-- What stands between the brackets: an entry by itself, or a tuple, or a Python list of numbers. `npint` is a `numpy`
integer by itself, which is not an `int`. -/
inductive Index where
  | one (e : Idx)
  | npint (i : Int)
  | tuple (l : List Idx)

/-- mpiarray.py:307-328: integers and slices by themselves become tuples. Everything else that is not a tuple is iterated
over (323): an ellipsis, `None` and a `numpy` integer cannot be (`TypeError`), and the numbers in a list, to which no ellipsis
is added, are taken for the entries of a tuple. The result is the list after expansion. -/
def resolveIndex (ndim : Nat) : Index → Except PyErr (List Idx)
  | .one (.int i) => .ok (resolveExpand ndim [.int i, .ellipsis])
  | .one (.sl a b c) => .ok (resolveExpand ndim [.sl a b c, .ellipsis])
  | .one .newaxis => .error .typeError
  | .one .ellipsis => .error .typeError
  | .one (.list l) => .ok (l.map .int)
  | .npint _ => .error .typeError
  | .tuple l => .ok (resolveExpand ndim l)

/-- mpiarray.py:386-404 `__getitem__` for whatever stands between the brackets. For tuples this is `globalGetitem`
(`globalIndex_tuple`). -/
def globalIndex (A : MArr α) (x : Index) : Except PyErr (GGot α) := do
  let offset ← pyGet A.loff A.axis
  let length ← pyGet A.gshape A.axis
  let localLength ← pyGet A.arr.shape A.axis
  let sl ← resolveIndex A.arr.shape.length x
  let entry ← pyGet sl A.axis
  let (entry', full) := resolveEntry offset length localLength entry
  let sl' ← pySet sl A.axis entry'
  if full = false then
    if entry' = .newaxis then pure .nothing
    else
      let R ← npGetitem A.arr sl'
      pure (.got (.plain R))
  else
    let x ← getitem A (sl'.map fun e => if e = .newaxis then .full else e)
    pure (.got x)

end Verif.Dist
