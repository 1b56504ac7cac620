/-!
# Model of slicing along the distributed axis

Models the parts of `caput/mpiarray.py` that translate global selections to local ones:
`_global_resolver`, `_len_slice`, `_reslice`, `_partition_sel` and the use `MPIArray.from_file`
makes of them.
-/
namespace Verif.Slice

/-- Python exceptions raised by the modelled functions. -/
inductive PyErr where
  | valueError
  | indexError
  deriving DecidableEq, Repr

/-- A Python `slice` object. -/
structure PySlice where
  start : Option Int := none
  stop : Option Int := none
  step : Option Int := none
  deriving DecidableEq, Repr

/-- `slice.indices(n)` of CPython (`PySlice_Unpack` and `PySlice_AdjustIndices`); also what numpy
uses for a slice of an axis of length `n`. -/
def PySlice.indices (s : PySlice) (n : Nat) : Except PyErr (Int × Int × Int) :=
  let step := s.step.getD 1
  if step = 0 then .error .valueError
  else
    let lower : Int := if step < 0 then -1 else 0
    let upper : Int := if step < 0 then n - 1 else n
    let start := match s.start with
      | none => if step < 0 then upper else lower
      | some v => if v < 0 then max (v + n) lower else min v upper
    let stop := match s.stop with
      | none => if step < 0 then lower else upper
      | some v => if v < 0 then max (v + n) lower else min v upper
    .ok (start, stop, step)

/-- Number of elements of Python's `range(start, stop, step)` (`step ≠ 0`). -/
def rangeLen (start stop step : Int) : Nat :=
  if 0 < step then ((stop - start + step - 1) / step).toNat
  else ((start - stop - step - 1) / (-step)).toNat

/-- Python's `range(start, stop, step)` (`step ≠ 0`). -/
def pyRange (start stop step : Int) : List Int :=
  (List.range (rangeLen start stop step)).map fun (k : Nat) => start + k * step

/-- numpy: `xs[s]` for a slice `s` on a one dimensional array. -/
def npSlice {α : Type} (xs : List α) (s : PySlice) : Except PyErr (List α) :=
  match s.indices xs.length with
  | .error e => .error e
  | .ok (a, b, c) => .ok ((pyRange a b c).filterMap fun (i : Int) => xs[i.toNat]?)

/-- numpy: `xs[i]` for an integer `i` on a one dimensional array. -/
def npItem {α : Type} (xs : List α) (i : Int) : Except PyErr α :=
  if i < -xs.length ∨ xs.length ≤ i then .error .indexError
  else match xs[(if i < 0 then i + xs.length else i).toNat]? with
    | some a => .ok a
    | none => .error .indexError

/-- The entry of an index tuple for one axis. `npidx` is a numpy integer, which is not an instance
of Python's `int`. -/
inductive AxisSel where
  | idx (i : Int)
  | npidx (i : Int)
  | slc (s : PySlice)
  deriving DecidableEq, Repr

/-- mpiarray.py:350-358: the start of a slice relative to the local block. -/
def startOf (offset length : Nat) : Option Int → Int
  | some v => (if 0 ≤ v then v else v + length) - offset
  | none => 0

/-- mpiarray.py:360-368: the stop of a slice relative to the local block. -/
def stopOf (offset length localLength : Nat) : Option Int → Int
  | some v => (if 0 ≤ v then v else v + length) - offset
  | none => localLength

/-- mpiarray.py:293-384 `_global_resolver._resolve_slice`, restricted to the entry of the
distributed axis. The result is the local entry (`none` for Python's `None`) and the flag
`fullslice`. Ellipsis expansion (lines 307-328) is modelled by `expand` below. -/
def resolve (offset length localLength : Nat) : AxisSel → Option AxisSel × Bool
  | .idx i =>
    let index := i - offset
    (if index < 0 ∨ localLength ≤ index then none else some (.idx index), false)
  | .npidx i => (some (.npidx i), true)
  | .slc s =>
    let start : Int := startOf offset length s.start
    let stop : Int := stopOf offset length localLength s.stop
    let full := s.start.isNone && s.stop.isNone && s.step.isNone
    if (localLength : Int) ≤ start ∨ stop < 0 then (none, full)
    else
      let start' := max (min start localLength) 0
      let stop' := max (min stop localLength) 0
      (some (.slc ⟨some start', some stop', s.step⟩), full)

/-- Result of indexing through `global_slice` on one process. -/
inductive Res (α : Type) where
  | notHere
  | scalar (a : α)
  | block (l : List α)
  deriving DecidableEq, Repr

/-- numpy indexing of the local array with a resolved entry (`MPIArray.__getitem__`,
mpiarray.py:435-499, and `ndarray.__getitem__` agree on the values for the entries that occur: a
numpy integer is converted to an integer at line 2434 and indexes the local array at line 458). -/
def localIndex {α : Type} (loc : List α) : AxisSel → Except PyErr (Res α)
  | .idx i => (npItem loc i).map .scalar
  | .npidx i => (npItem loc i).map .scalar
  | .slc s => (npSlice loc s).map .block

/-- mpiarray.py:386-404 `_global_resolver.__getitem__` for a one dimensional array, or for one
column of the distributed axis of a larger one: `loc` are the local elements. -/
def globalGet {α : Type} (loc : List α) (offset length : Nat) (sel : AxisSel) :
    Except PyErr (Res α) :=
  match resolve offset length loc.length sel with
  | (none, false) => .ok .notHere
  | (some e, false) => localIndex loc e
  | (none, true) => localIndex loc (.slc {})
  | (some e, true) => localIndex loc e

/-- Assign the value `v` to all listed positions. -/
def setAll {α : Type} (v : α) (l : List α) : List Nat → List α
  | [] => l
  | i :: is => setAll v (l.set i v) is

/-- numpy: `loc[entry] = v` for a scalar `v`. -/
def localSet {α : Type} (loc : List α) (v : α) : AxisSel → Except PyErr (List α)
  | .idx i | .npidx i =>
    if i < -loc.length ∨ loc.length ≤ i then .error .indexError
    else .ok (loc.set (if i < 0 then i + loc.length else i).toNat v)
  | .slc s =>
    match s.indices loc.length with
    | .error e => .error e
    | .ok (a, b, c) => .ok (setAll v loc ((pyRange a b c).map Int.toNat))

/-- mpiarray.py:406-414 `_global_resolver.__setitem__` with a scalar value; the new local array. -/
def globalSet {α : Type} (loc : List α) (offset length : Nat) (sel : AxisSel) (v : α) :
    Except PyErr (List α) :=
  match (resolve offset length loc.length sel).1 with
  | none => .ok loc
  | some e => localSet loc v e

/-- An entry of an index tuple before expansion. -/
inductive Entry where
  | ax (s : AxisSel)
  | ellipsis
  deriving DecidableEq, Repr

/-- mpiarray.py:323-328: an ellipsis becomes `k` full slices, any other entry is kept. -/
def expandEntry (k : Nat) : Entry → List AxisSel
  | .ellipsis => List.replicate k (.slc {})
  | .ax s => [s]

/-- mpiarray.py:307-328: pad with an ellipsis when the tuple is short and has none, then expand each
ellipsis to `ndim - len + 1` full slices. -/
def expand (ndim : Nat) (slobj : List Entry) : List AxisSel :=
  let slobj := if slobj.length < ndim ∧ Entry.ellipsis ∉ slobj then slobj ++ [.ellipsis] else slobj
  slobj.flatMap (expandEntry (ndim + 1 - slobj.length))

/-! ### Reading with a selection -/

/-- A selection on one axis of a dataset on file: a slice or a list of positions. -/
inductive FileSel where
  | slc (s : PySlice)
  | list (l : List Int)
  deriving DecidableEq, Repr

/-- mpiarray.py:2190-2196 `_len_slice(slice_, n)`. `Int.fdiv` is Python's `//`. -/
def lenSlice (sel : FileSel) (n : Nat) : Except PyErr Int :=
  match sel with
  | .slc s =>
    match s.indices n with
    | .error e => .error e
    | .ok (start, stop, step) => .ok (1 + (stop - start - 1).fdiv step)
  | .list l => .ok l.length

/-- mpiarray.py:2210-2230 `_reslice(slice_, n, subslice)`; the sub-slice is `slice(a, b)` without a
step, as in all calls. -/
def reslice (sel : FileSel) (n : Nat) (a b : Nat) : Except PyErr FileSel :=
  match sel with
  | .slc s =>
    match s.indices n with
    | .error e => .error e
    | .ok (dstart, dstop, dstep) =>
      .ok (.slc ⟨some (dstart + a * dstep), some (min (dstart + b * dstep) dstop), some dstep⟩)
  | .list l => .ok (.list ((l.drop a).take (b - a)))

/-- Reading one axis of a file dataset with a selection (h5py/zarr semantics, which are numpy's for
ascending slices; a list selects its positions in order). -/
def fileRead {α : Type} (file : List α) : FileSel → Except PyErr (List α)
  | .slc s => npSlice file s
  | .list l => l.mapM (npItem file)

/-- mpiarray.py:1017-1044 and 2147-2187 along the distributed axis: the data that the process owning
`[lstart, lend)` of the selected axis reads, when the file axis is read whole (`_partition_io`
returned `slice(0, local_shape[0])` for another axis). -/
def readBlock {α : Type} (file : List α) (sel : FileSel) (lstart lend : Nat) :
    Except PyErr (List α) :=
  match reslice sel file.length lstart lend with
  | .error e => .error e
  | .ok s => fileRead file s

/-- As `readBlock`, when axis 0 is the distributed axis and the early return of `_partition_io`
(mpiarray.py:1728) makes `_partition_sel` re-slice the already resliced axis with
`slice(0, local_shape[0])`. -/
def readBlockPart {α : Type} (file : List α) (sel : FileSel) (lstart lend : Nat) :
    Except PyErr (List α) :=
  match reslice sel file.length lstart lend with
  | .error e => .error e
  | .ok s => readBlock file s 0 (lend - lstart)

end Verif.Slice
