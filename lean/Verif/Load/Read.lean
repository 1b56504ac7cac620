import Verif.Slice.Model
import Verif.PartIO.Model
import Verif.Proto.Model

/-!
# Model of reading a distributed array from a file, with any number of axes

Models `MPIArray.from_file` (`caput/mpiarray.py:942-1087`) on one process, with `_expand_sel` (2233-2239),
`_partition_sel` (2147-2187), `_len_slice` and `_reslice` (`Verif.Slice.Model`), `_partition_io`
(`Verif.PartIO.Model`) and `MPIArray.__new__` (`Verif.Proto.Model`).

Files are arrays. What `h5py` and `zarr` do with a selection is stated by `selPos`, `h5Read`, `zarrBasic`.
Left out: opening files, byte order, collective mode.
-/
namespace Verif.Load

open Verif.Dist (NArr MArr Comm)
open Verif.Slice (FileSel PySlice)

inductive PyErr where
  | axisException
  | valueError
  | indexError
  | typeError
  | runtimeError
  | zeroDivision
  deriving DecidableEq, Repr

inductive Format where
  | hdf5
  | zarr
  deriving DecidableEq, Repr

variable {α : Type}

def FileSel.isList : FileSel → Bool
  | .slc _ => false
  | .list _ => true

/-- `h5py`: a list must be strictly increasing. -/
def increasing : List Int → Bool
  | x :: y :: l => decide (x < y) && increasing (y :: l)
  | _ => true

/-- The positions along a file axis of length `n`. `h5py` and `zarr` take slices with a positive step only;
`h5py` takes lists that are increasing and within range. -/
def selPos (n : Nat) : FileSel → Except PyErr (List Nat)
  | .slc s =>
    if s.step.getD 1 < 1 then .error .valueError
    else
      match Slice.npSlice (List.range n) s with
      | .ok l => .ok l
      | .error _ => .error .valueError
  | .list l =>
    if increasing l = false then .error .typeError
    else if l.all (fun x => decide (0 ≤ x ∧ x < n)) then .ok (l.map Int.toNat)
    else .error .indexError

/-- The elements at the given positions of each axis. -/
def takePos (G : NArr α) (pss : List (List Nat)) : NArr α :=
  ⟨pss.map List.length, fun i => G.val (List.zipWith (fun ps k => ps.getD k 0) pss i)⟩

/-- All positions selected. -/
def allPos (shape : List Nat) (sel : List FileSel) : Except PyErr (List (List Nat)) :=
  (shape.zip sel).mapM fun x => selPos x.1 x.2

/-- `h5py`: `dset[sel]` with an entry for every axis. At most one entry can be a list. -/
def h5Read (G : NArr α) (sel : List FileSel) : Except PyErr (NArr α) :=
  if sel.length ≠ G.shape.length then .error .valueError
  else if 1 < sel.countP FileSel.isList then .error .typeError
  else
    match allPos G.shape sel with
    | .ok pss => .ok (takePos G pss)
    | .error e => .error e

/-- `zarr`: `get_basic_selection(sel)`, which does not take lists. -/
def zarrBasic (G : NArr α) (sel : List FileSel) : Except PyErr (NArr α) :=
  if sel.length ≠ G.shape.length ∨ sel.any FileSel.isList then .error .indexError
  else
    match allPos G.shape sel with
    | .ok pss => .ok (takePos G pss)
    | .error e => .error e

/-- mpiarray.py:2233-2239 `_expand_sel`. -/
def expandSel (sel : Option (List FileSel)) (naxis : Nat) : List FileSel :=
  match sel with
  | none => List.replicate naxis (.slc {})
  | some l => l ++ List.replicate (naxis - l.length) (.slc {})

/-- The exceptions of the functions of `Verif.Slice.Model`. -/
def ofSlice {β : Type} : Except Slice.PyErr β → Except PyErr β
  | .ok x => .ok x
  | .error .valueError => .error .valueError
  | .error .indexError => .error .indexError

/-- The exceptions of `Verif.PartIO.Model`. -/
def ofPart {β : Type} : Except PartIO.PyErr β → Except PyErr β
  | .ok x => .ok x
  | .error .runtimeError => .error .runtimeError
  | .error .zeroDivision => .error .zeroDivision

/-- Lines 1037-1040: the shape of the result. A negative length cannot be allocated. -/
def readShape (shape : List Nat) (sel : List FileSel) : Except PyErr (List Nat) :=
  match (shape.zip sel).mapM fun x => ofSlice (Slice.lenSlice x.2 x.1) with
  | .error e => .error e
  | .ok ls => if ls.any (· < 0) then .error .valueError else .ok (ls.map Int.toNat)

/-- `dest[fslice] = R` where `fslice` is `s:e` along one axis and full otherwise. -/
def writePart (D : NArr α) (ax s e : Nat) (R : NArr α) : Except PyErr (NArr α) :=
  let n := D.shape.getD ax 0
  if R.shape = D.shape.set ax (min e n - min s n) then
    .ok ⟨D.shape, fun i => if s ≤ i.getD ax 0 ∧ i.getD ax 0 < e then R.val (i.modify ax (· - s)) else D.val i⟩
  else .error .valueError

/-- Lines 1064-1080: one partition is read. -/
def readPart (G : NArr α) (sel : List FileSel) (ax : Nat) (D : NArr α) (part : Nat × Nat) : Except PyErr (NArr α) :=
  match sel[ax]?, G.shape[ax]? with
  | some s, some n =>
    match ofSlice (Slice.reslice s n part.1 part.2) with
    | .error e => .error e
    | .ok r =>
      match h5Read G (sel.set ax r) with
      | .error e => .error e
      | .ok R => writePart D ax part.1 part.2 R
  | _, _ => .error .indexError

/-- The length along the distributed axis on each process. -/
def blockLens (n size : Nat) : List Nat :=
  (List.range size).map fun r => match Split.splitLocal n size r with
    | .ok x => x.1
    | .error _ => 0

/-- What surrounds a read: whether the file is open for parallel access, the size of an element and the
largest size of a transfer (as a fraction). -/
structure Io where
  isMpi : Bool
  item : Nat
  p : Nat
  q : Nat

/-- Line 1052: the partition of the transfer. -/
def partitionOf (io : Io) (A : MArr α) (k : Nat) : Except PyErr (Nat × List (Nat × Nat)) :=
  ofPart (PartIO.partitionIO ⟨A.gshape, k, io.item, blockLens (A.gshape.getD k 0) A.comm.size⟩
    (A.lshape.getD k 0) (!io.isMpi) io.p io.q)

/-- Lines 1050-1085: the elements are read into the new array `A`. -/
def readInto (fmt : Format) (io : Io) (G : NArr α) (sel : List FileSel) (k : Nat) (A : MArr α) :
    Except PyErr (MArr α) :=
  match fmt with
  | .hdf5 =>
    match partitionOf io A k with
    | .error e => .error e
    | .ok (ax, parts) =>
      match parts.foldlM (readPart G sel ax) A.arr with
      | .error e => .error e
      | .ok D => .ok { A with arr := D }
  | .zarr =>
    match zarrBasic G sel with
    | .error e => .error e
    | .ok R => if R.shape = A.arr.shape then .ok { A with arr := R } else .error .valueError

/-- Lines 1021-1087 `from_file`. -/
def fromFile (fmt : Format) (io : Io) (junk : List Nat → α) (G : NArr α) (sel : Option (List FileSel))
    (axis : Int) (c : Comm) : Except PyErr (MArr α) :=
  let n := G.shape.length
  if axis < -n ∨ (n : Int) ≤ axis then .error .axisException
  else
    let k := (if axis < 0 then n + axis else axis).toNat
    let sl := expandSel sel n
    match readShape G.shape sl with
    | .error e => .error e
    | .ok gshape =>
      let A := Proto.newMArr gshape k c junk
      let lstart := A.loff.getD k 0
      let lend := lstart + A.lshape.getD k 0
      match sl[k]?, G.shape[k]? with
      | some s, some m =>
        match ofSlice (Slice.reslice s m lstart lend) with
        | .error e => .error e
        | .ok r => readInto fmt io G (sl.set k r) k A
      | _, _ => .error .indexError

end Verif.Load
