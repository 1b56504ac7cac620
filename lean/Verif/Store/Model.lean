import Verif.Load.Read

/-!
# Model of writing a distributed array to a file

Models `MPIArray.to_hdf5`, `to_zarr`, `to_file`, `_make_selections`, `_to_hdf5_serial` (`caput/mpiarray.py:1089-1360, 1643-1701`),
`_partition_sel` and `_create_or_get_dset` (2147-2187, 2364-2391), with `_partition_io` (`Verif.PartIO.Model`), `_reslice`
(`Verif.Slice.Model`), and `open_h5py_mpi` (`caput/memdata/_io.py:12-68`), for all processes together.

A file is a function from the names of its datasets, and the file system one from the names of files. A call gives the file system
afterwards and the exception, if any. The operations of the processes on a file take place one after the other, in any order:
`order` stands for it. What `redistribute` does is modelled in `Verif.Mpi` (C04): the redistributed arrays are a parameter here.

Library knowledge: `h5py` and `zarr` write an array at the positions that a tuple of slices selects; shapes that differ are refused
(broadcasting is left out). A file that is open for parallel access is opened by all processes of the communicator together.

Left out: byte order and memory layout (both ways of writing, lines 1184-1194, have the same effect), the names of lock files, type
conversion, what the other processes do when only the first one raises an exception (they wait at the barrier).
-/
namespace Verif.Store

open Verif.Dist (NArr MArr pyGet)
open Verif.Slice (FileSel PySlice)
open Verif.Load (Io Format PyErr allPos expandSel ofSlice partitionOf)

variable {α : Type}

/-- What is raised. `hang` is no exception: the call does not return. -/
inductive Err where
  | py (e : PyErr)
  | osError
  | keyError
  | hang
  deriving DecidableEq, Repr

/-- A dataset in a file. -/
structure Dset (α : Type) where
  arr : NArr α
  dtype : Nat
  chunks : Option (List Nat)
  comp : Option Nat
  opts : Option Nat

abbrev File (α : Type) := String → Option (Dset α)

def File.put (f : File α) (name : String) (d : Dset α) : File α := fun n => if n = name then some d else f n

abbrev Fs (α : Type) := String → Option (File α)

def Fs.put (fs : Fs α) (p : String) (f : File α) : Fs α := fun q => if q = p then some f else fs q

/-- The options for a new dataset. -/
structure Opts where
  chunks : Option (List Nat)
  comp : Option Nat
  opts : Option Nat
  deriving DecidableEq, Repr

/-- Lines 2364-2391 `_create_or_get_dset`; a new dataset has no particular content. -/
def createOrGet (junk : List Nat → α) (f : File α) (name : String) (shape : List Nat) (dtype : Nat) (o : Opts) : Except Err (File α) :=
  match f name with
  | some d =>
    if d.arr.shape ≠ shape then .error (.py .runtimeError)
    else if d.dtype ≠ dtype then .error (.py .runtimeError)
    else .ok f
  | none => .ok (f.put name ⟨⟨shape, junk⟩, dtype, o.chunks, o.comp, o.opts⟩)

/-- Lines 1355-1360 `_make_selections`, with `local_bounds` (563-574). `[slice(None)] * axis` is empty for a negative axis. -/
def makeSel (A : MArr α) : Except Err (List FileSel) :=
  match pyGet A.loff A.axis, pyGet A.lshape A.axis with
  | .ok off, .ok len =>
    .ok (expandSel (some (List.replicate A.axis.toNat (.slc {}) ++ [.slc ⟨some (off : Int), some ((off + len : Nat) : Int), none⟩])) A.arr.shape.length)
  | _, _ => .error (.py .indexError)

/-- `dset[sel] = R`, for positions `pss` along the axes. -/
def putPos (D : NArr α) (pss : List (List Nat)) (R : NArr α) : Except Err (NArr α) :=
  if R.shape = pss.map List.length then
    .ok ⟨D.shape, fun i => if i.length = pss.length ∧ (List.zip pss i).all (fun x => decide (x.2 ∈ x.1)) then
        R.val (List.zipWith (fun ps x => ps.idxOf x) pss i)
      else D.val i⟩
  else .error (.py .typeError)

/-- `A[fslice]` with `s:e` along one axis and everything along the others. -/
def cut (A : NArr α) (ax s e : Nat) : NArr α :=
  let n := A.shape.getD ax 0
  ⟨A.shape.set ax (min e n - min s n), fun i => A.val (i.modify ax (· + s))⟩

/-- Lines 1178-1194 and 1294-1298: one partition is written (`_partition_sel`, 2147-2187). -/
def writePart (name : String) (A : MArr α) (ax : Nat) (part : Nat × Nat) (f : File α) : Except Err (File α) :=
  match makeSel A, f name with
  | .error e, _ => .error e
  | _, none => .error .keyError
  | .ok sel, some d =>
    match sel[ax]?, A.gshape[ax]? with
    | some s, some n =>
      match ofSlice (Slice.reslice s n part.1 part.2) with
      | .error e => .error (.py e)
      | .ok r =>
        match allPos d.arr.shape (sel.set ax r) with
        | .error e => .error (.py e)
        | .ok pss =>
          match putPos d.arr pss (cut A.arr ax part.1 part.2) with
          | .error e => .error e
          | .ok D => .ok (f.put name { d with arr := D })
    | _, _ => .error (.py .indexError)

/-- An operation on the file: the process, the axis that is divided, and the part of it. -/
structure Act where
  rank : Nat
  ax : Nat
  part : Nat × Nat
  deriving DecidableEq, Repr

/-- What a process is going to write (lines 1140, 1281). For a negative axis the division is that for the same axis counted from the front. -/
def planOf (io : Io) (A : MArr α) (rank : Nat) : Except Err (List Act) :=
  match partitionOf io A (if A.axis < 0 then A.axis + A.arr.shape.length else A.axis).toNat with
  | .error e => .error (.py e)
  | .ok (ax, parts) => .ok (parts.map fun p => ⟨rank, ax, p⟩)

/-- What all are going to write; an exception in one process is taken for one of the whole call. -/
def planAll (io : Io) (arrs : Nat → MArr α) : List Nat → Except Err (List Act)
  | [] => .ok []
  | r :: rs =>
    match planOf io (arrs r) r with
    | .error e => .error e
    | .ok l =>
      match planAll io arrs rs with
      | .error e => .error e
      | .ok l' => .ok (l ++ l')

/-- The operations, one after the other. -/
def runActs (name : String) (arrs : Nat → MArr α) : List Act → File α → File α × Option Err
  | [], f => (f, none)
  | a :: l, f =>
    match writePart name (arrs a.rank) a.ax a.part f with
    | .error e => (f, some e)
    | .ok f' => runActs name arrs l f'

/-- Where to write: the name of a file, or an open file (which is the file with that name), for parallel access (HDF5) or with a
synchronizer (Zarr). -/
inductive Target where
  | path (p : String)
  | handle (p : String) (par : Bool)
  deriving DecidableEq, Repr

def Target.name : Target → String
  | .path p => p
  | .handle p _ => p

/-- Surroundings: whether `h5py` was built with parallel access, the size of `COMM_WORLD`, the size of an element, and the largest transfer. -/
structure Env where
  mpi : Bool
  world : Nat
  item : Nat
  p : Nat
  q : Nat

/-- Opening with mode `"a"` (if `create`) or `"r+"`. -/
def openFile (fs : Fs α) (p : String) (create : Bool) : Except Err (File α) :=
  match fs p with
  | some f => .ok f
  | none => if create then .ok (fun _ => none) else .error .osError

/-- _io.py:39-68 as called at line 1135, `open_h5py_mpi(f, mode, self.comm)`: the communicator is passed as the argument `use_mpi`, so the file is
opened by all processes of `COMM_WORLD`, and only some of them may be here. -/
def openH5 (E : Env) (fs : Fs α) (t : Target) (create : Bool) (size : Nat) : Except Err (File α × Bool) :=
  match t with
  | .path p =>
    if size ≠ E.world then .error .hang
    else
      match openFile fs p create with
      | .error e => .error e
      | .ok f => .ok (f, true)
  | .handle p par =>
    match openFile fs p false with
    | .error e => .error e
    | .ok f => .ok (f, par)

/-- Lines 1671-1679: the first process creates the dataset and fills it with zeros. Chunks and compression are not used. -/
def serialCreate (zero : α) (junk : List Nat → α) (fs : Fs α) (p : String) (create : Bool) (name : String) (dtype : Nat) (A : MArr α) :
    Except Err (File α) :=
  match openFile fs p create with
  | .error e => .error e
  | .ok f =>
    match createOrGet junk f name A.gshape dtype ⟨none, none, none⟩ with
    | .error e => .error e
    | .ok f' =>
      match f' name with
      | none => .error .keyError
      | some d => .ok (f'.put name { d with arr := ⟨d.arr.shape, fun _ => zero⟩ })

/-- Lines 1692-1700: one process writes its rows `fh[dataset][start:end] = dist_arr`. -/
def serialWrite (name : String) (A : MArr α) (f : File α) : Except Err (File α) :=
  match (A.loff[0]? : Option Nat), (A.lshape[0]? : Option Nat), f name with
  | some start, some len, some d =>
    match allPos d.arr.shape (expandSel (some [.slc ⟨some (start : Int), some ((start + len : Nat) : Int), none⟩]) d.arr.shape.length) with
    | .error e => .error (.py e)
    | .ok pss =>
      match putPos d.arr pss A.arr with
      | .error e => .error e
      | .ok D => .ok (f.put name { d with arr := D })
  | _, _, none => .error .keyError
  | _, _, _ => .error (.py .indexError)

def serialAll (name : String) (moved : Nat → MArr α) : List Nat → File α → File α × Option Err
  | [], f => (f, none)
  | r :: rs, f =>
    match serialWrite name (moved r) f with
    | .error e => (f, some e)
    | .ok f' => serialAll name moved rs f'

/-- Lines 1643-1701 `_to_hdf5_serial`; `moved` are the arrays distributed over the first axis (lines 1687-1690). -/
def toHdf5Serial (zero : α) (junk : List Nat → α) (fs : Fs α) (p : String) (create : Bool) (name : String) (dtype : Nat)
    (arrs moved : Nat → MArr α) (size : Nat) : Fs α × Option Err :=
  match serialCreate zero junk fs p create name dtype (arrs 0) with
  | .error e => (fs, some e)
  | .ok f =>
    let r := serialAll name moved (List.range size) f
    (fs.put p r.1, r.2)

/-- Lines 1089-1197 `to_hdf5`. -/
def toHdf5 (E : Env) (zero : α) (junk : List Nat → α) (order : List Act → List Act) (fs : Fs α) (t : Target) (create : Bool) (name : String)
    (dtype : Nat) (o : Opts) (arrs moved : Nat → MArr α) (size : Nat) : Fs α × Option Err :=
  if E.mpi = false then
    match t with
    | .path p => toHdf5Serial zero junk fs p create name dtype arrs moved size
    | .handle _ _ => (fs, some (.py .valueError))
  else
    match openH5 E fs t create size with
    | .error e => (fs, some e)
    | .ok (f, isMpi) =>
      match planAll ⟨isMpi, E.item, E.p, E.q⟩ arrs (List.range size) with
      | .error e => (fs.put t.name f, some e)
      | .ok acts =>
        match createOrGet junk f name (arrs 0).gshape dtype o with
        | .error e => (fs.put t.name f, some e)
        | .ok f' =>
          match pyGet (arrs 0).gshape (arrs 0).axis with
          | .error _ => (fs.put t.name f', some (.py .indexError))
          | .ok n =>
            if (isMpi && decide (size ≤ n)) = false ∧ o.comp ≠ none then (fs.put t.name f', some (.py .runtimeError))
            else
              let r := runActs name arrs (order acts) f'
              (fs.put t.name r.1, r.2)

/-- Lines 1199-1301 `to_zarr`; the first process creates the dataset. -/
def toZarr (E : Env) (junk : List Nat → α) (order : List Act → List Act) (fs : Fs α) (t : Target) (create : Bool) (name : String)
    (dtype : Nat) (o : Opts) (arrs : Nat → MArr α) (size : Nat) : Fs α × Option Err :=
  match t with
  | .handle _ false => (fs, some (.py .valueError))
  | t =>
    match openFile fs t.name (match t with | .path _ => create | _ => false) with
    | .error e => (fs, some e)
    | .ok f =>
      match planAll ⟨false, E.item, E.p, E.q⟩ arrs (List.range size) with
      | .error e => (fs.put t.name f, some e)
      | .ok acts =>
        match createOrGet junk f name (arrs 0).gshape dtype o with
        | .error e => (fs.put t.name f, some e)
        | .ok f' =>
          let r := runActs name arrs (order acts) f'
          (fs.put t.name r.1, r.2)

/-- Lines 1334-1346: options that are not given are taken from attributes of the array, if it has them. -/
def fillOpts (given : Opts) (own : Option Opts) : Opts :=
  match own with
  | none => given
  | some w => ⟨given.chunks.or w.chunks, given.comp.or w.comp, given.opts.or w.opts⟩

/-- Lines 1303-1353 `to_file`. -/
def toFile (E : Env) (zero : α) (junk : List Nat → α) (order : List Act → List Act) (fs : Fs α) (t : Target) (create : Bool) (name : String)
    (dtype : Nat) (given : Opts) (own : Option Opts) (fmt : Format) (arrs moved : Nat → MArr α) (size : Nat) : Fs α × Option Err :=
  match fmt with
  | .hdf5 => toHdf5 E zero junk order fs t create name dtype (fillOpts given own) arrs moved size
  | .zarr => toZarr E junk order fs t create name dtype (fillOpts given own) arrs size

end Verif.Store
