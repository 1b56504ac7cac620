import Verif.Store.Model
import Verif.Load.Select

/-!
# Model of saving a tree of groups and datasets, and of reading it back

Models `MemGroup.to_file` and `from_file` (`caput/memdata/_memh5.py:502-585, 627-680`), `_distributed_group_to_file` (2749-2834),
`_distributed_group_from_file` (2837-2960), `deep_group_copy` between memory and files (2440-2680), and of `MemDiskGroup` the methods
`save` (2201-2257), `_resolve_subclass` and `_detect_subclass_path` (1704-1726).

A tree in memory is the list of its entries with their paths, in the order in which they are visited. Writing the distributed datasets is
`Verif.Store.toFile` (C76), reading one dataset `Verif.Load` (C10, C65).

Left out: the conversion of attribute values (C33: they are copied as they are here), the filters as named in each format (C74), modes
other than `"w"`, hints given as a dictionary, selections (C65), what the other processes do when only the first one raises an exception.
-/
namespace Verif.Arch

open Verif.Dist (NArr MArr Comm)
open Verif.Store (Err Dset File Fs Opts Env Act Target)
open Verif.Load (Format Io PyErr)

variable {α : Type}

/-- Values of attributes, as far as they matter here. -/
inductive Attr where
  | user (n : Nat)
  | flag (b : Bool)
  | num (i : Int)
  deriving DecidableEq, Repr

abbrev Attrs := String → Option Attr

def Attrs.set (a : Attrs) (k : String) (v : Attr) : Attrs := fun k' => if k' = k then some v else a k'

/-- An entry of a tree in memory. A distributed dataset is given by the block of each process; `mov` are the blocks after redistribution over
the first axis (C04). -/
inductive Entry (α : Type) where
  | grp (attrs : Attrs)
  | com (arr : NArr α) (dtype : Nat) (opts : Opts) (attrs : Attrs)
  | dis (blk mov : Nat → MArr α) (dtype : Nat) (opts : Opts) (attrs : Attrs)

def Entry.attrs : Entry α → Attrs
  | .grp a => a
  | .com _ _ _ a => a
  | .dis _ _ _ _ a => a

/-- The disk: datasets (C76), and the attributes of each entry of each file. -/
structure Disk (α : Type) where
  fs : Fs α
  at' : String → String → Option Attrs

def hintFile : String := "__memh5_distributed_file"
def hintDset : String := "__memh5_distributed_dset"
def hintAxis : String := "__memh5_distributed_axis"

/-- _memh5.py:2774-2781 `apply_hints`. -/
def applyHints (p : String) (e : Entry α) (a : Attrs) : Attrs :=
  if p = "/" then a.set hintFile (.flag true)
  else
    match e with
    | .grp _ => a
    | .com _ _ _ _ => a.set hintDset (.flag false)
    | .dis blk _ _ _ _ => (a.set hintDset (.flag true)).set hintAxis (.num (blk 0).axis)

/-- Strings: which types have unicode strings and which have byte strings, and `ensure_bytestring` and `ensure_unicode` on types and elements
(C40, C41; strings outside ASCII, which cannot be converted, are left out). -/
structure Strings (α : Type) where
  uni : Nat → Bool
  byt : Nat → Bool
  dtype : Nat → Nat
  elem : α → α
  udtype : Nat → Nat
  uelem : α → α

def Disk.putAttrs (d : Disk α) (f p : String) (a : Attrs) : Disk α :=
  { d with at' := fun f' p' => if f' = f ∧ p' = p then some a else d.at' f' p' }

def Disk.putDset (d : Disk α) (f p : String) (x : Dset α) : Disk α :=
  { d with fs := d.fs.put f (((d.fs f).getD fun _ => none).put p x) }

/-- _memh5.py:2640-2680 with `_prepare_dataset` (2531-2588): one entry is copied to the file. `skip` is `skip_distributed`. -/
def copyOne (S : Strings α) (convert skip hints : Bool) (junk : List Nat → α) (f : String) (d : Disk α) (x : String × Entry α) : Except Err (Disk α) :=
  let a := if hints then applyHints x.1 x.2 x.2.attrs else x.2.attrs
  if x.1 ≠ "/" ∧ (d.at' f x.1).isSome then .error (.py .valueError)
  else
    match x.2 with
    | .grp _ => .ok (d.putAttrs f x.1 a)
    | .com arr dt o _ =>
      if arr.shape = [] then .error (.py .indexError)
      else if S.uni dt then
        if convert then .ok ((d.putDset f x.1 ⟨⟨arr.shape, fun i => S.elem (arr.val i)⟩, S.dtype dt, o.chunks, o.comp, o.opts⟩).putAttrs f x.1 a)
        else .error (.py .typeError)
      else .ok ((d.putDset f x.1 ⟨arr, dt, o.chunks, o.comp, o.opts⟩).putAttrs f x.1 a)
    | .dis blk _ dt o _ =>
      if skip = false then .error (.py .valueError)
      else if S.uni dt then .error (.py .typeError)
      else .ok ((d.putDset f x.1 ⟨⟨(blk 0).gshape, junk⟩, dt, o.chunks, o.comp, o.opts⟩).putAttrs f x.1 a)

/-- The entries one after the other. -/
def copyAll (S : Strings α) (convert skip hints : Bool) (junk : List Nat → α) (f : String) : List (String × Entry α) → Disk α → Disk α × Option Err
  | [], d => (d, none)
  | x :: l, d =>
    match copyOne S convert skip hints junk f d x with
    | .error e => (d, some e)
    | .ok d' => copyAll S convert skip hints junk f l d'

/-- Opening with mode `"w"`: the file is empty. -/
def Disk.fresh (d : Disk α) (f : String) : Disk α :=
  ⟨d.fs.put f (fun _ => none), fun f' p => if f' = f then none else d.at' f' p⟩

/-- What surrounds a save: that of C76, strings, the format, and the number of processes. -/
structure Ctx (α : Type) where
  env : Env
  str : Strings α
  zero : α
  junk : List Nat → α
  order : List Act → List Act
  fmt : Format
  size : Nat

/-- Lines 2815-2831: for Zarr the file is opened with a synchronizer. -/
def target (fmt : Format) (f : String) : Target :=
  match fmt with
  | .hdf5 => .path f
  | .zarr => .handle f true

/-- Lines 2798-2810: the distributed datasets are written. -/
def writeDist (C : Ctx α) (f : String) : List (String × Entry α) → Fs α → Fs α × Option Err
  | [], fs => (fs, none)
  | (p, .dis blk mov dt o _) :: l, fs =>
    if C.str.uni dt then (fs, some (.py .typeError))
    else
      match Store.toFile C.env C.zero C.junk C.order fs (target C.fmt f) false p dt o none C.fmt blk mov C.size with
      | (fs', some e) => (fs', some e)
      | (fs', none) => writeDist C f l fs'
  | _ :: l, fs => writeDist C f l fs

/-- _memh5.py:2749-2834 `_distributed_group_to_file`. -/
def saveDist (C : Ctx α) (convert hints : Bool) (d : Disk α) (f : String) (t : List (String × Entry α)) : Disk α × Option Err :=
  match copyAll C.str convert true hints C.junk f t (d.fresh f) with
  | (d', some e) => (d', some e)
  | (d', none) =>
    let r := writeDist C f t d'.fs
    (⟨r.1, d'.at'⟩, r.2)

/-- _memh5.py:660-680 `to_file`. The argument `hints` is not passed on. -/
def toFile (C : Ctx α) (distributed : Bool) (_hints convert : Bool) (d : Disk α) (f : String) (t : List (String × Entry α)) : Disk α × Option Err :=
  if distributed = false then copyAll C.str convert false false C.junk f t (d.fresh f)
  else saveDist C convert true d f t

/-- What is read. -/
inductive Got (α : Type) where
  | grp (attrs : Attrs)
  | ds (data : Proto.Data α) (dtype : Nat) (opts : Opts) (attrs : Attrs)

def Got.attrs : Got α → Attrs
  | .grp a => a
  | .ds _ _ _ a => a

/-- What surrounds a read: the format, strings, transfers, and the process. -/
structure RCtx (α : Type) where
  fmt : Format
  str : Strings α
  io : Io
  junk : List Nat → α
  comm : Comm

/-- Lines 2903-2909: is the dataset to be distributed, and over which axis. -/
def distAxis (a : Attrs) : Option Int :=
  match a hintDset with
  | some (.flag true) =>
    match a hintAxis with
    | some (.num i) => some i
    | _ => some 0
  | _ => none

/-- Lines 2566-2577 and 2934-2936: strings are converted back, if asked for. -/
def unconv (S : Strings α) (convert : Bool) (A : NArr α) (dt : Nat) : NArr α × Nat :=
  if convert && S.byt dt then (⟨A.shape, fun i => S.uelem (A.val i)⟩, S.udtype dt) else (A, dt)

/-- `from_file` (556-585) for one entry: `none` if the file has no such entry. Without hints or without distribution the tree is copied with the
options of the datasets (2590-2612); otherwise (2877-2945) without. -/
def readAt (R : RCtx α) (distributed hints convert : Bool) (d : Disk α) (f p : String) : Option (Except PyErr (Got α)) :=
  match d.at' f p with
  | none => none
  | some a =>
    match (d.fs f).bind (fun F => F p) with
    | none => some (.ok (.grp a))
    | some x =>
      if distributed = false ∨ hints = false then
        match Load.readCommon R.fmt x.arr none with
        | .error e => some (.error e)
        | .ok A => some (.ok (.ds (.common (unconv R.str convert A x.dtype).1) (unconv R.str convert A x.dtype).2 ⟨x.chunks, x.comp, x.opts⟩ a))
      else
        match Load.loadOne R.fmt R.io R.junk true R.comm none ⟨p.toList, x.arr, distAxis a⟩ with
        | .error e => some (.error e)
        | .ok (.dist A) => some (.ok (.ds (.dist A) x.dtype ⟨none, none, none⟩ a))
        | .ok (.common A) => some (.ok (.ds (.common (unconv R.str convert A x.dtype).1) (unconv R.str convert A x.dtype).2 ⟨none, none, none⟩ a))

/-! ### Classes -/

/-- What `import_class` finds at a path: a class, and whether it is a subclass of `MemDiskGroup`; or the exception. -/
inductive Import where
  | cls (name : String) (sub : Bool)
  | importError
  | keyError
  | attributeError
  deriving DecidableEq, Repr

inductive ClsErr where
  | unboundLocal
  | attributeError
  | runtimeError
  deriving DecidableEq, Repr

/-- _memh5.py:1709-1726 `_resolve_subclass`, after `_detect_subclass_path`: the class is assigned only if the import succeeds. -/
def resolve (imp : String → Import) (own : String) (path : Option String) : Except ClsErr String :=
  match path with
  | none => .ok own
  | some p =>
    match imp p with
    | .cls n true => .ok n
    | .cls _ false => .error .runtimeError
    | .importError => .error .unboundLocal
    | .keyError => .error .unboundLocal
    | .attributeError => .error .attributeError

/-- _memh5.py:2238-2243: the path of the class is kept in an attribute, unless there is one. -/
def stamp (clsPath : String) (attr : Option String) : Option String :=
  match attr with
  | none => some clsPath
  | some p => some p

/-! ### Saving what is on disk -/

inductive DiskErr where
  | osError
  | notWritable
  | attributeError
  deriving DecidableEq, Repr

/-- Mode in which a file is opened. -/
inductive Mode where
  | w
  | r
  deriving DecidableEq, Repr

/-- _memh5.py:2245-2249 for an object on disk, copied to an HDF5 file: opened with the mode given, or without a mode, which for `h5py` means reading;
then datasets are asked for their attribute `data` (typeutils.py:332), which those in files do not have. `dsets` is the number of datasets. -/
def saveOnDisk (exist : Bool) (mode : Option Mode) (dsets : Nat) : Except DiskErr Unit :=
  match mode with
  | some .w => if 0 < dsets then .error .attributeError else .ok ()
  | _ => if exist then .error .notWritable else .error .osError

end Verif.Arch
