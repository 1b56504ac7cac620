/-!
# Model of the chunks of datasets

Models `ContainerPrototype.add_dataset` (`caput/containers/_core.py:467-543`: axes, chunks and compression) and `_ensure_chunked` (545-573), the setting of chunks
(`caput/memdata/_memh5.py:1286-1307` and `1508-1520`), `MemGroup.create_dataset` (730-905: what it does with chunks and compression), `dataset_common_to_distributed` and
`dataset_distributed_to_common` (935-1010, the same), `MemDataset.copy` (1037-1068, the same), and of `deep_group_copy` the reading of a dataset into memory (2532-2610, 2652-2663).

A dataset is its shape with its settings. Left out: the data; distribution, since the shape of a distributed dataset is the global one; axes given as an integer; datasets on disk; the check of the number of
arguments of a filter. A selection is given by the number of entries it takes on each axis.
-/
namespace Verif.Fit

abbrev Name := String

inductive PyErr where
  | indexError
  | typeError
  | valueError
  | runtimeError
  | keyError
  deriving DecidableEq

/-- A dataset. Compression and its options are numbers here. -/
structure Ds where
  shape : List Nat
  chunks : Option (List Nat)
  compression : Option Nat
  opts : Option Nat
  deriving DecidableEq

/-- The specification of a dataset: its axes; the outer option is whether the key is there, the inner one is `None`. -/
structure Spec where
  axes : List Name
  chunks : Option (Option (List Nat))
  compression : Option (Option Nat)
  opts : Option (Option Nat)

/-- A container: the lengths of its axes and its datasets. `specs` are those of its class, in order. -/
structure Cont where
  lens : Name → Option Nat
  specs : List (Name × Spec)
  allowChunked : Bool
  dsets : Name → Option Ds

def put (f : Name → Option Ds) (n : Name) (d : Option Ds) : Name → Option Ds := fun k => if k = n then d else f k

/-- The loops in _core.py:524-527 and 556-558: `min(chunks[i], l)` for every axis. -/
def clip : List Nat → List Nat → Except PyErr (List Nat)
  | _, [] => .ok []
  | [], _ :: _ => .error .indexError
  | c :: cs, l :: ls =>
    match clip cs ls with
    | .error e => .error e
    | .ok r => .ok (min c l :: r)

/-- _memh5.py:1286-1307 and 1508-1520: `dset.chunks = val`. -/
def setChunks (d : Ds) : Option (List Nat) → Except PyErr Ds
  | none => .ok { d with chunks := none }
  | some v => if v.length ≠ d.shape.length then .error .valueError else .ok { d with chunks := some (List.zipWith min v d.shape) }

/-- _core.py:504-513: the lengths of the axes. -/
def shapeOf (lens : Name → Option Nat) : List Name → Except PyErr (List Nat)
  | [] => .ok []
  | a :: as =>
    match lens a with
    | none => .error .runtimeError
    | some l =>
      match shapeOf lens as with
      | .error e => .error e
      | .ok r => .ok (l :: r)

/-- _memh5.py:725-908 `create_dataset`: chunks and compression are stored as they are given. -/
def createDataset (c : Cont) (n : Name) (d : Ds) : Cont := { c with dsets := put c.dsets n (some d) }

/-- _core.py:467-543 `add_dataset`. -/
def addDataset (c : Cont) (n : Name) : Except PyErr Cont :=
  match c.specs.find? fun s => s.1 == n with
  | none => .error .runtimeError
  | some (_, s) =>
    let chunks := if c.allowChunked then s.chunks.getD none else none
    let compression := if c.allowChunked then s.compression.getD none else none
    let opts := if c.allowChunked then s.opts.getD none else none
    match shapeOf c.lens s.axes with
    | .error e => .error e
    | .ok shape =>
      match chunks with
      | none => .ok (createDataset c n ⟨shape, none, compression, opts⟩)
      | some cs =>
        match clip cs shape with
        | .error e => .error e
        | .ok r => .ok (createDataset c n ⟨shape, some r, compression, opts⟩)

/-- _core.py:554-559. -/
def ensureChunks (s : Spec) (d : Ds) : Except PyErr Ds :=
  match s.chunks, d.chunks with
  | some none, none => if d.shape = [] then setChunks d (some []) else .error .typeError
  | some (some cs), none =>
    match clip cs d.shape with
    | .error e => .error e
    | .ok r => setChunks d (some r)
  | _, _ => .ok d

/-- _core.py:560-573. -/
def ensureFilter (s : Spec) (d : Ds) : Ds :=
  let d := match s.compression, d.compression with
    | some v, none => { d with compression := v }
    | _, _ => d
  match s.opts, d.opts with
  | some v, none => { d with opts := v }
  | _, _ => d

/-- _core.py:551-573: the loop over the specifications. What has been changed before an error stays changed. -/
def ensureLoop : List (Name × Spec) → (Name → Option Ds) → (Name → Option Ds) × Option PyErr
  | [], f => (f, none)
  | (n, s) :: rest, f =>
    match f n with
    | none => ensureLoop rest f
    | some d =>
      match ensureChunks s d with
      | .error e => (f, some e)
      | .ok d' => ensureLoop rest (put f n (some (ensureFilter s d')))

/-- _core.py:545-573 `_ensure_chunked`. -/
def ensureChunked (c : Cont) : Cont × Option PyErr :=
  let r := ensureLoop c.specs c.dsets
  ({ c with dsets := r.1 }, r.2)

/-- A selection on one axis: everything, this many entries, or a single one, which drops the axis. -/
inductive Sel where
  | all
  | part (k : Nat)
  | one
  deriving DecidableEq

/-- The shape of `dset[selection]`; fewer selections than axes leave the others as they are. -/
def selShape : List Nat → List Sel → List Nat
  | [], _ => []
  | ls, [] => ls
  | l :: ls, .all :: ss => l :: selShape ls ss
  | l :: ls, .part k :: ss => min k l :: selShape ls ss
  | _ :: ls, .one :: ss => selShape ls ss

/-- _memh5.py:2557-2608: a dataset of a file is read. The shape is that of the selected data, the chunks are those of the dataset in the file. -/
def readDataset (file : Ds) (sel : List Sel) : Ds := { file with shape := selShape file.shape sel }

/-- What a program does with a container. -/
inductive Op where
  | add (n : Name)
  | set (n : Name) (v : Option (List Nat))
  | ensure
  | read (n : Name) (file : Ds) (sel : List Sel)
  | copy (n m : Name)
  | convert (n : Name)
  | delete (n : Name)
  | create (n : Name) (d : Ds)

def step (c : Cont) : Op → Cont × Option PyErr
  | .add n =>
    match addDataset c n with
    | .error e => (c, some e)
    | .ok c' => (c', none)
  | .set n v =>
    match c.dsets n with
    | none => (c, some .keyError)
    | some d =>
      match setChunks d v with
      | .error e => (c, some e)
      | .ok d' => ({ c with dsets := put c.dsets n (some d') }, none)
  | .ensure => ensureChunked c
  | .read n file sel => (createDataset c n (readDataset file sel), none)
  | .copy n m =>
    match c.dsets n with
    | none => (c, some .keyError)
    | some d => ({ c with dsets := put c.dsets m (some d) }, none)
  | .convert n =>
    match c.dsets n with
    | none => (c, some .keyError)
    | some d => (createDataset c n ⟨d.shape, d.chunks, d.compression, d.opts⟩, none)
  | .delete n => ({ c with dsets := put c.dsets n none }, none)
  | .create n d => (createDataset c n d, none)

def run (c : Cont) (ops : List Op) : Cont := ops.foldl (fun c op => (step c op).1) c

/-- What `h5py` (`make_new_dset`) and HDF5 (`H5Pset_chunk`) demand of the chunks of a new dataset. -/
def h5accepts (d : Ds) : Except PyErr Unit :=
  match d.chunks with
  | none => .ok ()
  | some cs =>
    if (List.zipWith (fun c l => decide (l < c)) cs d.shape).any id then .error .valueError
    else if cs.length ≠ d.shape.length then .error .valueError
    else if cs.any (· == 0) then .error .valueError
    else .ok ()

end Verif.Fit
