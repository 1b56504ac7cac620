import Verif.Load.Read

/-!
# Model of loading a container with selections along axes

Models `MemDiskGroup.from_file` (`caput/memdata/_memh5.py:1838-1965`) without `ondisk`,
`ContainerPrototype._make_selections` (`caput/containers/_core.py:655-699`), and the reading of datasets
by `deep_group_copy` (`_memh5.py:2516-2529`, 2558) and `_distributed_group_from_file` (2877-2945) on one
process. `MPIArray.from_file` is in `Verif.Load.Read`.

A file is a list of datasets with their paths. Attributes and strings are in C33 and C41. Left out:
`hints` other than those in the file, selections that are single integers.
-/
namespace Verif.Load

open Verif.Dist (NArr MArr Comm)
open Verif.Slice (FileSel)

abbrev Str := List Char

/-- A container class: the axes and the datasets it and its bases declare (`_class_axes`,
`_class_dataset_spec`, C37). An axis is a name, or `none` if it is given as a length. -/
structure Cls where
  axes : List Str
  spec : List (Str × List (Option Str))

/-- A value of the dictionary of selections: a tuple, or a single slice or list. -/
inductive Selv where
  | tuple (l : List FileSel)
  | bare (s : FileSel)
  deriving DecidableEq, Repr

/-- Set an entry of a dictionary. -/
def dput {β : Type} (d : Str → Option β) (k : Str) (v : β) : Str → Option β :=
  fun k' => if k' = k then some v else d k'

/-- The selection along an axis. -/
def axisSel (args : List (Str × FileSel)) : Option Str → Option FileSel
  | some ax => args.lookup ax
  | none => none

/-- _core.py:684-691: the selections for the axes of a dataset. -/
def dsetSel (args : List (Str × FileSel)) (axes : List (Option Str)) : List FileSel :=
  axes.map fun ax => (axisSel args ax).getD (.slc {})

def relevant (args : List (Str × FileSel)) (axes : List (Option Str)) : Bool :=
  axes.any fun ax => (axisSel args ax).isSome

def mapPath (ax : Str) : Str := "/index_map/".toList ++ ax

/-- _core.py:655-699 `_make_selections`. -/
def makeSelections (cls : Cls) (args : List (Str × FileSel)) : Except PyErr (Str → Option Selv) :=
  if args.all (fun x => cls.axes.contains x.1) then
    .ok (args.foldl (fun d x => dput d (mapPath x.1) (.bare x.2))
      (cls.spec.foldl (fun d x => if relevant args x.2 then dput d ('/' :: x.1) (.tuple (dsetSel args x.2)) else d)
        (fun _ => none)))
  else .error .runtimeError

/-- _memh5.py:2516-2529 and 2884-2889: the selection for a dataset. `none` stands for `None`. -/
def getSel (sels : Option (Str → Option Selv)) (path : Str) : Option Selv :=
  match sels with
  | none => none
  | some d => match d path with
    | some s => some s
    | none => d path.tail

/-- `zarr`: a list of positions need not be sorted; negative ones count from the end; an empty list is not
taken for a list of positions. -/
def zarrPos (n : Nat) : FileSel → Except PyErr (List Nat)
  | .list l =>
    if l = [] then .error .indexError
    else if l.all (fun x => decide (-(n : Int) ≤ x ∧ x < n)) then
      .ok (l.map fun (x : Int) => (if x < 0 then x + (n : Int) else x).toNat)
    else .error .indexError
  | .slc s => selPos n (.slc s)

/-- `zarr` (2.13 or later): `dset[sel]`. If every axis has a list then the lists are taken together, one element for each
position in them; otherwise there can be one list. -/
def zarrGet {α : Type} (G : NArr α) (sel : List FileSel) : Except PyErr (NArr α) :=
  match (G.shape.zip sel).mapM (fun x => zarrPos x.1 x.2) with
  | .error e => .error e
  | .ok pss =>
    if sel.countP FileSel.isList ≤ 1 then .ok (takePos G pss)
    else if sel.all FileSel.isList then
      if pss.all (fun ps => ps.length == (pss.headD []).length) then
        .ok ⟨[(pss.headD []).length], fun i => G.val (pss.map fun ps => ps.getD (i.headD 0) 0)⟩
      else .error .indexError
    else .error .indexError

/-- `dset[l]` for a tuple; missing entries are full slices. -/
def readTuple {α : Type} (fmt : Format) (G : NArr α) (l : List FileSel) : Except PyErr (NArr α) :=
  if G.shape.length < l.length then .error .typeError
  else
    match fmt with
    | .hdf5 => h5Read G (expandSel (some l) G.shape.length)
    | .zarr => zarrGet G (expandSel (some l) G.shape.length)

/-- _memh5.py:2558, 2929-2932: `dset[selection]`. Without a selection it is `dset[:]`, which needs an axis. -/
def readCommon {α : Type} (fmt : Format) (G : NArr α) : Option Selv → Except PyErr (NArr α)
  | none => if G.shape = [] then .error .valueError else .ok G
  | some (.tuple l) => readTuple fmt G l
  | some (.bare s) => readTuple fmt G [s]

/-- _memh5.py:2911-2919. `_expand_sel` asks for the length of a single slice, and of the elements of a
list. -/
def readDist {α : Type} (fmt : Format) (io : Io) (junk : List Nat → α) (G : NArr α) (axis : Int) (c : Comm) :
    Option Selv → Except PyErr (MArr α)
  | none => fromFile fmt io junk G none axis c
  | some (.tuple l) => fromFile fmt io junk G (some l) axis c
  | some (.bare _) => .error .typeError

/-- A dataset in a file, with the axis it is to be distributed over if it is. -/
structure FileDs (α : Type) where
  path : Str
  data : NArr α
  dist : Option Int

/-- One dataset is loaded. -/
def loadOne {α : Type} (fmt : Format) (io : Io) (junk : List Nat → α) (distributed : Bool) (c : Comm)
    (sels : Option (Str → Option Selv)) (e : FileDs α) : Except PyErr (Proto.Data α) :=
  match distributed, e.dist with
  | true, some axis =>
    match readDist fmt io junk e.data axis c (getSel sels e.path) with
    | .ok A => .ok (.dist A)
    | .error x => .error x
  | _, _ =>
    match readCommon fmt e.data (getSel sels e.path) with
    | .ok A => .ok (.common A)
    | .error x => .error x

/-- _memh5.py:1923-1926: the keyword arguments that end in `_sel`. -/
def selArgs (kw : List (Str × FileSel)) : List (Str × FileSel) :=
  kw.filterMap fun x => if "_sel".toList.isSuffixOf x.1 then some (x.1.take (x.1.length - 4), x.2) else none

/-- _memh5.py:1915-1947: `from_file` of a container class, or of a class without `_make_selections`. -/
def load {α : Type} (fmt : Format) (io : Io) (junk : List Nat → α) (distributed : Bool) (c : Comm) (cls : Option Cls)
    (kw : List (Str × FileSel)) (file : List (FileDs α)) : Except PyErr (List (Proto.Data α)) :=
  match cls with
  | none => file.mapM (loadOne fmt io junk distributed c none)
  | some k =>
    match makeSelections k (selArgs kw) with
    | .error e => .error e
    | .ok d => file.mapM (loadOne fmt io junk distributed c (some d))

end Verif.Load
