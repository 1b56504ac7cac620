/-!
# Model of containers on disk

Models `caput/memdata/_memh5.py:1643-1696` (`MemDiskGroup.__init__`), `:1698-1702` (context manager), `:1729-1758`
(`from_group`, without the search for the class, which is C77), `:1769-1775` (`close`), `:1809-1815` (`ondisk`), `:1838-1980`
(`from_file`, the part for data on disk), `:2125-2173` (`to_memory`, `to_disk`, `flush`), `:2304-2338` (`get_file`) and
`:247-250` (`comm`).

A file is a name with contents of some type `α`; an open file is a numbered handle. Library knowledge: the default
mode of `h5py.File` is reading, of `zarr.open_group` appending; closing an `h5py.File` twice is harmless; a `zarr.Group`
(version 2) has no methods `close` and `flush` and no attributes `filename` and `comm`, and an `h5py.Group` that is not a
file has no `filename`.
-/
namespace Verif.Handle

/-- The two file formats. -/
inductive Fmt where
  | hdf5
  | zarr
  deriving DecidableEq

/-- Modes of opening a file. -/
inductive Mode where
  | r
  | rplus
  | a
  | w
  | x
  deriving DecidableEq

/-- What a container wraps. Files are handles. -/
inductive Root where
  | mem (distributed : Bool) (comm : Option Nat)
  | h5file (h : Nat)
  | h5group (h : Nat)
  | zgroup (h : Nat)
  deriving DecidableEq

/-- Exceptions. -/
inductive HErr where
  | valueError
  | attributeError
  | osError
  | notImplemented
  deriving DecidableEq

/-- The files that exist, the handles that are open (with the file they belong to), and the next free handle. -/
structure World (α : Type) where
  files : String → Option α
  opened : Nat → Option String
  next : Nat

/-- `h5py.File(name, mode)` and `zarr.open_group(name, mode)`. `blank` is the contents of a new file. -/
def World.open {α : Type} (w : World α) (blank : α) (name : String) (mode : Mode) : Except HErr (Nat × World α) :=
  let put (c : α) : Nat × World α :=
    (w.next, ⟨fun n => if n = name then some c else w.files n, fun h => if h = w.next then some name else w.opened h,
      w.next + 1⟩)
  match w.files name with
  | none =>
    match mode with
    | .r => .error .osError
    | .rplus => .error .osError
    | .a => .ok (put blank)
    | .w => .ok (put blank)
    | .x => .ok (put blank)
  | some c =>
    match mode with
    | .r => .ok (put c)
    | .rplus => .ok (put c)
    | .a => .ok (put c)
    | .w => .ok (put blank)
    | .x => .error .osError

/-- `h5py.File.close`. -/
def World.close {α : Type} (w : World α) (h : Nat) : World α :=
  { w with opened := fun k => if k = h then none else w.opened k }

/-- A container: what it wraps, whether it has to close it, and its lock directory. -/
structure Container where
  root : Root
  toclose : Bool
  lock : Option String
  deriving DecidableEq

/-- The first argument of the constructor. -/
inductive Arg where
  | nothing
  | container (c : Container)
  | group (r : Root)
  | name (s : String)

/-- The object that results from opening a file of a format. -/
def rootOf : Fmt → Nat → Root
  | .hdf5, h => .h5file h
  | .zarr, h => .zgroup h

/-- _memh5.py:2304-2338 `get_file`, for what is not in memory: the object and whether a file was opened. -/
def getFile {α : Type} (w : World α) (blank : α) (guess : String → Fmt) (a : Root ⊕ String) (mode : Mode)
    (format : Option Fmt) : Except HErr (Root × Bool × World α) :=
  match a with
  | .inl r => .ok (r, false, w)
  | .inr s =>
    match w.open blank s mode with
    | .error e => .error e
    | .ok (h, w') => .ok (rootOf (format.getD (guess s)) h, true, w')

/-- `_memh5.py:1657-1675`: what is wrapped, and whether it is to be closed. -/
def wrapArg {α : Type} (w : World α) (blank : α) (guess : String → Fmt) (arg : Arg) (distributed : Bool)
    (comm : Option Nat) (format : Option Fmt) : Except HErr (Root × Bool × World α) :=
  match arg with
  | .nothing => .ok (.mem distributed comm, false, w)
  | .container c => .ok (c.root, false, w)
  | .group r =>
    match getFile w blank guess (.inl r) .a format with
    | .error e => .error e
    | .ok (r', t, w') => .ok (r', if format = some .hdf5 then false else t, w')
  | .name s =>
    match getFile w blank guess (.inr s) .a format with
    | .error e => .error e
    | .ok (r', t, w') => .ok (r', if format = some .hdf5 then false else t, w')

/-- _memh5.py:1677-1693: the checks for distributed containers. -/
def checkDistributed (r : Root) (comm : Option Nat) : Bool :=
  match r with
  | .mem d c => d && (comm.isNone || comm == c)
  | _ => false

/-- _memh5.py:1652-1653: the communicator given, or that of all processes. -/
def commOf (world comm : Option Nat) : Option Nat :=
  match comm with
  | none => world
  | some c => some c

/-- _memh5.py:1643-1696 `MemDiskGroup.__init__`. `world` is the communicator of all processes, if there is one. The
result has the world also if the constructor raises. -/
def init {α : Type} (w : World α) (blank : α) (guess : String → Fmt) (world : Option Nat) (arg : Arg)
    (distributed : Bool) (comm : Option Nat) (format : Option Fmt) : Except HErr Container × World α :=
  match wrapArg w blank guess arg (distributed && (commOf world comm).isSome) (commOf world comm) format with
  | .error e => (.error e, w)
  | .ok (r, t, w') =>
    if distributed && (commOf world comm).isSome then
      if checkDistributed r (commOf world comm) then (.ok ⟨r, t, none⟩, w') else (.error .valueError, w')
    else (.ok ⟨r, t, none⟩, w')

/-- _memh5.py:1809-1815 `ondisk`. -/
def Container.ondisk (c : Container) : Bool :=
  match c.root with
  | .mem _ _ => false
  | .h5file _ => true
  | .h5group _ => false
  | .zgroup _ => true

/-- _memh5.py:247-250 `comm`: only groups in memory have a communicator. -/
def Container.comm (c : Container) : Option Nat :=
  match c.root with
  | .mem _ k => k
  | _ => none

/-- _memh5.py:1771-1772: closing the file. -/
def closeFile {α : Type} (w : World α) (c : Container) : Except HErr (World α) :=
  if c.ondisk && c.toclose then
    match c.root with
    | .h5file h => .ok (w.close h)
    | .zgroup _ => .error .attributeError
    | _ => .ok w
  else .ok w

/-- _memh5.py:1774: whether this process removes the lock directory: with a communicator only if its rank is None,
which no rank is. -/
def removesLock (c : Container) : Bool := c.lock.isSome && c.comm.isNone

/-- _memh5.py:1838-1980 `from_file` with `ondisk=True`. -/
def fromFileDisk {α : Type} (w : World α) (blank : α) (guess : String → Fmt) (a : Root ⊕ String) (distributed : Bool)
    (mode : Option Mode) (format : Option Fmt) : Except HErr (Container × World α) :=
  match a with
  | .inl r => .ok (⟨r, false, none⟩, w)
  | .inr s =>
    let f := format.getD (guess s)
    match w.open blank s (mode.getD .r) with
    | .error e => .error e
    | .ok (h, w') =>
      .ok (⟨rootOf f h, f = .hdf5, if distributed && decide (f = .zarr) then some (s ++ ".sync") else none⟩, w')

/-- _memh5.py:2125-2130 `to_memory`: the container itself, or one in memory with the contents of the file. -/
inductive Memory (α : Type) where
  | same
  | loaded (c : α)
  deriving DecidableEq

def toMemory {α : Type} (w : World α) (c : Container) : Except HErr (Memory α) :=
  match c.root with
  | .mem _ _ => .ok .same
  | .h5file h =>
    match w.opened h with
    | none => .error .valueError
    | some s =>
      match w.files s with
      | none => .error .osError
      | some x => .ok (.loaded x)
  | .h5group _ => .error .attributeError
  | .zgroup _ => .error .attributeError

/-- _memh5.py:2132-2168 `to_disk` of a container in memory with contents `x`: save, which overwrites the file, then
open it with the keyword arguments. -/
def toDisk {α : Type} (w : World α) (blank : α) (guess : String → Fmt) (distributed : Bool) (x : α) (name : String)
    (format : Fmt) (mode : Option Mode) : Except HErr (Container × World α) :=
  if distributed then .error .notImplemented
  else
    fromFileDisk { w with files := fun n => if n = name then some x else w.files n } blank guess (.inr name) false mode
      (some format)

/-- _memh5.py:2170-2173 `flush`. -/
def flush (c : Container) : Except HErr Unit :=
  if c.ondisk then
    match c.root with
    | .h5file _ => .ok ()
    | _ => .error .attributeError
  else .ok ()

/-- The contents a container on disk shows. -/
def Container.shows {α : Type} (w : World α) (c : Container) : Option α :=
  match c.root with
  | .h5file h => (w.opened h).bind w.files
  | .zgroup h => (w.opened h).bind w.files
  | .h5group h => (w.opened h).bind w.files
  | .mem _ _ => none

/-- The processes that have opened a zarr file together, and whether its lock directory exists. -/
structure Shared where
  lock : Bool
  using_ : List Nat

/-- One process closes its container. -/
def Shared.close (s : Shared) (c : Container) (i : Nat) : Shared :=
  ⟨s.lock && !removesLock c, s.using_.filter (· ≠ i)⟩

end Verif.Handle
