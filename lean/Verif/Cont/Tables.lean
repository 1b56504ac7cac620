import Verif.Cont.Model

/-!
# Model of containers with tables

Models `TableSpec` (`caput/containers/_core.py:700-815`): making the dataset specification of an object
from the tables its class and the bases of its class describe. `self.__class__.__dict__["_dataset_spec"]`
is the dictionary of the class itself, so making an object can change the class. The hierarchy of classes
is therefore the state, and making an object yields a new state.

Simplifications: each class has dictionaries of its own (no class body that names the dictionary of
another class); `_axes` is a tuple, as the documentation asks; every table has `columns`; a class that has tables
inherits from `TableSpec`. The rest of the constructor (`ContainerPrototype.__init__`), which
fills the container, is not part of this model.
-/
namespace Verif.Cont

variable {N T U : Type}

/-- An entry of `_table_spec`. A column whose name is not a string has the name `none`; `T` is the type
of data types. -/
structure Table (N T : Type) where
  columns : List (Option N × T)
  axis : Option N := none
  initialise : Option Bool := none
  distributed : Option Bool := none

/-- The dataset specification made for a table (_core.py:772-778). -/
structure TableSet (N T : Type) where
  axes : List N
  dtype : List (N × T)
  initialise : Bool
  distributed : Bool
  distAxis : N
  deriving DecidableEq

/-- An entry of `_dataset_spec`: made for a table, or written by the user. -/
inductive Entry (N T U : Type) where
  | table (s : TableSet N T)
  | plain (u : U)
  deriving DecidableEq

/-- A class statement: bases, and its own `_dataset_spec`, `_axes` and `_table_spec`. -/
structure TClass (N T U : Type) where
  bases : List Nat
  spec : Option (Dict N (Entry N T U)) := none
  axes : Option (List N) := none
  tables : Option (Dict N (Table N T)) := none

/-- The classes as `_class_dataset_spec` sees them. -/
def specH (K : List (TClass N T U)) : List (ClassDef N (Entry N T U)) :=
  K.map fun x => ⟨x.bases, x.spec, x.axes⟩

/-- The classes as `table_spec` sees them. -/
def tabH (K : List (TClass N T U)) : List (ClassDef N (Table N T)) :=
  K.map fun x => ⟨x.bases, x.tables, none⟩

/-- `cls.__dict__["_dataset_spec"]` is now `d`. -/
def setOwn (K : List (TClass N T U)) (c : Nat) (d : Dict N (Entry N T U)) : List (TClass N T U) :=
  (K.reverse.modify c fun x => { x with spec := some d }).reverse

/-- The keys of a dictionary, in the order in which they were first assigned. -/
def keysOf [DecidableEq N] {β : Type} (d : Dict N β) : List N :=
  d.foldl (fun ks x => if x.1 ∈ ks then ks else ks ++ [x.1]) []

/-- `d.items()`. -/
def itemsOf [DecidableEq N] {β : Type} (d : Dict N β) : List (N × β) :=
  (keysOf d).filterMap fun k => (get d k).map fun v => (k, v)

/-- _core.py:790-800 `_create_dtype`; the error is the `ValueError` with the number of the column. -/
def createDtype : Nat → List (Option N × T) → Except Nat (List (N × T))
  | _, [] => .ok []
  | ci, (name, t) :: cols =>
    match name with
    | none => .error ci
    | some name =>
      match createDtype (ci + 1) cols with
      | .error e => .error e
      | .ok dt => .ok ((name, t) :: dt)

/-- _core.py:803-815 `table_spec`, given the MRO. -/
def tableSpec (K : List (TClass N T U)) (l : List Nat) : Dict N (Table N T) :=
  l.reverse.foldl (addSpec (tabH K)) []

/-- _core.py:765-783: the loop over the tables. The dictionary is returned also if there is an error,
since it has been changed. `idx` is `name + "_index"`. -/
def tableLoop [DecidableEq N] (idx : N → N) : List (N × Table N T) → Dict N (Entry N T U) → List N →
    Dict N (Entry N T U) × Except Nat (List N)
  | [], d, axes => (d, .ok axes)
  | (name, spec) :: rest, d, axes =>
    match createDtype 0 spec.columns with
    | .error e => (d, .error e)
    | .ok dtype =>
      tableLoop idx rest
        (update d [(name, .table ⟨[spec.axis.getD (idx name)], dtype, spec.initialise.getD true,
          spec.distributed.getD false, spec.axis.getD (idx name)⟩)])
        (if spec.axis.getD (idx name) ∈ axes then axes else axes ++ [spec.axis.getD (idx name)])

/-- What `self.__dict__` has under `_dataset_spec`: nothing, the dictionary of the class, or one of its
own. -/
inductive Held (N T U : Type) where
  | nothing
  | shared
  | own (d : Dict N (Entry N T U))

/-- An object: its class and what it holds itself. -/
structure Inst (N T U : Type) where
  cls : Nat
  held : Held N T U
  axes : List N

/-- An object loaded from a file: `__init__` is not called (_memh5.py:1952-1957). -/
def loaded (c : Nat) : Inst N T U := ⟨c, .nothing, []⟩

/-- What goes wrong when an object is made. -/
inductive MakeErr where
  | noClass
  | badColumn (ci : Nat)
  deriving DecidableEq, Repr

/-- _core.py:757-786: `TableSpec.__init__` up to the call of the base class. -/
def construct [DecidableEq N] (idx : N → N) (K : List (TClass N T U)) (c : Nat) :
    List (TClass N T U) × Except MakeErr (Inst N T U) :=
  match mro (specH K) c with
  | none => (K, .error .noClass)
  | some l =>
    match ownSpec (specH K) c with
    | some d =>
      match tableLoop idx (itemsOf (tableSpec K l)) d ((ownAxes (specH K) c).getD []) with
      | (d', .error e) => (setOwn K c d', .error (.badColumn e))
      | (d', .ok axes) => (setOwn K c d', .ok ⟨c, .shared, axes⟩)
    | none =>
      match tableLoop idx (itemsOf (tableSpec K l)) [] ((ownAxes (specH K) c).getD []) with
      | (_, .error e) => (K, .error (.badColumn e))
      | (d', .ok axes) => (K, .ok ⟨c, .own d', axes⟩)

/-- Making objects of the classes `cs` one after the other, whether or not it succeeds. -/
def afterAll [DecidableEq N] (idx : N → N) (K : List (TClass N T U)) (cs : List Nat) : List (TClass N T U) :=
  cs.foldl (fun K c => (construct idx K c).1) K

/-- `self.__dict__.get("_dataset_spec", {})`. -/
def heldDict (K : List (TClass N T U)) (i : Inst N T U) : Dict N (Entry N T U) :=
  match i.held with
  | .nothing => []
  | .shared => (ownSpec (specH K) i.cls).getD []
  | .own d => d

/-- _core.py:613-622 `dataset_spec` of an object, given the MRO of its class. -/
def datasetSpec [LT N] [DecidableLT N] [DecidableEq N] (K : List (TClass N T U)) (l : List Nat)
    (i : Inst N T U) : Dict N (Entry N T U) :=
  instSpec (specH K) l (heldDict K i)

/-- _core.py:642-653 `axes` of an object. -/
def objAxes [LT N] [DecidableLT N] [DecidableEq N] (K : List (TClass N T U)) (l : List Nat)
    (i : Inst N T U) : List N :=
  sortedSet (classAxes (specH K) l ++ i.axes)

end Verif.Cont
