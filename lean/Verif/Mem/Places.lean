import Verif.Mem.Model

/-!
# Model of where the objects of a tree are, and of their equality

Models `caput/memdata/_memh5.py:190-231` (`_MemObjMixin`: `name`, `parent`, `file`, `__eq__`), `:267-298`
(`_from_storage_root`, `_BaseGroup.__getitem__`), `:770-771`, `:823` and `:905-908` (the name that `create_dataset` gives to
a dataset, and what it returns), `:1031-1069` (`MemDataset.copy`), `:1153-1158`, `:1348-1357` and `:1595-1604` (equality of
datasets), and `:2652-2662` (a dataset shared by `deep_group_copy` from the root of another tree). The operations on a tree
are those of `Verif.Mem.Model`.

There is any number of trees, numbered. A dataset in a tree is its name and the number of its contents: its kind (common or
distributed), attributes, data, chunks and compression. Left out: classes of groups, memory shared by datasets that differ,
and other processes.
-/
namespace Verif.Mem.Places

variable {V α : Type}

/-- A stored dataset: `_name`, and where its contents are. -/
structure Named where
  name : Str
  cell : Nat
  deriving DecidableEq, Repr

/-- What a program holds: a group is a tree and a name; a dataset object has the tree that it was taken from, if any. -/
inductive Handle where
  | group (tree : Nat) (name : Str)
  | dset (tree : Option Nat) (d : Named)
  deriving DecidableEq, Repr

/-- _memh5.py:209-212 `name`. -/
def Handle.name : Handle → Str
  | .group _ n => n
  | .dset _ d => d.name

/-- `_storage_root`. -/
def Handle.tree : Handle → Option Nat
  | .group t _ => some t
  | .dset t _ => t

/-- _memh5.py:214-218 `parent`: the tree and name of the group. -/
def Handle.parent (h : Handle) : Option Nat × Str := (h.tree, (splitPath h.name).1)

/-- _memh5.py:220-223 `file`. -/
def Handle.file (h : Handle) : Option Nat × Str := (h.tree, ['/'])

/-- The trees, the contents of the datasets, and the first number that is not taken. -/
structure World (V α : Type) where
  trees : Nat → Node V Named
  cells : Nat → α
  next : Nat

/-- What `group[name]` gives: an object of the tree, or an array taken from a dataset by field names. -/
inductive Found where
  | obj (h : Handle)
  | array (d : Named) (fs : List Str)
  deriving DecidableEq, Repr

/-- _memh5.py:278-298 `__getitem__` on the group `g` of the tree `t`. -/
def World.get (fields : Named → List Str → Option FieldErr) (W : World V α) (t : Nat) (g n : Str) : Except Err Found :=
  match formatAbs (joinPath g n) with
  | .error e => .error e
  | .ok path =>
    match rootGet fields (W.trees t) path with
    | .error e => .error e
    | .ok (.node (.group _ _)) => .ok (.obj (.group t path))
    | .ok (.node (.dset d)) => .ok (.obj (.dset (some t) d))
    | .ok (.field d fs) => .ok (.array d fs)

/-- _memh5.py:770-771 and 823: the name that `create_dataset` gives. The error does not happen, since the group has an
absolute name. -/
def storedName (g n : Str) : Str :=
  match formatAbs (splitPath (joinPath g n)).1 with
  | .ok p => joinPath p (splitPath (joinPath g n)).2
  | .error _ => []

/-- The dataset that is put into the tree, if its contents can be made. -/
def World.newDset (W : World V α) (g n : Str) : Except Err α → Except Err Named
  | .ok _ => .ok ⟨storedName g n, W.next⟩
  | .error e => .error e

/-- The world after a dataset may have been made. -/
def World.alloc (W : World V α) : Except Err α → World V α
  | .ok a => ⟨W.trees, fun c => if c = W.next then a else W.cells c, W.next + 1⟩
  | .error _ => W

def World.setTree (W : World V α) (t : Nat) (r : Node V Named) : World V α :=
  ⟨fun t' => if t' = t then r else W.trees t', W.cells, W.next⟩

/-- What a program can do. `share` is the step of a copy that shares a dataset (2652-2662): the dataset `n` of the
root of `t1` is put into the group `g` of `t2` under its own name. -/
inductive Op (α : Type) where
  | createGroup (t : Nat) (g n : Str)
  | requireGroup (t : Nat) (g n : Str)
  | createDataset (t : Nat) (g n : Str) (make : Except Err α)
  | requireDataset (t : Nat) (g n : Str) (make : Except Err α)
  | delete (t : Nat) (g n : Str)
  | share (t1 : Nat) (n : Str) (t2 : Nat) (g : Str)
  | write (h : Named) (a : α)
  | copy (h : Named)

/-- _memh5.py:2637-2662: `key` is the name of the entry; `g1` is the root of its tree. -/
def World.share (fields : Named → List Str → Option FieldErr) (W : World V α) (t1 : Nat) (n : Str) (t2 : Nat) (g : Str) :
    World V α × Option Err :=
  match W.get fields t1 ['/'] n with
  | .error e => (W, some e)
  | .ok (.obj (.dset _ entry)) =>
    match formatAbs (splitPath (joinPath g entry.name)).1 with
    | .error e => (W, some e)
    | .ok pname =>
      match getItem fields (W.trees t2) g pname with
      | .error e => (W, some e)
      | .ok (.node (.group _ _)) =>
        match rootGet fields (W.trees t1) entry.name with
        | .error e => (W, some e)
        | .ok (.node m) => (W.setTree t2 (insertAt (splitPath (joinPath g entry.name)).2 m (parts pname) (W.trees t2)), none)
        | .ok (.field _ _) => (W, some .attributeError)
      | .ok _ => (W, some .attributeError)
  | .ok _ => (W, some .attributeError)

/-- _memh5.py:1031-1069 `copy` (deep): new contents, and name and tree of the original. -/
def World.copyOf (W : World V α) (h : Named) : World V α × Named :=
  (⟨W.trees, fun c => if c = W.next then W.cells h.cell else W.cells c, W.next + 1⟩, ⟨h.name, W.next⟩)

def Op.run (fields : Named → List Str → Option FieldErr) (W : World V α) : Op α → World V α × Option Err
  | .createGroup t g n =>
    let r := Mem.createGroup fields (W.trees t) g n
    (W.setTree t r.1, r.2)
  | .requireGroup t g n =>
    let r := Mem.requireGroup fields (W.trees t) g n
    (W.setTree t r.1, r.2)
  | .createDataset t g n make =>
    let r := Mem.createDataset fields (W.trees t) g n (W.newDset g n make)
    ((W.alloc make).setTree t r.1, r.2)
  | .requireDataset t g n make =>
    let r := Mem.requireDataset fields (W.trees t) g n (W.newDset g n make)
    ((W.alloc make).setTree t r.1, r.2)
  | .delete t g n =>
    let r := Mem.delItem fields (W.trees t) g n
    (W.setTree t r.1, r.2)
  | .share t1 n t2 g => W.share fields t1 n t2 g
  | .write h a => (⟨W.trees, fun c => if c = h.cell then a else W.cells c, W.next⟩, none)
  | .copy h => ((W.copyOf h).1, none)

/-- _memh5.py:225-231, 1153-1158, 1348-1357 and 1595-1604: `a == b`. `same` compares contents: the kinds, and `allequal`
of attributes, data, chunks and compression. -/
def World.eq (same : α → α → Bool) (W : World V α) : Handle → Handle → Bool
  | .group t n, b => (some t == b.tree) && (n == b.name)
  | .dset _ _, .group _ _ => false
  | .dset t d, .dset t' d' => (t == t') && (d.name == d'.name) && same (W.cells d.cell) (W.cells d'.cell)

/-- `create_dataset` with what it returns: `self[full_path_name]` (905-908). -/
def World.createDataset (fields : Named → List Str → Option FieldErr) (W : World V α) (t : Nat) (g n : Str)
    (make : Except Err α) : World V α × Except Err Found :=
  match (Op.createDataset t g n make : Op α).run fields W with
  | (W', some e) => (W', .error e)
  | (W', none) => (W', W'.get fields t g (storedName g n))

/-- `create_group` with what it returns: `self[name]` (722-723). -/
def World.createGroup (fields : Named → List Str → Option FieldErr) (W : World V α) (t : Nat) (g n : Str) :
    World V α × Except Err Found :=
  match (Op.createGroup t g n : Op α).run fields W with
  | (W', some e) => (W', .error e)
  | (W', none) => (W', W'.get fields t g n)

end Verif.Mem.Places
