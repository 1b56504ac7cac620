/-!
# Model of the dataset objects of groups in memory

Models `caput/memdata/_memh5.py:278-298` (`__getitem__`, which makes a new object for each access), `:725-908`
(`create_dataset`), `:300-309` (`__delitem__`), `:1031-1095` (`MemDataset.copy`, `view`, `attrs`), `:1281-1335` and
`:1503-1577` (properties, assignment, `redistribute`), and `caput/mpiarray.py:767-791` (`MPIArray.redistribute`: the same
array if the axis is the same, the same memory if there is one process, else new memory).

The objects refer to memory and to dictionaries of attributes by number. Simplified: one tree; groups are left out, so
names are full paths; a dataset is made with memory of its own; the contents of a distributed dataset are the global
contents; assignment is an arbitrary function on the contents.
-/
namespace Verif.Views

/-- A dataset object: `_data` (memory and, if it is distributed, the axis), `_attrs`, `_chunks`, and `_compression`
with its options. -/
structure Dset where
  name : String
  mem : Nat
  axis : Option Nat
  attrs : Nat
  chunks : Option (List Nat)
  filter : Option Nat

/-- The datasets stored in the tree by name, the objects that the program holds, the memory, and the dictionaries. -/
structure State (V A : Type) where
  stored : String → Option Dset
  handles : List Dset
  mems : List V
  dicts : List (String → Option A)

/-- What a program does. Objects are numbered in the order in which the program gets them. -/
inductive Op (V A : Type) where
  | create (n : String) (v : V) (axis : Option Nat) (chunks : Option (List Nat)) (filter : Option Nat)
  | get (n : String)
  | delete (n : String)
  | write (i : Nat) (f : V → V)
  | setAttr (i : Nat) (k : String) (a : A)
  | setChunks (i : Nat) (c : Option (List Nat))
  | setFilter (i : Nat) (c : Option Nat)
  | copy (i : Nat)
  | redistribute (i : Nat) (axis : Nat)

/-- What an operation raises. `noHandle` is a program that uses an object it does not have. -/
inductive VErr where
  | keyError
  | valueError
  | attributeError
  | noHandle
  deriving DecidableEq

variable {V A : Type}

/-- Nothing is stored. -/
def State.empty : State V A := ⟨fun _ => none, [], [], []⟩

/-- _memh5.py:820-908: the dataset is stored, replacing what had the name, and the program gets an object for it. -/
def create (s : State V A) (n : String) (v : V) (axis : Option Nat) (chunks : Option (List Nat)) (filter : Option Nat) :
    State V A :=
  let b : Dset := ⟨n, s.mems.length, axis, s.dicts.length, chunks, filter⟩
  ⟨fun m => if m = n then some b else s.stored m, s.handles ++ [b], s.mems ++ [v], s.dicts ++ [fun _ => none]⟩

/-- _memh5.py:278-298 `__getitem__`: a shallow copy of the stored dataset. -/
def get (s : State V A) (n : String) : State V A × Option VErr :=
  match s.stored n with
  | none => (s, some .keyError)
  | some b => ({ s with handles := s.handles ++ [b] }, none)

/-- _memh5.py:300-309 `__delitem__`. -/
def delete (s : State V A) (n : String) : State V A × Option VErr :=
  match s.stored n with
  | none => (s, some .keyError)
  | some _ => ({ s with stored := fun m => if m = n then none else s.stored m }, none)

/-- _memh5.py:1297-1307 and 1511-1520: the chunks that are kept. -/
def chunksFor (shape : List Nat) : Option (List Nat) → Except VErr (Option (List Nat))
  | none => .ok none
  | some c => if c.length ≠ shape.length then .error .valueError else .ok (some (List.zipWith min c shape))

/-- _memh5.py:1050-1067 `copy` (deep): memory and attributes of its own, but the name and the tree of the original. -/
def copy (s : State V A) (h : Dset) (v : V) (d : String → Option A) : State V A :=
  { s with handles := s.handles ++ [{ h with mem := s.mems.length, attrs := s.dicts.length }],
           mems := s.mems ++ [v], dicts := s.dicts ++ [d] }

/-- mpiarray.py:767-791 for the array of the stored dataset `b` with contents `v`: the dataset afterwards, and the
memory. -/
def moved (procs : Nat) (s : State V A) (b : Dset) (v : V) (a axis : Nat) : Dset × List V :=
  if a = axis then (b, s.mems)
  else if procs = 1 then ({ b with axis := some axis }, s.mems)
  else ({ b with mem := s.mems.length, axis := some axis }, s.mems ++ [v])

/-- _memh5.py:1564-1571 `redistribute`: of the dataset that is stored under the name. -/
def redistribute (procs : Nat) (s : State V A) (i : Nat) (h : Dset) (axis : Nat) : State V A × Option VErr :=
  match h.axis with
  | none => (s, some .attributeError)
  | some _ =>
    match s.stored h.name with
    | none => (s, some .keyError)
    | some b =>
      match b.axis with
      | none => (s, some .attributeError)
      | some a =>
        match s.mems[b.mem]? with
        | none => (s, none)
        | some v =>
          let r := moved procs s b v a axis
          (⟨fun m => if m = h.name then some r.1 else s.stored m,
            s.handles.set i { h with mem := r.1.mem, axis := r.1.axis }, r.2, s.dicts⟩, none)

/-- One operation. `shape` is the shape of contents. -/
def step (shape : V → List Nat) (procs : Nat) (s : State V A) : Op V A → State V A × Option VErr
  | .create n v axis chunks filter => (create s n v axis chunks filter, none)
  | .get n => get s n
  | .delete n => delete s n
  | .write i f =>
    match s.handles[i]? with
    | none => (s, some .noHandle)
    | some h => ({ s with mems := s.mems.modify h.mem f }, none)
  | .setAttr i k a =>
    match s.handles[i]? with
    | none => (s, some .noHandle)
    | some h => ({ s with dicts := s.dicts.modify h.attrs fun d => fun k' => if k' = k then some a else d k' }, none)
  | .setChunks i c =>
    match s.handles[i]? with
    | none => (s, some .noHandle)
    | some h =>
      match s.mems[h.mem]? with
      | none => (s, some .noHandle)
      | some v =>
        match chunksFor (shape v) c with
        | .error e => (s, some e)
        | .ok c' => ({ s with handles := s.handles.set i { h with chunks := c' } }, none)
  | .setFilter i c =>
    match s.handles[i]? with
    | none => (s, some .noHandle)
    | some h => ({ s with handles := s.handles.set i { h with filter := c } }, none)
  | .copy i =>
    match s.handles[i]? with
    | none => (s, some .noHandle)
    | some h =>
      match s.mems[h.mem]? with
      | none => (s, some .noHandle)
      | some v =>
        match s.dicts[h.attrs]? with
        | none => (s, some .noHandle)
        | some d => (copy s h v d, none)
  | .redistribute i axis =>
    match s.handles[i]? with
    | none => (s, some .noHandle)
    | some h => redistribute procs s i h axis

/-- A program. -/
def run (shape : V → List Nat) (procs : Nat) (s : State V A) : List (Op V A) → State V A
  | [] => s
  | op :: ops => run shape procs (step shape procs s op).1 ops

/-- What can be seen of a dataset object: its name, contents, axis, attributes, chunks and compression. -/
structure Seen (V A : Type) where
  name : String
  data : V
  axis : Option Nat
  attrs : String → Option A
  chunks : Option (List Nat)
  filter : Option Nat

/-- What the properties of a dataset object give. -/
def look (s : State V A) (h : Dset) : Option (Seen V A) :=
  match s.mems[h.mem]? with
  | none => none
  | some v =>
    match s.dicts[h.attrs]? with
    | none => none
    | some d => some ⟨h.name, v, h.axis, d, h.chunks, h.filter⟩

/-- What is seen through object `i`. -/
def seen (s : State V A) (i : Nat) : Option (Seen V A) := s.handles[i]?.bind (look s)

/-- What is seen through a new object for the name. -/
def fresh (s : State V A) (n : String) : Option (Seen V A) := (s.stored n).bind (look s)

/-! ### The data type in a deep copy -/

/-- Data types: plain values; python objects; objects with metadata (variable lengths, `h5py.vlen_dtype`); fields; and
arrays in the elements. -/
inductive DT where
  | plain
  | obj
  | tagged
  | fields (l : List (String × DT))
  | array (n : Nat) (t : DT)

/-- An element of an array: bytes, a reference to a python object, or parts. -/
inductive Elem where
  | bytes (n : Nat)
  | ref (r : Nat)
  | parts (l : List Elem)

/-- _memh5.py:2716, 2722: `is np.dtype(object)`. -/
def DT.isObj : DT → Bool
  | .obj => true
  | _ => false

mutual
/-- `copy.deepcopy` of an element: `new` gives the copies of objects. -/
def Elem.deep (new : Nat → Nat) : Elem → Elem
  | .bytes n => .bytes n
  | .ref r => .ref (new r)
  | .parts l => .parts (Elem.deepAll new l)
def Elem.deepAll (new : Nat → Nat) : List Elem → List Elem
  | [] => []
  | x :: l => x.deep new :: Elem.deepAll new l
end

/-- _memh5.py:2719-2723: the fields, each copied deeply if its type is exactly that of objects. -/
def copyFields (new : Nat → Nat) : List (String × DT) → List Elem → List Elem
  | (_, t) :: ts, x :: xs => (if t.isObj then x.deep new else x) :: copyFields new ts xs
  | _, xs => xs

/-- _memh5.py:2704-2723 `deep_copy_dataset`: one element. -/
def copyElem (new : Nat → Nat) (t : DT) (x : Elem) : Elem :=
  if t.isObj then x.deep new
  else
    match t with
    | .fields ts =>
      match x with
      | .parts xs => .parts (copyFields new ts xs)
      | _ => x
    | _ => x

end Verif.Views
