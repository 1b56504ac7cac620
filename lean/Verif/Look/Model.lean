import Verif.Mem.Names

/-!
# Model of what a container shows of its axes and datasets

Models `ro_dict` (`caput/memdata/_memh5.py:64-101`), `Container.index_map`, `reverse_map`, `create_index_map`, `del_index_map` and their
counterparts for reverse maps (`caput/containers/_core.py:93-166`), `ContainerPrototype.datasets` (576-591) and `DataWeightContainer.data`,
`weight` (`caput/containers/_basic.py:30-55`).

Memory is numbered, and so are array objects: two objects can show the same memory. Axes have one dimension and entries of type `ε`. The arrays
that the caller gives are copied (they are shared in memory: C64). HDF5 lists names in alphabetical order; here they come in the order of creation,
which no statement about containers on disk depends on.
-/
namespace Verif.Look

inductive Err where
  | valueError
  | keyError
  | runtimeError
  | typeError
  | other
  deriving DecidableEq

/-- An array object: its identity, and the memory that it shows. -/
structure Arr where
  obj : Nat
  cell : Nat
  deriving DecidableEq

/-- A container with its axes, and all memory. Numbers from `next` on are not in use. -/
structure World (ε : Type) where
  ondisk : Bool
  axes : List (String × Nat)
  mem : Nat → List ε
  next : Nat

variable {ε : Type}

def upd (mem : Nat → List ε) (c : Nat) (l : List ε) : Nat → List ε := fun c' => if c' = c then l else mem c'

/-- _memh5.py:64-101: the entries of the read-only dictionary, `dict(d)`. -/
abbrev RoDict := List (String × Arr)

/-- `v[:]` for one entry: of an array in memory it is a new array that shows the same memory, of an HDF5 dataset it is read into new memory. -/
def take (w : World ε) (c : Nat) : Arr × World ε :=
  if w.ondisk then (⟨w.next, w.next⟩, { w with mem := upd w.mem w.next (w.mem c), next := w.next + 1 })
  else (⟨w.next, c⟩, { w with next := w.next + 1 })

/-- _core.py:109, and 138-141: `{k: v[:] for k, v in ...items()}`. -/
def takeAll : List (String × Nat) → World ε → RoDict × World ε
  | [], w => ([], w)
  | (k, c) :: l, w =>
    let r := takeAll l (take w c).2
    ((k, (take w c).1) :: r.1, r.2)

/-- _core.py:93-109 `index_map`. -/
def indexMap (w : World ε) : RoDict × World ε := takeAll w.axes w

/-- What a user can do. -/
inductive Op (ε : Type) where
  | create (name : String) (vals : List ε)
  | delete (name : String)
  | look
  | write (cell : Nat) (i : Nat) (x : ε)

def setAxis (k : String) (c : Nat) : List (String × Nat) → List (String × Nat)
  | [] => [(k, c)]
  | (k', c') :: t => if k' = k then (k, c) :: t else (k', c') :: setAxis k c t

/-- _core.py:156-162. In memory an axis that exists is replaced by a new one (`_memh5.py:904-906`), on disk that is refused. A name that is not there
cannot be deleted. Writing is into memory that some array shows. -/
def step (w : World ε) : Op ε → World ε × Option Err
  | .create k vals =>
    if w.ondisk && (w.axes.lookup k).isSome then (w, some .valueError)
    else ({ w with axes := setAxis k w.next w.axes, mem := upd w.mem w.next vals, next := w.next + 1 }, none)
  | .delete k => if (w.axes.lookup k).isSome then ({ w with axes := w.axes.filter (·.1 ≠ k) }, none) else (w, some .keyError)
  | .look => ((indexMap w).2, none)
  | .write c i x => ({ w with mem := upd w.mem c ((w.mem c).set i x) }, none)

def steps (w : World ε) (ops : List (Op ε)) : World ε := ops.foldl (fun w o => (step w o).1) w

/-! ## Comparison -/

/-- How numpy compares: elements with `==`, elements in `assert_equal` (where NaN equals NaN), and what the truth of an empty array is and what comes of
arrays whose shapes do not fit. The last two depend on the version. -/
structure Numpy (ε : Type) where
  eqv : ε → ε → Bool
  same : ε → ε → Bool
  empty : Except Err Bool
  mismatch : Except Err Bool

/-- `bool(x == y)` for arrays with one axis: they are broadcast; with more than one element the truth is ambiguous. -/
def truth (np : Numpy ε) : List ε → List ε → Except Err Bool
  | [a], [b] => .ok (np.eqv a b)
  | [], [] => np.empty
  | [_], [] => np.empty
  | [], [_] => np.empty
  | [_], _ :: _ :: _ => .error .valueError
  | _ :: _ :: _, [_] => .error .valueError
  | x, y => if x.length = y.length then .error .valueError else np.mismatch

/-- The comparison of two values by a dictionary: objects that are the same are equal. -/
def valueEq (np : Numpy ε) (mem : Nat → List ε) (a b : Arr) : Except Err Bool :=
  if a.obj = b.obj then .ok true else truth np (mem a.cell) (mem b.cell)

/-- The loop of `dict.__eq__` over the entries on the left. -/
def itemsEq (np : Numpy ε) (mem : Nat → List ε) : RoDict → RoDict → Except Err Bool
  | [], _ => .ok true
  | (k, a) :: l, r =>
    match r.lookup k with
    | none => .ok false
    | some b =>
      match valueEq np mem a b with
      | .error e => .error e
      | .ok false => .ok false
      | .ok true => itemsEq np mem l r

/-- `Mapping.__eq__`: `dict(self.items()) == dict(other.items())`. -/
def mappingEq (np : Numpy ε) (mem : Nat → List ε) (l r : RoDict) : Except Err Bool :=
  if l.length ≠ r.length then .ok false else itemsEq np mem l r

/-- Two arrays for `np.testing.assert_equal`. -/
def sameArrays (np : Numpy ε) : List ε → List ε → Bool
  | [], [] => true
  | a :: x, b :: y => np.same a b && sameArrays np x y
  | _, _ => false

/-- `allequal` of two dictionaries of arrays (objecttools.py:69-80, 88-100). -/
def allequal (np : Numpy ε) (mem : Nat → List ε) (l r : RoDict) : Bool :=
  l.length == r.length && l.all fun p =>
    match r.lookup p.1 with
    | none => false
    | some b => sameArrays np (mem p.2.cell) (mem b.cell)

/-- _memh5.py:96-101 `ro_dict.__eq__`. -/
def roEq (np : Numpy ε) (mem : Nat → List ε) (l r : RoDict) : Except Err Bool :=
  match mappingEq np mem l r with
  | .error e => .error e
  | .ok false => .ok false
  | .ok true => .ok (allequal np mem l r)

/-! ## Datasets -/

open Verif.Mem (Node Str Obj FieldErr Rules containerRules)

variable {V δ : Type}

/-- _core.py:587-591 `datasets`: the entries of the root group that are not groups. -/
def datasets : Node V δ → List (Str × δ)
  | .group _ kids => kids.filterMap fun p =>
    match p.2 with
    | .dset d => some (p.1, d)
    | .group _ _ => none
  | .dset _ => []

/-- What there is of exceptions in `Verif.Mem`. -/
def ofMem : Verif.Mem.Err → Err
  | .keyError => .keyError
  | .valueError => .valueError
  | .typeError => .typeError
  | _ => .other

/-- `self[name]` of a container, and the test that it is a `MemDataset` (_basic.py:36-41, 51-55): what is found on disk is not. -/
def fetch (fields : δ → List Str → Option FieldErr) (ondisk : Bool) (root : Node V δ) (name : Str) : Except Err δ :=
  match containerRules.get fields root ['/'] name with
  | .error e => .error (ofMem e)
  | .ok (.node (.dset d)) => if ondisk then .error .typeError else .ok d
  | .ok _ => .error .typeError

/-- _basic.py:30-41 `data`. -/
def dataOf (fields : δ → List Str → Option FieldErr) (ondisk : Bool) (root : Node V δ) (name : Option Str) : Except Err δ :=
  match name with
  | none => .error .runtimeError
  | some n => fetch fields ondisk root n

/-- _basic.py:43-55 `weight`: an empty name counts as none. -/
def weightOf (fields : δ → List Str → Option FieldErr) (ondisk : Bool) (root : Node V δ) (name : Option Str) : Except Err δ :=
  match name with
  | none => .error .runtimeError
  | some n => if n = [] then .error .runtimeError else fetch fields ondisk root n

end Verif.Look
