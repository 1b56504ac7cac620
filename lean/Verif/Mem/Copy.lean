import Verif.Mem.Model

/-!
# Model of `deep_group_copy` from memory to memory

Models `caput/memdata/_memh5.py`: `copyattrs` (2341-2428), `deep_group_copy` (2431-2682) with both
groups in memory, `deep_copy_dataset` (2685-2729), from a group of one tree (`base`) to the
root group of another.

Datasets are objects on a heap; the tree holds references to them. `create_group` makes a new storage
object for each group, so groups need no heap. Not modelled: `skip_distributed`, `postprocess`,
compression, dataset string conversion, distributed datasets. What is in the trees when an exception
comes out of the loop is not described.
-/
namespace Verif.Mem

/-- A dataset object (`MemDataset`): data and attributes. -/
structure Cell (V α : Type) where
  data : α
  attrs : List (Str × V)

/-- Dataset objects by reference. -/
abbrev Heap (V α : Type) := List (Cell V α)

/-- Dictionary assignment. -/
def setAttr {V : Type} (k : Str) (v : V) : List (Str × V) → List (Str × V)
  | [] => [(k, v)]
  | (k', v') :: t => if k' = k then (k, v) :: t else (k', v') :: setAttr k v t

/-- Order of strings: by code points. -/
def strLe : Str → Str → Bool
  | [], _ => true
  | _ :: _, [] => false
  | a :: s, b :: t => if a = b then strLe s t else decide (a.toNat ≤ b.toNat)

/-- Insertion into a list sorted by key. -/
def insertKey {β : Type} (x : Str × β) : List (Str × β) → List (Str × β)
  | [] => [x]
  | y :: t => if strLe x.1 y.1 then x :: y :: t else y :: insertKey x t

/-- `sorted`: by key. -/
def sortKeys {β : Type} (l : List (Str × β)) : List (Str × β) := l.foldr insertKey []

/-- _memh5.py:2423-2428, for one attribute; `conv` is the conversion of lines 2424-2427. -/
def copyAttr {V : Type} (conv : V → Except Err V) (acc : List (Str × V)) (x : Str × V) :
    Except Err (List (Str × V)) :=
  match conv x.2 with
  | .ok w => .ok (setAttr x.1 w acc)
  | .error e => .error e

/-- _memh5.py:2341-2428 `copyattrs`. -/
def copyAttrs {V : Type} (conv : V → Except Err V) (a1 a2 : List (Str × V)) :
    Except Err (List (Str × V)) := (sortKeys a1).foldlM (copyAttr conv) a2

/-- The arguments of `deep_group_copy`. -/
structure CopyArgs (V α σ : Type) where
  /-- number of dimensions of the data -/
  ndim : α → Nat
  /-- applying a selection (numpy indexing) -/
  apply : σ → α → Except Err α
  /-- the mapping `selections` -/
  selections : Str → Option σ := fun _ => none
  /-- the sequence `shared` -/
  shared : List Str := []
  shallow : Bool := false
  /-- `g1.name` -/
  base : Str := ['/']
  /-- conversion of one attribute -/
  conv : V → Except Err V

/-- _memh5.py:2635: `"/" + k if k[0] != "/" else k`. -/
def withSlash (k : Str) : Str := if k.head? = some '/' then k else '/' :: k

variable {V α σ : Type}

/-- _memh5.py:2652. -/
def CopyArgs.isShared (c : CopyArgs V α σ) (key : Str) : Bool :=
  c.shallow || (c.shared.map withSlash).contains key

/-- _memh5.py:2516-2529 `_get_selection`. -/
def CopyArgs.selection (c : CopyArgs V α σ) (key : Str) : Option σ :=
  match c.selections key with
  | some s => some s
  | none => c.selections key.tail

/-- _memh5.py:2558 `dset[selection]`; without a selection it is `dset[slice(None)]`, which numpy
rejects for an array without dimensions. -/
def CopyArgs.take (c : CopyArgs V α σ) (key : Str) (d : α) : Except Err α :=
  match c.selection key with
  | some s => c.apply s d
  | none => if c.ndim d = 0 then .error .indexError else .ok d

/-- Assign the attributes of the group at a path. -/
def setAttrsAt {δ : Type} (a' : List (Str × V)) : List Str → Node V δ → Node V δ
  | _, .dset d => .dset d
  | [], .group _ kids => .group a' kids
  | p :: ps, .group a kids =>
    match kids.lookup p with
    | some c => .group a (setKid p (setAttrsAt a' ps c) kids)
    | none => .group a kids

/-- The name of `entry[k]` for a group entry: _memh5.py:283-289. -/
def childKey (key k : Str) : Str := (parts (joinPath key k)).foldl joinPath ['/']

/-- _memh5.py:2645-2650 and 2676-2677 for a group: the keys pushed on the stack, top first, and the
target. -/
def copyGroup (fields : Nat → List Str → Option FieldErr) (c : CopyArgs V α σ) (key : Str)
    (a : List (Str × V)) (kids : List (Str × Node V Nat)) (g2 : Node V Nat) (h : Heap V α) :
    Except Err (List Str × Node V Nat × Heap V α) :=
  let r := if key = c.base then (g2, none) else createGroup fields g2 ['/'] key
  match r.2 with
  | some e => .error e
  | none =>
    match getItem fields r.1 ['/'] key with
    | .ok (.node (.group a2 _)) =>
      match copyAttrs c.conv a a2 with
      | .ok a' => .ok ((sortKeys kids).map fun x => childKey key x.1, setAttrsAt a' (parts key) r.1, h)
      | .error e => .error e
    | .ok _ => .error .attributeError
    | .error e => .error e

/-- _memh5.py:2652-2662 and 2676-2677: the target points to the existing dataset, whose attributes are
then copied onto themselves. -/
def copyShared (fields : Nat → List Str → Option FieldErr) (c : CopyArgs V α σ) (key : Str)
    (r : Nat) (cell : Cell V α) (g2 : Node V Nat) (h : Heap V α) :
    Except Err (List Str × Node V Nat × Heap V α) :=
  if (c.selection key).isSome then .error .valueError
  else
    let p := splitPath (joinPath ['/'] key)
    match getItem fields g2 ['/'] p.1 with
    | .ok (.node (.group _ _)) =>
      match copyAttrs c.conv cell.attrs cell.attrs with
      | .ok a' => .ok ([], insertAt p.2 (.dset r) (parts p.1) g2, h.set r { cell with attrs := a' })
      | .error e => .error e
    | .ok _ => .error .attributeError
    | .error e => .error e

/-- _memh5.py:2664-2677: a new dataset object with a deep copy of the selected data. -/
def copyDataset (fields : Nat → List Str → Option FieldErr) (c : CopyArgs V α σ) (key : Str)
    (cell : Cell V α) (g2 : Node V Nat) (h : Heap V α) :
    Except Err (List Str × Node V Nat × Heap V α) :=
  match c.take key cell.data with
  | .error e => .error e
  | .ok d =>
    let r := createDataset fields g2 ['/'] key (.ok h.length)
    match r.2 with
    | some e => .error e
    | none =>
      match copyAttrs c.conv cell.attrs [] with
      | .ok a' => .ok ([], r.1, h ++ [{ data := d, attrs := a' }])
      | .error e => .error e

/-- _memh5.py:2641-2677: one turn of the loop, for the entry with name `key`. -/
def copyEntry (fields : Nat → List Str → Option FieldErr) (c : CopyArgs V α σ) (g1 : Node V Nat)
    (key : Str) (g2 : Node V Nat) (h : Heap V α) :
    Except Err (List Str × Node V Nat × Heap V α) :=
  match getItem fields g1 ['/'] key with
  | .error e => .error e
  | .ok (.field _ _) => .error .attributeError
  | .ok (.node (.group a kids)) => copyGroup fields c key a kids g2 h
  | .ok (.node (.dset r)) =>
    match h[r]? with
    | none => .error .runtimeError
    | some cell =>
      if c.isShared key then copyShared fields c key r cell g2 h
      else copyDataset fields c key cell g2 h

/-- _memh5.py:2639-2680: the loop; `none` if it has not ended after `fuel` turns. -/
def copyLoop (fields : Nat → List Str → Option FieldErr) (c : CopyArgs V α σ) (g1 : Node V Nat) :
    Nat → List Str → Node V Nat → Heap V α → Option (Except Err (Node V Nat × Heap V α))
  | _, [], g2, h => some (.ok (g2, h))
  | 0, _ :: _, _, _ => none
  | fuel + 1, key :: rest, g2, h =>
    match copyEntry fields c g1 key g2 h with
    | .error e => some (.error e)
    | .ok (new, g2', h') => copyLoop fields c g1 fuel (new ++ rest) g2' h'

/-- _memh5.py:2431 `deep_group_copy` of a group of one tree to the root of another. -/
def deepCopy (fields : Nat → List Str → Option FieldErr) (c : CopyArgs V α σ) (g1 g2 : Node V Nat)
    (h : Heap V α) (fuel : Nat) : Option (Except Err (Node V Nat × Heap V α)) :=
  copyLoop fields c g1 fuel [c.base] g2 h

/-! Writing to a file: _memh5.py:2557-2577. -/

/-- The data written for a dataset when the target is a file: with string conversion it is the
selected data (2558, 2568); without, line 2577 takes `check_unicode(entry)`, that is all the data of
the entry, instead. `bytesOf` is `ensure_bytestring`, `hasUnicode` the test of `check_unicode`. -/
def fileData (c : CopyArgs V α σ) (bytesOf : α → Except Err α) (hasUnicode : α → Bool)
    (convertStrings : Bool) (key : Str) (d : α) : Except Err α :=
  match c.take key d with
  | .error e => .error e
  | .ok s =>
    if convertStrings then bytesOf s
    else if hasUnicode d then .error .typeError else .ok d

end Verif.Mem
