/-!
# Model of the in-memory tree

Models `caput/memdata/_memh5.py`: `_StorageRoot.__getitem__` (155-171), `_BaseGroup` (236-380),
`MemGroup.create_group` (682-723), `MemGroup.create_dataset` (725-908), `format_abs_path`
(2732-2746), and from Python's standard library `posixpath.join`, `posixpath.split`, `str.split`.

Strings are lists of characters. A group object is the tree (`_storage_root`) and an absolute path
(`_name`). The tree is one mutable object; operations return it as it is afterwards, also when they
raise. One process: `comm.Barrier` is left out.
-/
namespace Verif.Mem

abbrev Str := List Char

/-- Python exceptions. -/
inductive Err where
  | keyError
  | valueError
  | typeError
  | indexError
  | attributeError
  | runtimeError
  deriving DecidableEq, Repr

/-! ## Paths -/

/-- `str.split("/")`. -/
def splitSlash : Str → List Str
  | [] => [[]]
  | c :: cs =>
    if c = '/' then [] :: splitSlash cs
    else
      match splitSlash cs with
      | [] => [[c]]
      | h :: t => (c :: h) :: t

/-- `posixpath.isabs`. -/
def isAbs (p : Str) : Bool := p.head? == some '/'

/-- `posixpath.join` of two parts. -/
def joinPath (a b : Str) : Str :=
  if isAbs b then b
  else if a = [] ∨ a.getLast? = some '/' then a ++ b
  else a ++ '/' :: b

/-- `str.rstrip("/")`. -/
def rstrip (p : Str) : Str := (p.reverse.dropWhile (· == '/')).reverse

/-- The part of a path after its last slash, and the part up to and including that slash. -/
def tailOf (p : Str) : Str := (p.reverse.takeWhile (· != '/')).reverse
def headOf (p : Str) : Str := (p.reverse.dropWhile (· != '/')).reverse

/-- `posixpath.split`. -/
def splitPath (p : Str) : Str × Str :=
  (if (headOf p).all (· == '/') then headOf p else rstrip (headOf p), tailOf p)

/-- The parts of a path that are not empty: _memh5.py:2737-2740. -/
def parts (p : Str) : List Str := (splitSlash p).filter (· ≠ [])

/-- _memh5.py:2732-2746 `format_abs_path`. -/
def formatAbs (p : Str) : Except Err Str :=
  if isAbs p then .ok ((parts p).foldl joinPath ['/']) else .error .valueError

/-! ## The tree -/

/-- `_Storage` (104-127) with attributes and entries, or a dataset of type `δ`. Attribute values have
type `V`. -/
inductive Node (V δ : Type) where
  | group (attrs : List (Str × V)) (kids : List (Str × Node V δ))
  | dset (d : δ)

/-- What a lookup can give: a node of the tree, or, since crawling goes on into datasets, an array
`d[f₁][f₂]…` taken from a dataset by field names. -/
inductive Obj (V δ : Type) where
  | node (n : Node V δ)
  | field (d : δ) (fs : List Str)

/-- What numpy says when an array is indexed by strings: an exception, or nothing if the fields exist.
It is never a `KeyError`. -/
inductive FieldErr where
  | indexError
  | valueError
  deriving DecidableEq

def FieldErr.toErr : FieldErr → Err
  | .indexError => .indexError
  | .valueError => .valueError

variable {V δ : Type}

/-- Dictionary assignment. -/
def setKid (k : Str) (n : Node V δ) : List (Str × Node V δ) → List (Str × Node V δ)
  | [] => [(k, n)]
  | (k', n') :: t => if k' = k then (k, n) :: t else (k', n') :: setKid k n t

/-- Indexing an object by one path part: `out[part]` (170). `fields` is the behaviour of the arrays. -/
def index (fields : δ → List Str → Option FieldErr) : Obj V δ → Str → Except Err (Obj V δ)
  | .node (.group _ kids), k =>
    match kids.lookup k with
    | some n => .ok (.node n)
    | none => .error .keyError
  | .node (.dset d), k =>
    match fields d [k] with
    | none => .ok (.field d [k])
    | some e => .error e.toErr
  | .field d fs, k =>
    match fields d (fs ++ [k]) with
    | none => .ok (.field d (fs ++ [k]))
    | some e => .error e.toErr

/-- _memh5.py:167-171. -/
def crawl (fields : δ → List Str → Option FieldErr) : Obj V δ → List Str → Except Err (Obj V δ)
  | o, [] => .ok o
  | o, k :: ks =>
    match index fields o k with
    | .ok o' => crawl fields o' ks
    | .error e => .error e

/-- _memh5.py:155-171 `_StorageRoot.__getitem__`. -/
def rootGet (fields : δ → List Str → Option FieldErr) (root : Node V δ) (key : Str) :
    Except Err (Obj V δ) :=
  if '/' ∉ key then index fields (.node root) key
  else
    match formatAbs key with
    | .error e => .error e
    | .ok k => if k = ['/'] then .ok (.node root) else crawl fields (.node root) (splitSlash k).tail

/-- _memh5.py:278-298 `_BaseGroup.__getitem__` on the group `name`. -/
def getItem (fields : δ → List Str → Option FieldErr) (root : Node V δ) (gname name : Str) :
    Except Err (Obj V δ) :=
  match formatAbs (joinPath gname name) with
  | .error e => .error e
  | .ok path => rootGet fields root path

/-- `parent_storage[part] = n`, for the storage at a path; a path that is not a group (this does not
happen) leaves the tree as it is. -/
def insertAt (part : Str) (n : Node V δ) : List Str → Node V δ → Node V δ
  | _, .dset d => .dset d
  | [], .group a kids => .group a (setKid part n kids)
  | p :: ps, .group a kids =>
    match kids.lookup p with
    | some c => .group a (setKid p (insertAt part n ps c) kids)
    | none => .group a kids

/-- `del parent_storage[part]`. -/
def deleteAt (part : Str) : List Str → Node V δ → Node V δ
  | _, .dset d => .dset d
  | [], .group a kids => .group a (kids.filter fun x => x.1 ≠ part)
  | p :: ps, .group a kids =>
    match kids.lookup p with
    | some c => .group a (setKid p (deleteAt part ps c) kids)
    | none => .group a kids

def Obj.isGroup : Obj V δ → Bool
  | .node (.group _ _) => true
  | _ => false

/-- _memh5.py:711-720: `pname` is `parent_name`; `ptr` is where `parent_storage` is in the tree. Note
that `parent_name` is extended twice when a group is created. -/
def createLoop (fields : δ → List Str → Option FieldErr) :
    List Str → Str → List Str → Node V δ → Node V δ × Option Err
  | [], _, _, root => (root, none)
  | part :: rest, pname, ptr, root =>
    let pname1 := joinPath pname part
    match rootGet fields root pname1 with
    | .ok o =>
      if o.isGroup then createLoop fields rest pname1 (parts pname1) root
      else (root, some .valueError)
    | .error .keyError =>
      createLoop fields rest (joinPath pname1 part) (ptr ++ [part])
        (insertAt part (.group [] []) ptr root)
    | .error e => (root, some e)

/-- _memh5.py:682-723 `create_group`. -/
def createGroup (fields : δ → List Str → Option FieldErr) (root : Node V δ) (gname name : Str) :
    Node V δ × Option Err :=
  match formatAbs (joinPath gname name) with
  | .error e => (root, some e)
  | .ok path =>
    match getItem fields root gname name with
    | .ok _ => (root, some .valueError)
    | .error .keyError => createLoop fields (splitSlash path) ['/'] [] root
    | .error e => (root, some e)

/-- _memh5.py:354-380 `require_group`. -/
def requireGroup (fields : δ → List Str → Option FieldErr) (root : Node V δ) (gname name : Str) :
    Node V δ × Option Err :=
  match getItem fields root gname name with
  | .ok o => if o.isGroup then (root, none) else (root, some .typeError)
  | .error .keyError => createGroup fields root gname name
  | .error e => (root, some e)

/-- _memh5.py:725-908 `create_dataset`. The new dataset (lines 774-902) is a parameter, or the
exception raised while it is made; either happens after the parent group is made. -/
def createDataset (fields : δ → List Str → Option FieldErr) (root : Node V δ) (gname name : Str)
    (make : Except Err δ) : Node V δ × Option Err :=
  match formatAbs (splitPath (joinPath gname name)).1 with
  | .error e => (root, some e)
  | .ok pname =>
    match requireGroup fields root gname pname with
    | (root1, some e) => (root1, some e)
    | (root1, none) =>
      match make with
      | .error e => (root1, some e)
      | .ok d =>
        (insertAt (splitPath (joinPath gname name)).2 (.dset d) (parts pname) root1, none)

/-- _memh5.py:318-352 `require_dataset`. -/
def requireDataset (fields : δ → List Str → Option FieldErr) (root : Node V δ) (gname name : Str)
    (make : Except Err δ) : Node V δ × Option Err :=
  match getItem fields root gname name with
  | .ok o => if o.isGroup then (root, some .typeError) else (root, none)
  | .error .keyError => createDataset fields root gname name make
  | .error e => (root, some e)

/-- _memh5.py:300-309 `__delitem__`; `in` is `collections.abc.Mapping.__contains__`. -/
def delItem (fields : δ → List Str → Option FieldErr) (root : Node V δ) (gname name : Str) :
    Node V δ × Option Err :=
  match getItem fields root gname name with
  | .error e => (root, some e)
  | .ok _ =>
    let p := splitPath (joinPath gname name)
    match rootGet fields root p.1 with
    | .error e => (root, some e)
    | .ok (.node (.group _ kids)) =>
      if (kids.lookup p.2).isSome then (deleteAt p.2 (parts p.1) root, none)
      else (root, some .keyError)
    | .ok _ => (root, some .typeError)

end Verif.Mem
