import Verif.Mem.Model

/-!
# Model of containers that restrict names

Models `caput/memdata/_memh5.py:1777-1807` (`MemDiskGroup.__getitem__`, `__len__`, `__iter__`), `:300-309` (`__delitem__`),
`:318-380` (`require_dataset`, `require_group`), `:2032-2044` (`create_dataset`), `:2098-2123` (`create_group`) for data in
memory, and `caput/containers/_core.py:143-154` (the names a `Container` allows). The tree is that of
`Verif.Mem.Model`. `gAllowed` and `dAllowed` are `group_name_allowed` and `dataset_name_allowed` of the class.
-/
namespace Verif.Mem

variable {V δ : Type}

/-- The names a class allows for groups and for datasets. -/
structure Rules where
  group : Str → Bool
  dataset : Str → Bool

/-- _memh5.py:1777-1793 `__getitem__`. The name of what is found is its absolute path; the array of a field has no
name. -/
def Rules.get (R : Rules) (fields : δ → List Str → Option FieldErr) (root : Node V δ) (gname name : Str) :
    Except Err (Obj V δ) :=
  match formatAbs (joinPath gname name) with
  | .error e => .error e
  | .ok path =>
    match getItem fields root gname name with
    | .error e => .error e
    | .ok (.field _ _) => .error .attributeError
    | .ok (.node (.group a k)) => if R.group path then .ok (.node (.group a k)) else .error .keyError
    | .ok (.node (.dset d)) => if R.dataset path then .ok (.node (.dset d)) else .error .keyError

/-- The names of the entries of the group: `list(self._get_storage().keys())`. -/
def keysAt (fields : δ → List Str → Option FieldErr) (root : Node V δ) (gname : Str) : List Str :=
  match rootGet fields root gname with
  | .ok (.node (.group _ kids)) => kids.map Prod.fst
  | _ => []

/-- _memh5.py:1801-1807 `__iter__`: names for which `__getitem__` raises a `KeyError` are left out. -/
def Rules.list (R : Rules) (fields : δ → List Str → Option FieldErr) (root : Node V δ) (gname : Str) : List Str :=
  (keysAt fields root gname).filter fun k =>
    match R.get fields root gname k with
    | .ok _ => true
    | .error _ => false

/-- _memh5.py:1795-1799 `__len__`. -/
def Rules.len (R : Rules) (fields : δ → List Str → Option FieldErr) (root : Node V δ) (gname : Str) : Nat :=
  (R.list fields root gname).foldl (fun n _ => n + 1) 0

/-- _memh5.py:2032-2044 `create_dataset`. -/
def Rules.createDataset (R : Rules) (fields : δ → List Str → Option FieldErr) (root : Node V δ) (gname name : Str)
    (make : Except Err δ) : Node V δ × Option Err :=
  if R.dataset (joinPath gname name) then Mem.createDataset fields root gname (joinPath gname name) make
  else (root, some .valueError)

/-- _memh5.py:2098-2123 `create_group`. -/
def Rules.createGroup (R : Rules) (fields : δ → List Str → Option FieldErr) (root : Node V δ) (gname name : Str) :
    Node V δ × Option Err :=
  if R.group (joinPath gname name) then Mem.createGroup fields root gname (joinPath gname name)
  else (root, some .valueError)

/-- _memh5.py:318-352 `require_dataset`, with the methods of the container. -/
def Rules.requireDataset (R : Rules) (fields : δ → List Str → Option FieldErr) (root : Node V δ) (gname name : Str)
    (make : Except Err δ) : Node V δ × Option Err :=
  match R.get fields root gname name with
  | .ok o => if o.isGroup then (root, some .typeError) else (root, none)
  | .error .keyError => R.createDataset fields root gname name make
  | .error e => (root, some e)

/-- _memh5.py:354-380 `require_group`, with the methods of the container. -/
def Rules.requireGroup (R : Rules) (fields : δ → List Str → Option FieldErr) (root : Node V δ) (gname name : Str) :
    Node V δ × Option Err :=
  match R.get fields root gname name with
  | .ok o => if o.isGroup then (root, none) else (root, some .typeError)
  | .error .keyError => R.createGroup fields root gname name
  | .error e => (root, some e)

/-- _memh5.py:300-309 `__delitem__`: `in` uses the method of the container. -/
def Rules.delItem (R : Rules) (fields : δ → List Str → Option FieldErr) (root : Node V δ) (gname name : Str) :
    Node V δ × Option Err :=
  match R.get fields root gname name with
  | .error e => (root, some e)
  | .ok _ => Mem.delItem fields root gname name

/-- containers/_core.py:143-154: no groups, and datasets only in the root group. -/
def containerRules : Rules := ⟨fun _ => false, fun p => (splitPath p).1 == ['/']⟩

end Verif.Mem
