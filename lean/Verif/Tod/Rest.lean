import Verif.Tod.Model

/-!
# Model of what a concatenation takes from its first input

Models `caput/containers/tod.py`: `concatenate` (376-475) and `_copy_non_time_data` (618-703), with the parts of
`caput/containers/_core.py:93-166` (`index_map`, `reverse_map`, `create_index_map`, `create_reverse_map`) and of
`caput/memdata/_memh5.py:820-903` (`create_dataset`) that decide which memory an output has.

Arrays are numbered cells, whether in memory or in a file. Reading a dataset of a container on disk gives a new cell,
reading one in memory gives the cell itself. An output on disk is in an `h5py` group. A container shows no groups
(`_core.py:143-145`), so that the crawl of `_copy_non_time_data` sees the datasets of the root group.

Simplifications: the output group is new; the values of attributes are changed by functions (`conv` if strings are
converted, `plain` otherwise; C33 says what they do); the type of a dataset is only whether it has byte strings,
unicode strings, or something else; a container is not distributed (C99). Library knowledge: an HDF5 dataset cannot have unicode
strings of `numpy`; `numpy` stores a unicode array in an array of byte strings as the same strings.
-/
namespace Verif.Tod

/-- Exceptions. -/
inductive RErr where
  | attributeError
  | indexError
  | typeError
  | valueError
  deriving DecidableEq, Repr

/-- Types of datasets. -/
inductive Kind where
  | bytes
  | text
  | other
  deriving DecidableEq, Repr

/-- `typeutils.dtype_to_unicode`. -/
def toText : Kind → Kind
  | .bytes => .text
  | .text => .text
  | .other => .other

variable {α A : Type}

/-- All arrays. Entries that have not been written are `none`. -/
abbrev Cells (α : Type) := List (List (Option α))

/-- A dataset, index map or reverse map: its name, its axes (the attribute `axis`), its type, its array and its
attributes. -/
structure Ds (A : Type) where
  name : String
  axes : List Axis
  kind : Kind
  ref : Nat
  attrs : List (String × A)

/-- A container. -/
structure TCont (A : Type) where
  disk : Bool
  attrs : List (String × A)
  history : List (String × A)
  index : List (Ds A)
  reverse : List (Ds A)
  dsets : List (Ds A)

/-- The contents of a cell. -/
def cell (cells : Cells α) (r : Nat) : List (Option α) :=
  match cells[r]? with
  | some l => l
  | none => []

/-- `d[:]`: a new array if the container is on disk, otherwise the memory itself. -/
def readDs (disk : Bool) (cells : Cells α) (r : Nat) : Cells α × Nat :=
  if disk then (cells ++ [cell cells r], cells.length) else (cells, r)

/-- `typeutils.ensure_unicode`, which makes a new array only if there are byte strings. -/
def unicoded (cells : Cells α) (k : Kind) (r : Nat) : Cells α × Nat × Kind :=
  match k with
  | .bytes => (cells ++ [cell cells r], cells.length, .text)
  | .text => (cells, r, .text)
  | .other => (cells, r, .other)

/-- `create_dataset` of the output with type `dtype` and data in cell `r` of type `k`. In memory the array itself is
used if it has the type. -/
def createDs (disk : Bool) (cells : Cells α) (dtype k : Kind) (r : Nat) : Except RErr (Cells α × Nat) :=
  if disk then
    if dtype = .text then .error .typeError else .ok (cells ++ [cell cells r], cells.length)
  else if dtype = k then .ok (cells, r)
  else .ok (cells ++ [cell cells r], cells.length)

/-- The array that is read from the first input, converted if that is asked for. -/
def fetched (disk strings : Bool) (cells : Cells α) (d : Ds A) : Cells α × Nat × Kind :=
  let r := readDs disk cells d.ref
  if strings then unicoded r.1 d.kind r.2 else (r.1, r.2, d.kind)

/-- tod.py:412-432: one index map. -/
def indexOne (plain : A → A) (timeAxes : List Axis) (len : Axis → Int) (inDisk outDisk strings : Bool) (cells : Cells α)
    (d : Ds A) : Except RErr (Cells α × Ds A) :=
  if d.name ∈ timeAxes then
    if len d.name < 0 then .error .valueError
    else
      let k := if strings then toText d.kind else d.kind
      let c := cells ++ [List.replicate (len d.name).toNat none]
      match createDs outDisk c k k cells.length with
      | .error e => .error e
      | .ok (c', r) => .ok (c', ⟨d.name, [], k, r, d.attrs.map fun x => (x.1, plain x.2)⟩)
  else
    let f := fetched inDisk strings cells d
    match createDs outDisk f.1 f.2.2 f.2.2 f.2.1 with
    | .error e => .error e
    | .ok (c', r) => .ok (c', ⟨d.name, [], f.2.2, r, d.attrs.map fun x => (x.1, plain x.2)⟩)

/-- tod.py:435-436: one reverse map. Its attributes are not copied. -/
def reverseOne (inDisk outDisk : Bool) (cells : Cells α) (d : Ds A) : Except RErr (Cells α × Ds A) :=
  let f := readDs inDisk cells d.ref
  match createDs outDisk f.1 d.kind d.kind f.2 with
  | .error e => .error e
  | .ok (c', r) => .ok (c', ⟨d.name, [], d.kind, r, []⟩)

/-- tod.py:684-701: one dataset without a time axis. -/
def dsetOne (conv : A → A) (inDisk outDisk strings : Bool) (cells : Cells α) (d : Ds A) :
    Except RErr (Cells α × Ds A) :=
  let f := fetched inDisk strings cells d
  match createDs outDisk f.1 d.kind f.2.2 f.2.1 with
  | .error e => .error e
  | .ok (c', r) => .ok (c', ⟨d.name, d.axes, d.kind, r, d.attrs.map fun x => (x.1, conv x.2)⟩)

/-- A loop that makes one entry of the output for each entry of the input. -/
def eachDs (one : Cells α → Ds A → Except RErr (Cells α × Ds A)) (cells : Cells α) :
    List (Ds A) → Except RErr (Cells α × List (Ds A))
  | [] => .ok (cells, [])
  | d :: ds =>
    match one cells d with
    | .error e => .error e
    | .ok (c, d') =>
      match eachDs one c ds with
      | .error e => .error e
      | .ok (c', ds') => .ok (c', d' :: ds')

/-- tod.py:706-715 `_dset_has_axis`. -/
def hasTime (timeAxes : List Axis) (d : Ds A) : Bool := d.axes.any fun a => decide (a ∈ timeAxes)

/-- tod.py:407-443: the output before any time-ordered data are copied. A new container has an empty history
(`_core.py:50-56`). -/
def takeRest (conv plain : A → A) (strings outDisk : Bool) (timeAxes : List Axis) (len : Axis → Int) (cells : Cells α)
    (first : TCont A) : Except RErr (Cells α × TCont A) :=
  match eachDs (indexOne plain timeAxes len first.disk outDisk strings) cells first.index with
  | .error e => .error e
  | .ok (c1, index) =>
    match eachDs (reverseOne first.disk outDisk) c1 first.reverse with
    | .error e => .error e
    | .ok (c2, reverse) =>
      match eachDs (dsetOne conv first.disk outDisk strings) c2 (first.dsets.filter fun d => !hasTime timeAxes d) with
      | .error e => .error e
      | .ok (c3, dsets) =>
        .ok (c3, ⟨outDisk, first.attrs.map fun x => (x.1, conv x.2), [], index, reverse, dsets⟩)

/-- The first argument of `concatenate`. -/
inductive Inputs (A : Type) where
  | list (l : List (TCont A))
  | otherSequence (l : List (TCont A))

/-- tod.py:376-443 with 653-666: only a `list` is recognised as more than one input; of any other sequence the
attribute `name` is asked for, which it does not have. -/
def concatRest (conv plain : A → A) (strings outDisk : Bool) (timeAxes : List Axis) (len : Axis → Int) (cells : Cells α) :
    Inputs A → Except RErr (Cells α × TCont A)
  | .list [] => .error .indexError
  | .otherSequence [] => .error .indexError
  | .list (first :: _) => takeRest conv plain strings outDisk timeAxes len cells first
  | .otherSequence (first :: _) =>
    match eachDs (indexOne plain timeAxes len first.disk outDisk strings) cells first.index with
    | .error e => .error e
    | .ok (c1, _) =>
      match eachDs (reverseOne first.disk outDisk) c1 first.reverse with
      | .error e => .error e
      | .ok _ => .error .attributeError

/-- tod.py:457-475 over all inputs, for one time axis: `out.index_map[axis][out_slice] = ...`. `out.index_map` reads the
index maps, so that for an output on disk the assignment is to an array that is then dropped. -/
def fillAxis (outDisk : Bool) (S E : Int) : Int → List (List α) → List (Option α) → Except PyErr (List (Option α))
  | _, [], o => .ok o
  | cur, l :: ls, o =>
    if skipped S E cur l.length then fillAxis outDisk S E (cur + l.length) ls o
    else
      let io := inOutSlice S E cur l.length
      match setSlice o io.2 (getSlice l io.1) with
      | .error e => .error e
      | .ok o' => fillAxis outDisk S E (cur + l.length) ls (if outDisk then o else o')

end Verif.Tod
