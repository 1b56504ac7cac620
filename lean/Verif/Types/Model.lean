/-!
# Model of the dtype conversions

Models `caput/util/typeutils.py:62-153` (`dtype_to_unicode`, `dtype_to_bytestring`, `_convert_dtype`) and
`198-248` (`has_kind`, `has_unicode`, `has_bytestring`), together with the two operations of `numpy` they
rely on: `dtype.descr` and `np.dtype(description)`.

A type string such as `<U5` is its byte order, its kind and the rest (here a number). Field titles are not
modelled.
-/
namespace Verif.Types

/-- The first character of a type string. -/
inductive Order where
  | little
  | big
  | none
  deriving DecidableEq

/-- A type string: `<U5`, `|S3`, `<f8`, ... -/
structure TypeStr where
  order : Order
  kind : Char
  size : Nat
  deriving DecidableEq

mutual
/-- A data type: a scalar (with or without metadata) or a structure. -/
inductive DT where
  | scalar (t : TypeStr) (meta_ : Bool)
  | struct (fs : Fields)
/-- The fields of a structure: named fields, which may be sub-arrays (`shape` is `some`), and gaps left by
alignment. -/
inductive Fields where
  | nil
  | field (name : String) (t : DT) (shape : Option (List Nat)) (rest : Fields)
  | gap (bytes : Nat) (rest : Fields)
end

mutual
/-- A description of a type, as returned by `dtype.descr`: a string, a pair of a string and metadata, or
a list. -/
inductive Desc where
  | str (t : TypeStr)
  | tup (t : TypeStr)
  | list (l : DescL)
/-- A list of tuples (name, type) or (name, type, shape). -/
inductive DescL where
  | nil
  | cons (name : String) (t : Desc) (shape : Option (List Nat)) (rest : DescL)
end

/-- Exceptions. -/
inductive TErr where
  | indexError
  | valueError
  deriving DecidableEq

mutual
/-- `dtype.descr` for the type of a field (`numpy/_core/_internal.py`, `_array_descr`). -/
def descrT : DT → Desc
  | .scalar t false => .str t
  | .scalar t true => .tup t
  | .struct fs => .list (descrF fs)
/-- `dtype.descr` of a structure; gaps become nameless void fields. -/
def descrF : Fields → DescL
  | .nil => .nil
  | .field name t shape rest => .cons name (descrT t) shape (descrF rest)
  | .gap n rest => .cons "" (.str ⟨.none, 'V', n⟩) none (descrF rest)
end

/-- typeutils.py:126-131 `_conv` on a type string: `t.replace(type_from, type_to)`. -/
def conv (fromT toT : Order × Char) (t : TypeStr) : TypeStr :=
  if (t.order, t.kind) = fromT then ⟨toT.1, toT.2, t.size⟩ else t

mutual
/-- typeutils.py:142: the conversion of the type of one item; metadata are thrown away. -/
def convDesc (fromT toT : Order × Char) : Desc → Desc
  | .str t => .str (conv fromT toT t)
  | .tup t => .str (conv fromT toT t)
  | .list l => .list (iterConv fromT toT l)
/-- typeutils.py:134-146 `_iter_conv`: only the name and the type of an item are kept. -/
def iterConv (fromT toT : Order × Char) : DescL → DescL
  | .nil => .nil
  | .cons name t _ rest => .cons name (convDesc fromT toT t) none (iterConv fromT toT rest)
end

/-- The name that `np.dtype` gives to the nameless field number `i`. -/
def autoName (i : Nat) : String := "f" ++ toString i

/-- The names in a description, those of nameless fields filled in. -/
def namesOf : Nat → DescL → List String
  | _, .nil => []
  | i, .cons name _ _ rest => (if name = "" then autoName i else name) :: namesOf (i + 1) rest

mutual
/-- `np.dtype` on the description of the type of a field. -/
def ofDesc : Desc → Except TErr DT
  | .str t => .ok (.scalar t false)
  | .tup t => .ok (.scalar t true)
  | .list l =>
    if (namesOf 0 l).Nodup then
      match ofDescL 0 l with
      | .ok fs => .ok (.struct fs)
      | .error e => .error e
    else .error .valueError
/-- `np.dtype` on a list, from field number `i` on. -/
def ofDescL : Nat → DescL → Except TErr Fields
  | _, .nil => .ok .nil
  | i, .cons name t shape rest =>
    match ofDesc t with
    | .error e => .error e
    | .ok t' =>
      match ofDescL (i + 1) rest with
      | .error e => .error e
      | .ok r => .ok (.field (if name = "" then autoName i else name) t' shape r)
end

/-- The names of a structure. -/
def Fields.names : Fields → List String
  | .nil => []
  | .field name _ _ rest => name :: rest.names
  | .gap _ rest => rest.names

/-- The bytes of a structure without fields. -/
def Fields.gapBytes : Fields → Nat
  | .nil => 0
  | .field _ _ _ rest => rest.gapBytes
  | .gap n rest => n + rest.gapBytes

/-- typeutils.py:104-153 `_convert_dtype`. A structure without fields has no names and is treated like the
scalar `|V0` (or `|Vn` with a gap of `n` bytes). -/
def convertDtype (fromT toT : Order × Char) : DT → Except TErr DT
  | .scalar t _ => .ok (.scalar (conv fromT toT t) false)
  | .struct .nil => .ok (.scalar (conv fromT toT ⟨.none, 'V', 0⟩) false)
  | .struct fs =>
    if fs.names = [] then .ok (.scalar (conv fromT toT ⟨.none, 'V', fs.gapBytes⟩) false)
    else ofDesc (.list (iterConv fromT toT (descrF fs)))

/-- typeutils.py:62 `dtype_to_unicode`: `|S` becomes `<U`. -/
def toUnicode (dt : DT) : Except TErr DT := convertDtype (.none, 'S') (.little, 'U') dt

/-- typeutils.py:83 `dtype_to_bytestring`: `<U` becomes `|S`. -/
def toBytes (dt : DT) : Except TErr DT := convertDtype (.little, 'U') (.none, 'S') dt

/-- How many items a description has. -/
def DescL.length : DescL → Nat
  | .nil => 0
  | .cons _ _ _ rest => rest.length + 1

/-- typeutils.py:222-230 `_iter_conv` of `has_kind`. For a nested list that does not contain the kind, the
last test `type_[1] == kind` looks at its second item, which is never equal to a string but must exist. -/
def iterHas (kind : Char) : DescL → Except TErr Bool
  | .nil => .ok false
  | .cons _ (.str t) _ rest => if t.kind = kind then .ok true else iterHas kind rest
  | .cons _ (.tup t) _ rest => if t.kind = kind then .ok true else iterHas kind rest
  | .cons _ (.list l) _ rest =>
    match iterHas kind l with
    | .error e => .error e
    | .ok true => .ok true
    | .ok false => if l.length < 2 then .error .indexError else iterHas kind rest

/-- typeutils.py:198-232 `has_kind`. -/
def hasKind (kind : Char) : DT → Except TErr Bool
  | .scalar t _ => .ok (decide (t.kind = kind))
  | .struct fs => if fs.names = [] then .ok (decide ('V' = kind)) else iterHas kind (descrF fs)

end Verif.Types
