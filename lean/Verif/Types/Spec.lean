import Verif.Types.Model

/-!
# Specification of the dtype conversions
-/
namespace Verif.Types

mutual
/-- Change every type string, at any depth, and nothing else. -/
def mapT (f : TypeStr → TypeStr) : DT → DT
  | .scalar t m => .scalar (f t) m
  | .struct fs => .struct (mapF f fs)
/-- The same for fields. -/
def mapF (f : TypeStr → TypeStr) : Fields → Fields
  | .nil => .nil
  | .field name t shape rest => .field name (mapT f t) shape (mapF f rest)
  | .gap n rest => .gap n (mapF f rest)
end

mutual
/-- Some scalar, at any depth, satisfies `p`. -/
def anyT (p : TypeStr → Bool) : DT → Bool
  | .scalar t _ => p t
  | .struct fs => anyF p fs
/-- The same for fields. -/
def anyF (p : TypeStr → Bool) : Fields → Bool
  | .nil => false
  | .field _ t _ rest => anyT p t || anyF p rest
  | .gap _ rest => anyF p rest
end

/-- A byte string type becomes the unicode type of the same length. -/
def bytesToUni (t : TypeStr) : TypeStr := if t.kind = 'S' then ⟨.little, 'U', t.size⟩ else t

/-- A unicode type becomes the byte string type of the same length. -/
def uniToBytes (t : TypeStr) : TypeStr := if t.kind = 'U' then ⟨.none, 'S', t.size⟩ else t

/-- A type string as `numpy` writes them on a little-endian machine for native data: byte strings have no
byte order and unicode strings are little-endian. -/
def Native (t : TypeStr) : Bool :=
  (t.kind != 'S' || t.order == .none) && (t.kind != 'U' || t.order == .little)

mutual
/-- No sub-arrays, gaps or metadata; native strings; structures have at least one field, and the names of
their fields are distinct and not empty. -/
def Plain : DT → Prop
  | .scalar t m => Native t = true ∧ m = false
  | .struct fs => fs ≠ .nil ∧ fs.names.Nodup ∧ PlainF fs
/-- The same for fields. -/
def PlainF : Fields → Prop
  | .nil => True
  | .field name t shape rest => name ≠ "" ∧ Plain t ∧ shape = none ∧ PlainF rest
  | .gap _ _ => False
end

/-- The number of items in the description of a structure: fields and gaps. -/
def Fields.items : Fields → Nat
  | .nil => 0
  | .field _ _ _ rest => rest.items + 1
  | .gap _ rest => rest.items + 1

mutual
/-- Structures used as fields have at least two items. -/
def NestedBig : Fields → Prop
  | .nil => True
  | .field _ t _ rest => NestedBigT t ∧ NestedBig rest
  | .gap _ rest => NestedBig rest
/-- The same for the type of a field. -/
def NestedBigT : DT → Prop
  | .scalar _ _ => True
  | .struct fs => 2 ≤ fs.items ∧ NestedBig fs
end

end Verif.Types
