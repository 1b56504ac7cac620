import Verif.Mem.Model

/-!
# Specifications for C30 and C31
-/
namespace Verif.Mem
variable {V δ : Type}

/-- Two path strings that differ only in repeated or trailing slashes. -/
inductive SameSlashes : Str → Str → Prop where
  | refl (p) : SameSlashes p p
  | symm {p q} : SameSlashes p q → SameSlashes q p
  | trans {p q r} : SameSlashes p q → SameSlashes q r → SameSlashes p r
  | double (u v) : SameSlashes (u ++ '/' :: '/' :: v) (u ++ '/' :: v)
  | trailing (u) : u ≠ [] → SameSlashes (u ++ ['/']) u

/-- What one sees of an object, apart from what is below it. -/
inductive Info (V δ : Type) where
  | group (attrs : List (Str × V))
  | dataset (d : δ)
  | field (d : δ) (fs : List Str)

def Obj.info : Obj V δ → Info V δ
  | .node (.group a _) => .group a
  | .node (.dset d) => .dataset d
  | .field d fs => .field d fs

/-- What `group[name]` shows: an exception or an object. -/
def see (fields : δ → List Str → Option FieldErr) (root : Node V δ) (gname name : Str) :
    Except Err (Info V δ) := (getItem fields root gname name).map Obj.info

/-- The components of the absolute path that a name in a group stands for. -/
def components (gname name : Str) : List Str :=
  if name.head? = some '/' then parts name else parts gname ++ parts name

/-- A name that does not end in a slash and is not empty. -/
def PlainEnd (name : Str) : Prop := name ≠ [] ∧ name.getLast? ≠ some '/'

instance (name : Str) : Decidable (PlainEnd name) :=
  inferInstanceAs (Decidable (name ≠ [] ∧ name.getLast? ≠ some '/'))

end Verif.Mem
