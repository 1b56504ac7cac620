import Verif.Mem.Spec
import Verif.Mem.Places

/-!
# Specification for C103
-/
namespace Verif.Mem.Places
variable {V α : Type}

/-- The path of a list of components: `"/" + "/".join(ps)`. -/
def pathName (ps : List Str) : Str := '/' :: List.intercalate ['/'] ps

/-- The groups that an operation uses have absolute names, as all groups have. -/
def Op.Abs : Op α → Prop
  | .createGroup _ g _ | .requireGroup _ g _ | .createDataset _ g _ _ | .requireDataset _ g _ _ | .delete _ g _
  | .share _ _ _ g => isAbs g = true
  | .write _ _ | .copy _ => True

/-- What a program can arrive at from empty trees, with any operations, also ones that fail. -/
inductive Reach (fields : Named → List Str → Option FieldErr) : World V α → Prop where
  | start (cells : Nat → α) (next : Nat) : Reach fields ⟨fun _ => .group [] [], cells, next⟩
  | step (W : World V α) (op : Op α) : Reach fields W → op.Abs → Reach fields (op.run fields W).1

/-- What a program can go on to from a state, with any operations, also ones that fail. -/
inductive After (fields : Named → List Str → Option FieldErr) (W : World V α) : World V α → Prop where
  | now : After fields W W
  | step (W' : World V α) (op : Op α) : After fields W W' → op.Abs → After fields W (op.run fields W').1

end Verif.Mem.Places
