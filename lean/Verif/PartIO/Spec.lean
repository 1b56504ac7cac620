/-!
# Specification of a partition of an axis
-/
namespace Verif.PartIO

/-- The slices follow one another without gap or overlap from `a` to `b`. -/
def CoversFrom (a b : Nat) : List (Nat × Nat) → Prop
  | [] => a = b
  | (s, e) :: rest => s = a ∧ s ≤ e ∧ CoversFrom e b rest

/-- The slices cover `[0, n)` contiguously, each index exactly once. -/
def Covers (n : Nat) (l : List (Nat × Nat)) : Prop := CoversFrom 0 n l

/-- Bytes of the part of an array of the given shape between `s` and `e` on axis `ax`. -/
def pieceBytes (shape : List Nat) (item ax s e : Nat) : Nat :=
  ((shape.take ax).prod * (e - s) * (shape.drop (ax + 1)).prod) * item

example : Covers 7 [(0, 3), (3, 6), (6, 7)] := by simp [Covers, CoversFrom]
end Verif.PartIO
