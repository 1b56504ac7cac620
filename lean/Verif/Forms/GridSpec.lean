import Verif.Forms.Grid

/-!
# What it means that a function of time works on arrays of any shape
-/
namespace Verif.Grid

open Verif.Forms (PyErr)
open Verif.Deco (Arr Arg Broadcast Goes Inside)

/-- A number, or an array with axes, none of which has length zero. -/
def Usual (a : Arg ℚ) : Prop := a.isOne ∨ (a.array.shape ≠ [] ∧ 0 ∉ a.array.shape)

/-- What a function of one number gives for the element at `i`. -/
def At1 (f : ℚ → Except Stellar.PyErr ℚ) (a : Arg ℚ) (i : List Nat) (r : Except Stellar.PyErr ℚ) : Prop := f (a.array.get i) = r

/-- What a function of two numbers gives for the two elements that belong to the place `i` of the result. -/
def At2 (f : ℚ → ℚ → Except Stellar.PyErr ℚ) (a b : Arg ℚ) (i : List Nat) (r : Except Stellar.PyErr ℚ) : Prop :=
  ∃ ja jb, (Goes a.array.shape i ja ∧ Inside ja a.array.shape) ∧ (Goes b.array.shape i jb ∧ Inside jb b.array.shape) ∧
    f (a.array.get ja) (b.array.get jb) = r

/-- A result for a shape: an array of this shape with the values at all places if there are any, and an error exactly if one of them is. -/
def Fills (at' : List Nat → Except Stellar.PyErr ℚ → Prop) (t : List Nat) (r : Except PyErr V) : Prop :=
  (∀ o, r = .ok (.arr o) → o.shape = t ∧ ∀ i, Inside i t → at' i (.ok (o.get i))) ∧
  ((∃ o, r = .ok (.arr o)) ↔ ∀ i, Inside i t → ∃ y, at' i (.ok y)) ∧
  ((¬ ∃ o, r = .ok (.arr o)) → r = .error .runtimeError)

/-- A result for numbers. -/
def number (r : Except Stellar.PyErr ℚ) : Except PyErr V :=
  match r with
  | .ok x => .ok (.one x)
  | .error .runtimeError => .error .runtimeError

/-- The function gives a number for a number, and an array of the same shape with the results for the elements for any array or sequence. -/
def OnArrays (F : Arg ℚ → Except PyErr V) (f : ℚ → Except Stellar.PyErr ℚ) : Prop :=
  (∀ x, F (.one x) = number (f x)) ∧
  ∀ a, ¬ a.isOne → a.array.shape ≠ [] → 0 ∉ a.array.shape → Fills (At1 f a) a.array.shape (F a)

/-- The same for two arguments, of which one or both are arrays: these are broadcast, and refused if their shapes do not fit together. -/
def OnArrays2 (F : Arg ℚ → Arg ℚ → Except PyErr V) (f : ℚ → ℚ → Except Stellar.PyErr ℚ) : Prop :=
  (∀ x y, F (.one x) (.one y) = number (f x y)) ∧
  ∀ a b, Usual a → Usual b → ¬ (a.isOne ∧ b.isOne) →
    (∀ t, Broadcast [a.array.shape, b.array.shape] t → Fills (At2 f a b) t (F a b)) ∧
    ((¬ ∃ t, Broadcast [a.array.shape, b.array.shape] t) → F a b = .error .valueError)

end Verif.Grid
