import Verif.Forms.Deco
import Mathlib.Data.List.Forall2

/-!
# What a function of numbers should do on arrays
-/
namespace Verif.Deco

variable {α β : Type}

/-- Axes are counted from the last: `axis s 0` is the length of the last, `none` if there are no more. -/
def axis (s : List Nat) (k : Nat) : Option Nat := s.reverse[k]?

/-- Shapes fit together and give a shape: no argument has more axes; along each axis each argument has the length of the result, or
length one, or no axis; and one of them has the length of the result. -/
def Broadcast (l : List (List Nat)) (t : List Nat) : Prop :=
  (∀ s ∈ l, s.length ≤ t.length) ∧
  ∀ k d, axis t k = some d → (∀ s ∈ l, ∀ e, axis s k = some e → e = 1 ∨ e = d) ∧ ∃ s ∈ l, axis s k = some d

/-- An index into an argument goes with one into the result: it is the same, counted from the last axis, except that it is zero along
axes of length one. -/
def Goes (s i j : List Nat) : Prop :=
  j.length = s.length ∧ ∀ k < s.length, axis j k = if axis s k = some 1 then some 0 else axis i k

/-- An index is inside a shape. -/
def Inside (i s : List Nat) : Prop := List.Forall₂ (· < ·) i s

/-- A result is, element by element, what a function gives. -/
def Elementwise (f : List α → Except PyErr β) (args : List (Arr α)) (o : Out β) : Prop :=
  Broadcast (args.map (·.shape)) o.shape ∧
  List.Forall₂ (fun i y => ∃ js, List.Forall₂ (fun (a : Arr α) j => Goes a.shape i j ∧ Inside j a.shape) args js ∧
    f (List.zipWith (fun a j => a.get j) args js) = .ok y) (indices o.shape) o.data

/-- What the function does with the elements of the arguments that go with an index. -/
def At (f : List α → Except PyErr β) (args : List (Arg α)) (i : List Nat) (r : Except PyErr β) : Prop :=
  ∃ js, List.Forall₂ (fun (a : Arr α) j => Goes a.shape i j ∧ Inside j a.shape) (args.map Arg.array) js ∧
    f (List.zipWith (fun a j => a.get j) (args.map Arg.array) js) = r

/-- An argument is a number. -/
def Arg.isOne : Arg α → Prop
  | .one _ => True
  | _ => False

end Verif.Deco
