import Verif.Forms.Model

/-!
# What it means that a function of time works on many times
-/
namespace Verif.Forms

open Verif.Stellar (Sky Obs)

/-- The results for all elements, or the error of the first that fails. -/
def each {α : Type} (f : α → Except Stellar.PyErr ℚ) (l : List α) : Except PyErr V :=
  match l.mapM f with
  | .ok r => .ok (.arr r)
  | .error .runtimeError => .error .runtimeError

def one (r : Except Stellar.PyErr ℚ) : Except PyErr V :=
  match r with
  | .ok x => .ok (.num x)
  | .error .runtimeError => .error .runtimeError

/-- The function gives a number for a number, and an array of the results for a list, a tuple or an array. -/
def OnTimes (F : Arg → Except PyErr V) (f : ℚ → Except Stellar.PyErr ℚ) : Prop :=
  (∀ x, F (.num x) = one (f x)) ∧ (∀ l, F (.list l) = each f l) ∧ (∀ l, F (.arr l) = each f l)

/-- The same for two arguments; a number goes with every element of an array, and arrays have the same length. -/
def OnPairs (F : Arg → Arg → Except PyErr V) (f : ℚ → ℚ → Except Stellar.PyErr ℚ) : Prop :=
  (∀ x y, F (.num x) (.num y) = one (f x y)) ∧
  (∀ x l, l ≠ [] → F (.num x) (.list l) = each (f x) l ∧ F (.num x) (.arr l) = each (f x) l) ∧
  (∀ l y, l ≠ [] → F (.list l) (.num y) = each (f · y) l ∧ F (.arr l) (.num y) = each (f · y) l) ∧
  (∀ ps : List (ℚ × ℚ), F (.list (ps.map (·.1))) (.list (ps.map (·.2))) = each (fun p => f p.1 p.2) ps ∧
    F (.arr (ps.map (·.1))) (.arr (ps.map (·.2))) = each (fun p => f p.1 p.2) ps)

end Verif.Forms
