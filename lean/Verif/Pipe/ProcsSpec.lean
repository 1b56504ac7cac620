import Verif.Pipe.Procs
import Mathlib.Data.List.Forall2

/-!
# What is said about a pipeline on several processes
-/
namespace Verif.Pipe

variable {α : Type}

/-- Two values are both `None` or both something else. -/
def SameNone (a b : Option α) : Prop := a = none ↔ b = none

/-- Two hooks do the same up to the values of the products: both return nothing, one product each, as many products with `None` in the same places,
stop, or raise an exception. -/
def Alike : Ret α → Ret α → Prop
  | .none, .none => True
  | .obj _, .obj _ => True
  | .tup l, .tup l' => List.Forall₂ SameNone l l'
  | .lst _ l, .lst _ l' => List.Forall₂ SameNone l l'
  | .stop, .stop => True
  | .error, .error => True
  | _, _ => False

/-- Which hooks of which tasks have been called, in order. -/
def calls (s : State α) : List (Nat × Hook) := s.log.map fun e => (e.task, e.hook)

/-- The process is able to go on when it is its turn. -/
def CanGo (keyOk : Key → Bool) (ρ : Nat → Nat → Ret α) (j : Job α) (p : Nat) : Prop :=
  ((j.step keyOk ρ p).proc p).rounds = (j.proc p).rounds + 1

end Verif.Pipe
