import Verif.Config.Shared

/-!
# What independent attributes should be
-/
namespace Verif.Config.Shared

variable {V : Type}

/-- Every property object has one name, in however many classes it is. -/
def OneName (K : Classes) : Prop := ∀ c c' a a' p, (a, p) ∈ K.own c → (a', p) ∈ K.own c' → a = a'

/-- A program starts with property objects that have not been used, and with the values of their defaults. -/
structure Fresh (w : World V) : Prop where
  names : ∀ d ∈ w.props, d.name = none
  objs : w.objs = []
  defaults : ∀ d ∈ w.props, ∀ r, d.default = some r → r < w.cells.length

/-- The value that reading the attribute `a` of object `i` gives. -/
def reads (K : Classes) (w : World V) (i : Nat) (a : String) : Except Err (Option V) :=
  match get K w i a with
  | (_, .error e) => .error e
  | (_, .ok none) => .ok none
  | (w', .ok (some r)) => .ok w'.cells[r]?

/-- The value that a conversion gives, `none` if it refuses. -/
def Conv.gives : Conv V → V → Option V
  | .same ok, v => if ok v then some v else none
  | .make f, v => f v

/-- All conversions make new values. -/
def AllMake (w : World V) : Prop := ∀ d ∈ w.props, ∃ f, d.conv = .make f

end Verif.Config.Shared
