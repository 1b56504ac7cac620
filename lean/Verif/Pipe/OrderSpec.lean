import Verif.Pipe.Spec

/-!
# Specification for C114: the documented order of execution

From `caput/pipeline/__init__.py:177-201` and the docstrings `_pipeline.py:374-386, 739-748, 872-900`.
-/
namespace Verif.Pipe
variable {α : Type}

/-- The task can do something with what it has: it has all that `setup` requires, a product in each queue, or it only has
to be finished. -/
def Ready : Stage α → Prop
  | .setup req _ => ∀ r ∈ req, r ≠ none
  | .next q => q ≠ [] ∧ ∀ l ∈ q, l ≠ []
  | .finish _ => True
  | .raised _ => True

/-- The documented priority of a task that is ready: one for `setup`; for `next` the inputs consumed less the outputs
created, times how often it can run; very high at the end. The base priority is added. -/
inductive Worth (c : Cfg) : Stage α → Int → Prop where
  | setup (req : List (Option α)) (q : List (List (Option α))) : Worth c (.setup req q) (1 + c.base)
  | next (q : List (List (Option α))) (times : Nat) (h1 : ∃ l ∈ q, l.length = times) (h2 : ∀ l ∈ q, times ≤ l.length) :
      Worth c (.next q) (((c.inKeys.length : Int) - c.outKeys.length) * times + c.base)
  | finish (q : Option (List (List (Option α)))) : Worth c (.finish q) (10000000000 + c.base)
  | raised (q : Option (List (List (Option α)))) : Worth c (.raised q) (10000000000 + c.base)

/-- How many places in the order of the configuration the task `j` is after the task `i`, of `n` tasks. -/
def placesAfter (n i j : Nat) : Nat := (j + n - i) % n

end Verif.Pipe
