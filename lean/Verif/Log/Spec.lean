import Verif.Log.Model

/-!
# Specification for C118
-/
namespace Verif.Log
open Nodes (Record)

/-- The level given last for a name. -/
def last (given : List (Name × Int)) (n : Name) : Option Int := (given.reverse.find? (·.1 = n)).map (·.2)

/-- `l` is the level for messages of `n`: the one given for the longest name that `n` begins with, where 0 stands for "as the parent". -/
def IsLevel (given : List (Name × Int)) (n : Name) (l : Int) : Prop :=
  (∃ p, p <+: n ∧ last given p = some l ∧ l ≠ 0 ∧ ∀ q, q <+: n → p.length < q.length → last given q = none ∨ last given q = some 0) ∨
  (l = 0 ∧ ∀ q, q <+: n → last given q = none ∨ last given q = some 0)

/-- The levels that tasks ask for, for themselves. -/
def taskLevels (tasks : List LTask) : List (Name × Int) :=
  tasks.filterMap fun t => match t with
    | .logged cls (some l) => some (cls, l)
    | .debug cls (some l) _ _ => some (cls, l)
    | _ => none

/-- The levels for the first and for the other processes that tasks ask for; INFO and WARNING if none are given, and DEBUG and INFO for debug information. -/
def rankLevels (tasks : List LTask) : List (Int × Int) :=
  tasks.filterMap fun t => match t with
    | .logged _ _ => none
    | .mpi a b => some (a.getD 20, b.getD 30)
    | .debug _ _ a b => some (a.getD 10, b.getD 20)

/-- No levels are given for the task for debug information. -/
def Unchanged (tasks : List LTask) : Prop := ∀ cls l a b, .debug cls l a b ∈ tasks → a = none ∧ b = none

/-- The process that a record is from. -/
def rankOf (here : Nat) (r : Record) : Nat := r.rank.getD here

/-- What a pair of levels says of a record. -/
def Reaches (here : Nat) (r : Record) (f : Int × Int) : Prop := (if rankOf here r = 0 then f.1 else f.2) ≤ r.level

instance (here : Nat) (r : Record) (f : Int × Int) : Decidable (Reaches here r f) := by unfold Reaches; infer_instance

end Verif.Log
