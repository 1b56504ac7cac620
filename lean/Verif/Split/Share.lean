import Verif.Split.Model
import Verif.Slice.Model

/-!
# Model of sharing out work over processes

Models `partition_list_mpi` and `mpirange` (`caput/util/mpitools.py:463-503`) and `parallel_map` (`:652-722`) on all processes of a
communicator together, with functions that raise, and with the random method for any draws of the processes.

A process has its rank and the size of a communicator, and those of the world. The numbers that `np.random.permutation` gives on process
`r` are `draw r`. A process that raises leaves `parallel_map`; those that wait for it at the barrier or in the gathering wait for ever.
Simplified: functions are the same on all processes, and keep no state.
-/
namespace Verif.Split

/-- What `range` raises, and what the rest does. -/
inductive ShareErr where
  | typeError
  | py (e : PyErr)
  deriving DecidableEq, Repr

/-- Rank and size. -/
structure Proc where
  rank : Nat
  size : Nat

/-- mpitools.py:463-493 `partition_list_mpi`. Without a communicator the world counts. -/
def partitionListMpi {α : Type} (xs : List α) (m : Method) (comm : Option Proc) (world : Proc) (draw : Nat → List Nat) : Except PyErr (List α) :=
  match comm with
  | some p => partitionList xs p.rank p.size m (draw p.rank)
  | none => partitionList xs world.rank world.size m (draw world.rank)

/-- `list(range(*args))`. -/
def rangeOf : List Int → Except ShareErr (List Int)
  | [b] => .ok (Slice.pyRange 0 b 1)
  | [a, b] => .ok (Slice.pyRange a b 1)
  | [a, b, s] => if s = 0 then .error (.py .valueError) else .ok (Slice.pyRange a b s)
  | _ => .error .typeError

/-- mpitools.py:496-503 `mpirange`. -/
def mpirange (args : List Int) (m : Method) (comm : Option Proc) (world : Proc) (draw : Nat → List Nat) : Except ShareErr (List Int) :=
  match rangeOf args with
  | .error e => .error e
  | .ok l =>
    match partitionListMpi l m comm world draw with
    | .error e => .error (.py e)
    | .ok r => .ok r

/-- What becomes of a process. -/
inductive Fate (β : Type) where
  | returned (l : Option (List β))
  | raised
  | waiting
  deriving DecidableEq, Repr

/-- `[(ind, func(item)) for ind, item in llist]`; `none` if a call raises. -/
def applyAll {α β : Type} (f : α → Option β) : List (Nat × α) → Option (List (Nat × β))
  | [] => some []
  | p :: l =>
    match f p.2 with
    | none => none
    | some y =>
      match applyAll f l with
      | none => none
      | some r => some ((p.1, y) :: r)

/-- mpitools.py:690-697 on process `rank`: what it has for the others; `none` if it has raised. -/
def share {α β : Type} (f : α → Option β) (xs : List α) (m : Method) (size : Nat) (draw : Nat → List Nat) (rank : Nat) : Option (List (Nat × β)) :=
  match partitionList ((List.range xs.length).zip xs) rank size m (draw rank) with
  | .error _ => none
  | .ok l => applyAll f l

/-- mpitools.py:652-722 `parallel_map`: what becomes of process `rank` when all processes of a communicator of `size` call it. -/
def parallelMapAll {α β : Type} (f : α → Option β) (xs : List α) (root : Option Nat) (m : Method) (size : Nat) (draw : Nat → List Nat)
    (rank : Nat) : Fate β :=
  if size = 1 then
    match applyAll f ((List.range xs.length).zip xs) with
    | none => .raised
    | some l => .returned (some (l.map (·.2)))
  else
    match share f xs m size draw rank with
    | none => .raised
    | some _ =>
      if (List.range size).all fun r => (share f xs m size draw r).isSome then
        if root.any (fun k => decide (size ≤ k)) then .raised
        else if root = none ∨ root = some rank then
          .returned (some ((sortByKey ((List.range size).flatMap fun r => (share f xs m size draw r).getD [])).map (·.2)))
        else .returned none
      else .waiting

end Verif.Split
