import Verif.Pipe.Model
import Mathlib.Tactic.Common

/-!
# C52: the NaN check

Models `caput/pipeline/tasklib/base.py:579-628` (`_nan_check_walk`), `531-554` (`_nan_process_output`) and the
part of `next` (`374-388`) that collects the outputs. A process holds its own part of every dataset. Dumping
to a file and the log messages are not modelled.
-/
namespace Verif.Tasks

/-- One element of a dataset. -/
inductive Elem where
  | finite
  | nan
  | inf
  deriving DecidableEq

/-- The data type of a dataset: those for which `np.isfinite` works, and the others (compound types,
strings, objects). -/
inductive DKind where
  | numeric
  | other
  deriving DecidableEq

mutual
/-- What a process holds: a dataset in memory, a group in memory, or something else (an open file). A
dataset without axes has `zeroDim`. -/
inductive Node where
  | dset (kind : DKind) (zeroDim : Bool) (data : List Elem)
  | group (items : Nodes)
  | onDisk (items : Nodes)
/-- The items of a group. -/
inductive Nodes where
  | nil
  | cons (n : Node) (rest : Nodes)
end

mutual
/-- Number of objects. -/
def Node.size : Node → Nat
  | .dset _ _ _ => 1
  | .group items => items.size + 1
  | .onDisk items => items.size + 1
/-- Number of objects. -/
def Nodes.size : Nodes → Nat
  | .nil => 0
  | .cons n rest => n.size + rest.size
end

/-- base.py:624-625: the items are pushed one after the other, the last one ends up on top. -/
def pushAll : Nodes → List Node → List Node
  | .nil, stack => stack
  | .cons n rest, stack => pushAll rest (n :: stack)

/-- Total number of objects on the stack. -/
def stackSize : List Node → Nat
  | [] => 0
  | n :: ns => n.size + stackSize ns

theorem Node.size_pos (n : Node) : 0 < n.size := by
  cases n <;> simp [Node.size]

theorem stackSize_pushAll (items : Nodes) (stack : List Node) :
    stackSize (pushAll items stack) = items.size + stackSize stack := by
  match items with
  | .nil => simp [pushAll, Nodes.size]
  | .cons n rest =>
    rw [pushAll, stackSize_pushAll rest]
    simp [stackSize, Nodes.size]
    omega

/-- base.py:592-625: the loop; `none` is the `IndexError` of `n[:]` for a dataset without axes. The top of
the stack is the head of the list. -/
def walkLoop : List Node → Option Bool
  | [] => some false
  | .dset _ true _ :: _ => none
  | .dset .other false _ :: stack => walkLoop stack
  | .dset .numeric false data :: stack =>
    if data.all (· = .finite) then walkLoop stack
    else if data.any (· = .nan) then some true
    else if data.any (· = .inf) then some true
    else walkLoop stack
  | .group items :: stack => walkLoop (pushAll items stack)
  | .onDisk _ :: stack => walkLoop stack
termination_by stack => stackSize stack
decreasing_by
  all_goals first
    | (rw [stackSize_pushAll]; simp [stackSize, Node.size])
    | (simp [stackSize, Node.size])

/-- What a process sees of the check. -/
inductive Seen where
  | result (found : Bool)
  | indexError
  | hang
  deriving DecidableEq

/-- base.py:579-628 `_nan_check_walk` on all processes: each walks through its own part, then all meet in
`allreduce`. If some raise an exception, the others wait forever. -/
def nanCheck (parts : List Node) : List Seen :=
  let walks := parts.map fun p => walkLoop [p]
  if walks.any (·.isNone) then
    walks.map fun w => if w.isNone then .indexError else .hang
  else walks.map fun _ => .result (walks.any (· = some true))

/-- base.py:531-554 `_nan_process_output` for each output, and 364-388 of `next`: what the task returns to
the pipeline. Each output comes with the result of the check. An empty tuple raises `IndexError`. -/
def processOutputs {α : Type} (check skip : Bool) (outs : List (α × Bool)) : Pipe.Ret α :=
  match outs.map fun o => if check && o.2 && skip then none else some o.1 with
  | [] => .error
  | [some x] => .obj x
  | [none] => .none
  | l => .tup l

end Verif.Tasks
