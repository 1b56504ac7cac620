/-!
# Model of what processes are told about their node, and of the log

Models `caput/util/mpitools.py`: `cpu_count` (142-178), `can_allocate` (181-250), `available_memory_shared` (253-307), `MPILogFilter.filter` (387-405), and `_log_level` of `caput/pipeline/tasklib/base.py` (30-64).

Files are texts. A sum over processes (`allreduce`) is done only if all processes of the communicator take part.
-/
namespace Verif.Nodes

abbrev Str := List Char

/-- mpitools.py:167-178 `cpu_count`: the number of processes of the communicator and of the shared communicator (`none` if there is none), and `os.cpu_count()`. -/
def cpuCount (sizes : Option (Nat × Nat)) (cores : Option Nat) : Option Nat :=
  let perNode := match sizes with
    | none => 1
    | some (size, shared) => size / shared
  match cores with
  | none => none
  | some c => some (c / perNode)

/-- The first match of `(?<=pat).*`: what follows the first occurrence of `pat`, to the end of the line. -/
def findAfter (pat : Str) : Str → Option Str
  | [] => if pat = [] then some [] else none
  | c :: r => if pat <+: c :: r then some (((c :: r).drop pat.length).takeWhile (· ≠ '\n')) else findAfter pat r

/-- Why available memory cannot be found out. -/
inductive Err where
  | os
  | value
  deriving DecidableEq, Repr

/-- A file: it is not there, it cannot be read, or its text. -/
inductive File where
  | missing
  | unreadable
  | text (s : Str)

/-- What there is to read. `strip` and `int` are Python's. -/
structure Sys where
  cgroup : File
  stat : Str → File
  usage : Str → File
  available : Int
  strip : Str → Str
  int : Str → Option Int

/-- mpitools.py:253-307 `available_memory_shared`. -/
def availableMemory (s : Sys) : Except Err Int :=
  match s.cgroup with
  | .missing => .ok s.available
  | .unreadable => .error .os
  | .text t =>
    let group := match findAfter "memory:".toList t with
      | none => "/".toList
      | some g => s.strip g
    if group = "/".toList then .ok s.available
    else
      match s.stat group, s.usage group with
      | .text st, .text us =>
        match findAfter "hierarchical_memory_limit".toList st with
        | none =>
          match s.int us with
          | none => .error .value
          | some u => .ok (0 - u)
        | some l =>
          match s.int (s.strip l), s.int us with
          | some m, some u => .ok (m - u)
          | _, _ => .error .value
      | _, _ => .error .os

/-- A process: its node, the bytes it asks for, and the memory it finds available, `none` if that is an `OSError`. -/
structure Proc where
  node : Nat
  nbytes : Int
  avail : Option Int

inductive Scope where
  | shared
  | process
  | global
  | other
  deriving DecidableEq

inductive Answer where
  | says (b : Bool)
  | valueError
  | blocked
  deriving DecidableEq, Repr

/-- The processes that share memory with process `p`. -/
def onNode (procs : List Proc) (n : Nat) : List Proc := procs.filter (·.node = n)

/-- mpitools.py:221-250 `can_allocate`, as process `p` of the processes of the communicator sees it. A process that cannot read its memory does not take part in sums. -/
def canAllocate (scope : Scope) (procs : List Proc) (p : Proc) : Answer :=
  match p.avail with
  | none => .says true
  | some a =>
    match scope with
    | .shared => .says (p.nbytes < a)
    | .process =>
      if (onNode procs p.node).any (·.avail.isNone) then .blocked
      else .says (((onNode procs p.node).map (·.nbytes)).sum < a)
    | .global =>
      if procs.any (·.avail.isNone) then .blocked
      else .says (p.nbytes < (procs.map fun q => (q.avail.getD 0) / ((onNode procs q.node).length : Int)).sum)
    | .other => .valueError

/-! ### The log -/

/-- A record of the log: its level, and the rank and size it was given. -/
structure Record where
  level : Int
  rank : Option Nat
  size : Option Nat
  deriving DecidableEq

structure Filter where
  addInfo : Bool
  level0 : Int
  levelAll : Int
  rank : Nat
  size : Nat

/-- mpitools.py:387-405 `filter`: the record afterwards, and whether it is shown. -/
def Filter.filter (f : Filter) (r : Record) : Record × Bool :=
  let r := if r.rank.isNone && f.addInfo then { r with rank := some f.rank, size := some f.size } else r
  let rank := match r.rank with
    | some k => k
    | none => f.rank
  (r, if rank = 0 then r.level ≥ f.level0 else r.level ≥ f.levelAll)

/-- A value for a level. -/
inductive LVal where
  | int (z : Int)
  | str (s : Str)
  | other

/-- base.py:49-56. -/
def levels : List (Str × Int) :=
  [("DEBUG".toList, 10), ("INFO".toList, 20), ("WARN".toList, 30), ("WARNING".toList, 30), ("ERROR".toList, 40), ("CRITICAL".toList, 50)]

def upper (s : Str) : Str := s.map Char.toUpper

/-- base.py:58-64 `_log_level`: `none` is a `ValueError`. -/
def logLevel : LVal → Option Int
  | .int z => some z
  | .str s => if levels.any (·.1 = s) then (levels.find? (·.1 = upper s)).map (·.2) else none
  | .other => none

end Verif.Nodes
