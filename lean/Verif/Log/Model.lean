import Verif.Nodes.Model
import Mathlib.Data.Nat.Log

/-!
# Model of the setup of logging

Models `caput/pipeline/_pipeline.py` `Manager._setup_logging` (227-249), `caput/pipeline/tasklib/base.py` `SetMPILogging` (67-113), `LoggedTask` (114-136) and
`_AddRankLogAdapter` (159-178), `caput/pipeline/tasklib/debug.py` `DebugInfo.__init__` (78-95), and of Python's `logging` what they use: levels of loggers,
handlers of the root logger and their filters. `MPILogFilter.filter` is `Nodes.Filter.filter`.

The name of a logger is the list of the parts between the dots; the root logger, which `getLogger("root")` gives, has the empty list. Names with empty parts do
not occur. Other handlers than those of the root logger are not set up by the package and left out.
-/
namespace Verif.Log
open Nodes (Filter Record)

abbrev Name := List String

/-- Python's `logging`: the level of each logger, 0 if it is not set, and the filters of each handler of the root logger. -/
structure State where
  level : Name → Int
  handlers : List (List Filter)

/-- Python when it starts: the root logger has the level WARNING and there are no handlers. -/
def start : State := ⟨fun n => if n = [] then 30 else 0, []⟩

/-- `logging.getLogger(name).setLevel(level)`. -/
def State.setLevel (s : State) (n : Name) (l : Int) : State := { s with level := fun m => if m = n then l else s.level m }

/-- runner/_core.py:21 `logging.basicConfig(level=logging.INFO, ...)`: nothing if there are handlers. -/
def basicConfig (s : State) : State :=
  match s.handlers with
  | [] => { s.setLevel [] 20 with handlers := [[]] }
  | _ :: _ => s

/-- _pipeline.py:246-249: the levels of the options in their order. (240-244 and what the options can be are in `Build`.) -/
def setupLogging (levels : List (Name × Int)) (s : State) : State := levels.foldl (fun s x => s.setLevel x.1 x.2) s

/-- The tasks that set up logging. -/
inductive LTask where
  /-- A `LoggedTask` of a class, with its option `log_level`. -/
  | logged (cls : Name) (level : Option Int)
  /-- `SetMPILogging` with its options `level_rank0` and `level_all`. -/
  | mpi (level0 levelAll : Option Int)
  /-- `DebugInfo`: both. -/
  | debug (cls : Name) (level : Option Int) (level0 levelAll : Option Int)

inductive Err where
  | runtime
  deriving DecidableEq

/-- base.py:125-131. -/
def initLogged (cls : Name) (level : Option Int) (s : State) : State :=
  match level with
  | some l => s.setLevel cls l
  | none => s

/-- base.py:81-111. -/
def initMpi (rank size : Nat) (level0 levelAll : Int) (s : State) : Except Err State :=
  if s.handlers.isEmpty then .error .runtime
  else .ok { s with handlers := s.handlers.map (· ++ [⟨true, level0, levelAll, rank, size⟩]) }

/-- The constructor of the task. 78-79 of base.py are the defaults of the levels; 82-85 of debug.py replace what was given. -/
def init (rank size : Nat) (s : State) : LTask → Except Err State
  | .logged cls l => .ok (initLogged cls l s)
  | .mpi a b =>
    let a := match a with
      | some a => a
      | none => 20
    let b := match b with
      | some b => b
      | none => 30
    initMpi rank size a b s
  | .debug cls l _ _ => do
    let s ← initMpi rank size 10 20 s
    return initLogged cls l s

/-- The tasks are made one after another. -/
def initAll (rank size : Nat) : State → List LTask → Except Err State
  | s, [] => .ok s
  | s, t :: ts => do
    let s ← init rank size s t
    initAll rank size s ts

/-- A pipeline: the options, then the tasks (_pipeline.py:222-223). -/
def pipeline (rank size : Nat) (levels : List (Name × Int)) (tasks : List LTask) (s : State) : Except Err State :=
  initAll rank size (setupLogging levels s) tasks

/-- Python's `Logger.getEffectiveLevel`: the first level that is set, from the logger up to the root. The name is given from its end. -/
def effectiveRev (level : Name → Int) : Name → Int
  | [] => level []
  | x :: up => if level (x :: up).reverse ≠ 0 then level (x :: up).reverse else effectiveRev level up

def effective (s : State) (n : Name) : Int := effectiveRev s.level n.reverse

/-- Python's `Filterer.filter`: the filters in their order, until one says no. -/
def passes : List Filter → Record → Bool
  | [], _ => true
  | f :: fs, r =>
    let (r', ok) := f.filter r
    if ok then passes fs r' else false

/-- Python's `Logger.handle`: which handlers show a record of this logger. Without any handler those from WARNING on are shown by `logging.lastResort`. -/
def emit (s : State) (n : Name) (r : Record) : List Bool :=
  if effective s n ≤ r.level then
    match s.handlers with
    | [] => [decide (30 ≤ r.level)]
    | hs => hs.map (passes · r)
  else []

/-- Is a record shown at all? -/
def shown (s : State) (n : Name) (r : Record) : Bool := (emit s n r).any id

/-! ### The text in front of the message -/

/-- `%5d`: the digits, with blanks in front of them. -/
def pad (w n : Nat) : List Char := List.replicate (w - (Nat.toDigits 10 n).length) ' ' ++ Nat.toDigits 10 n

/-- base.py:88-90: the part of the format for rank and size. (`math.log10` is taken to be exact.) -/
def mpiPart (jobSize rank size : Nat) : List Char :=
  let w := Nat.log 10 jobSize + 1
  ['[', 'M', 'P', 'I', ' '] ++ pad w rank ++ ['/'] ++ pad w size ++ [']']

end Verif.Log
