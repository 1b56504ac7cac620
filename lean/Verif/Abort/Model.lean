/-!
# Model of a job whose processes may fail

Models `enable_mpi_exception_handler` (`caput/util/mpitools.py:314-349`), its use in `run_pipeline` (`caput/pipeline/runner/_core.py:44-79`) and the command `run` (`_cli.py:38-77`); from
the library click what `main` does with an exception that comes out of a command; from Python that `sys.exit` does not call `sys.excepthook`; from mpi4py that
`MPI_Finalize` is called when the interpreter ends, which returns when all processes have called it; from MPI that `Abort` ends all processes.

What the tasks do is left abstract: a process has a list of operations. Left out: exceptions in other threads; the waiting of five seconds; that something other than MPI ends processes.
-/
namespace Verif.Abort

/-- An exception that comes out of the command. -/
inductive Exc where
  | ordinary        -- any other exception
  | eof             -- `EOFError`
  | interrupt       -- `KeyboardInterrupt`
  | brokenPipe      -- `OSError` with the number `EPIPE`
  | osError         -- any other `OSError`
  | click           -- `click.ClickException`
  | exit (code : Nat)  -- `SystemExit`
  deriving DecidableEq

/-- How the exception leaves `cli()`: as it is, or as `SystemExit`. -/
inductive Leave where
  | raised
  | exit (code : Nat)
  deriving DecidableEq

/-- click `BaseCommand.main` with `standalone_mode=True`: `except (EOFError, KeyboardInterrupt): raise Abort()`, and `except Abort: sys.exit(1)`; `except ClickException: ... sys.exit(e.exit_code)`;
`except OSError as e: if e.errno == errno.EPIPE: ... sys.exit(1) else: raise`. -/
def clickMain : Exc → Leave
  | .eof => .exit 1
  | .interrupt => .exit 1
  | .brokenPipe => .exit 1
  | .click => .exit 1
  | .exit c => .exit c
  | .osError => .raised
  | .ordinary => .raised

/-- An operation of a process: something of its own, a collective call, an exception that no task catches. -/
inductive Op where
  | work
  | coll
  | fail (e : Exc)
  deriving DecidableEq

/-- Where a process is: in the pipeline; in the exception handler; in `MPI_Finalize`; ended, with this exit code. -/
inductive At where
  | run (ops : List Op)
  | hook
  | finalize (code : Nat)
  | ended (code : Nat)
  deriving DecidableEq

/-- A process, with the number of collective calls it has been through. -/
structure Proc where
  passed : Nat
  pos : At

abbrev Job := Nat → Proc

def upd (s : Job) (i : Nat) (p : Proc) : Job := fun j => if j = i then p else s j

/-- In a collective call. -/
def Proc.inColl (p : Proc) : Bool :=
  match p.pos with
  | .run (.coll :: _) => true
  | _ => false

/-- In `MPI_Finalize`, or ended after it. -/
def Proc.inFinalize (p : Proc) : Bool :=
  match p.pos with
  | .finalize _ => true
  | .ended _ => true
  | _ => false

/-- All processes are in this collective call or have been through it. -/
def collReady (n : Nat) (s : Job) (i : Nat) : Bool :=
  (List.range n).all fun j => decide ((s i).passed < (s j).passed) || (decide ((s j).passed = (s i).passed) && (s j).inColl)

def finalReady (n : Nat) (s : Job) : Bool := (List.range n).all fun j => (s j).inFinalize

/-- One step of process `i`; `none`: it waits, or has ended. `handler`: `enable_mpi_exception_handler` was called. -/
def step (handler : Bool) (n : Nat) (s : Job) (i : Nat) : Option Job :=
  match (s i).pos with
  | .run [] => some (upd s i ⟨(s i).passed, .finalize 0⟩)
  | .run (.work :: ops) => some (upd s i ⟨(s i).passed, .run ops⟩)
  | .run (.coll :: ops) => if collReady n s i then some (upd s i ⟨(s i).passed + 1, .run ops⟩) else none
  | .run (.fail e :: _) =>
    match clickMain e with
    | .exit c => some (upd s i ⟨(s i).passed, .finalize c⟩)
    | .raised => if handler then some (upd s i ⟨(s i).passed, .hook⟩) else some (upd s i ⟨(s i).passed, .finalize 1⟩)
  | .hook => some fun j => ⟨(s j).passed, .ended 1⟩
  | .finalize c => if finalReady n s then some (upd s i ⟨(s i).passed, .ended c⟩) else none
  | .ended _ => none

/-- The processes get their turns in this order; who has to wait does nothing. -/
def run (handler : Bool) (n : Nat) (s : Job) : List Nat → Job
  | [] => s
  | i :: is =>
    match (if i < n then step handler n s i else none) with
    | none => run handler n s is
    | some s' => run handler n s' is

/-- All processes at the start of the command. -/
def start (prog : Nat → List Op) : Job := fun i => ⟨0, .run (prog i)⟩

/-- `_cli.py:58-66`, `_core.py:71-74`: the handler is installed unless `--no-mpi-abort` is given. -/
def command (noMpiAbort : Bool) (n : Nat) (prog : Nat → List Op) (turns : List Nat) : Job := run (!noMpiAbort) n (start prog) turns

end Verif.Abort
