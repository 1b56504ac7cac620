import Verif.Pipe.Model

/-!
# Model of the runner as a generator

`Manager.runner` is a generator: with `interactive` set it freezes after it has selected a task and
before it carries it out (_pipeline.py:309-311). `self.interactive` is read anew in each round, so it
may be switched by the user between two calls of `next`, or by a hook. It is a function of the round.
The index and the head are attributes of the manager and are set to zero by every new runner
(_pipeline.py:293-297), the list of tasks is not made anew.

Simplification: while the runner is frozen the user looks at the manager but does not change its tasks.
Breakpoints drop into a debugger and go on; profiling does not act on the tasks.
-/
namespace Verif.Pipe
variable {α : Type}

/-- How a call of `next` on the runner ends: the runner has frozen, has raised `StopIteration`, or an
exception of a task has come out of it. -/
inductive Yield where
  | frozen | stopped | raised
deriving DecidableEq, Repr

/-- The runner: just made, frozen, or at its end (also after an exception). -/
inductive Gen where
  | fresh | frozen | closed
deriving DecidableEq, Repr

/-- The manager, the runner, and the number of rounds the runner has carried out. -/
structure Sess (α : Type) where
  state : State α
  gen : Gen
  round : Nat
deriving DecidableEq, Repr

/-- _pipeline.py:316-372: carry out the task that was selected. It is found at `_task_idx`. -/
def exec (keyOk : Key → Bool) (s : State α) (r : Ret α) : State α :=
  match s.tasks[s.idx]? with
  | some ⟨c, some t⟩ => handle keyOk s s.idx c t (pipelineNext c t r)
  | _ => { s with status := .failed }

/-- _pipeline.py:300-372: the loop, from the selection of a task on, in round `n`. `none`: it takes
more than `fuel` rounds to come back. -/
def goOn (keyOk : Key → Bool) (inter : Nat → Bool) (ρ : Nat → Ret α) :
    (fuel n : Nat) → State α → Option (Yield × Sess α)
  | 0, _, _ => none
  | fuel + 1, n, s =>
    match nextTask s with
    | none => some (.stopped, ⟨{ s with idx := s.head, status := .done }, .closed, n⟩)
    | some i =>
      if inter n then some (.frozen, ⟨{ s with idx := i }, .frozen, n⟩)
      else
        let s' := exec keyOk { s with idx := i } (ρ n)
        if s'.status = .failed then some (.raised, ⟨s', .closed, n + 1⟩)
        else goOn keyOk inter ρ fuel (n + 1) s'

/-- _pipeline.py:293-297: the start of a runner on a manager whose tasks may have run before. -/
def restart (s : State α) : State α := { s with idx := 0, head := 0, status := .running }

/-- `next(runner)`. _pipeline.py:268-372. -/
def genNext (keyOk : Key → Bool) (inter : Nat → Bool) (ρ : Nat → Ret α) (fuel : Nat) (σ : Sess α) :
    Option (Yield × Sess α) :=
  match σ.gen with
  | .fresh => goOn keyOk inter ρ fuel σ.round (restart σ.state)
  | .frozen =>
    let s' := exec keyOk σ.state (ρ σ.round)
    if s'.status = .failed then some (.raised, ⟨s', .closed, σ.round + 1⟩)
    else goOn keyOk inter ρ fuel (σ.round + 1) s'
  | .closed => some (.stopped, σ)

/-- `next(runner)` several times, as many as there are entries in the list; each entry is the number
of rounds allowed. `none`: one of them does not come back in that time. -/
def genNexts (keyOk : Key → Bool) (inter : Nat → Bool) (ρ : Nat → Ret α) :
    List Nat → Sess α → Option (List Yield × Sess α)
  | [], σ => some ([], σ)
  | fuel :: fs, σ =>
    match genNext keyOk inter ρ fuel σ with
    | none => none
    | some (y, σ') => (genNexts keyOk inter ρ fs σ').map fun p => (y :: p.1, p.2)

/-- _pipeline.py:251-266 `run()`: a new runner, and `next` until `StopIteration` or an exception comes
out; `fuel` bounds both the calls of `next` and the rounds within each. -/
def drain (keyOk : Key → Bool) (inter : Nat → Bool) (ρ : Nat → Ret α) (fuel : Nat) :
    Nat → Sess α → Option (Yield × Sess α)
  | 0, _ => none
  | calls + 1, σ =>
    match genNext keyOk inter ρ fuel σ with
    | none => none
    | some (.frozen, σ') => drain keyOk inter ρ fuel calls σ'
    | some (y, σ') => some (y, σ')

/-- _pipeline.py:251-266, on a manager in the state `s`. -/
def runAll (keyOk : Key → Bool) (inter : Nat → Bool) (ρ : Nat → Ret α) (fuel : Nat) (s : State α) :
    Option (Yield × Sess α) :=
  drain keyOk inter ρ fuel fuel ⟨s, .fresh, 0⟩

/-- The rounds of a runner from a state on, without interactive mode. _pipeline.py:300-372. -/
def runFrom (keyOk : Key → Bool) (s : State α) (ρ : Nat → Ret α) : Nat → State α
  | 0 => s
  | n + 1 => step keyOk (runFrom keyOk s ρ n) (ρ n)

end Verif.Pipe
