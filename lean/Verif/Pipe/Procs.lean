import Verif.Pipe.Model

/-!
# Model of the pipeline manager on several processes

Models `Manager._next_task` with its broadcast (`caput/pipeline/_pipeline.py:374-452`, line 430; `caput/util/mpitools.py:120-125`) in a run of `Manager.runner` on all processes of an
MPI job. Everything else is `Verif.Pipe` (Model.lean) on each process.

Processes go on independently of each other, in any order. The root sends the index that it has found; the k-th broadcast of another process receives
what the root sent in its k-th, as MPI matches the collective calls on a communicator by their order, and waits as long as that has not been sent. The
broadcast is made only if some task is able to run (408-413); otherwise a process chooses for itself.

Simplified: communication inside the hooks is not modelled, so a hook returns whatever other processes do. Broadcasting does not make the root wait.
-/
namespace Verif.Pipe

variable {α : Type}

/-- What `_next_task` finds by itself, and whether it is to be broadcast. _pipeline.py:391-425. -/
inductive Choice where
  | nothing
  | alone (i : Nat)
  | cast (i : Nat)
deriving DecidableEq, Repr

/-- _pipeline.py:391-425 and 432-452. -/
def choose (s : State α) : Choice :=
  match (cyclic s.tasks.length s.idx).filter (avail s.tasks) with
  | [] =>
    match (cyclic s.tasks.length s.head).find? (live s.tasks) with
    | none => .nothing
    | some i => .alone i
  | j :: js => .cast (best s.tasks j js)

/-- The rest of a round with task `i`. A task that is `None` here has no method to call. _pipeline.py:430, 315-372. -/
def runTask (keyOk : Key → Bool) (s : State α) (r : Ret α) (i : Nat) : State α :=
  match s.tasks[i]? with
  | some ⟨c, some t⟩ => handle keyOk s i c t (pipelineNext c t r)
  | _ => { s with status := .failed }

/-- A process: its state, the number of rounds, and of broadcasts. -/
structure ProcSt (α : Type) where
  st : State α
  rounds : Nat
  casts : Nat

/-- The job: the processes, and what the root has sent. -/
structure Job (α : Type) where
  proc : Nat → ProcSt α
  sent : List Nat

/-- The start. _pipeline.py:293-297. -/
def Job.init (cfgs : List Cfg) : Job α := ⟨fun _ => ⟨State.init cfgs, 0, 0⟩, []⟩

/-- The process has done a round. -/
def Job.put (j : Job α) (p : Nat) (x : ProcSt α) : Job α := { j with proc := fun q => if q = p then x else j.proc q }

/-- One process does a round, or waits; a process that has ended does nothing. _pipeline.py:300-372. `ρ p n` is what a hook does in round `n` of process `p`. -/
def Job.step (keyOk : Key → Bool) (ρ : Nat → Nat → Ret α) (j : Job α) (p : Nat) : Job α :=
  let x := j.proc p
  match x.st.status with
  | .running =>
    match choose x.st with
    | .nothing => j.put p { x with st := { x.st with status := .done }, rounds := x.rounds + 1 }
    | .alone i => j.put p { x with st := runTask keyOk x.st (ρ p x.rounds) i, rounds := x.rounds + 1 }
    | .cast i =>
      if p = 0 then
        { j.put p ⟨runTask keyOk x.st (ρ p x.rounds) i, x.rounds + 1, x.casts + 1⟩ with sent := j.sent ++ [i] }
      else
        match j.sent[x.casts]? with
        | none => j
        | some i' => j.put p ⟨runTask keyOk x.st (ρ p x.rounds) i', x.rounds + 1, x.casts + 1⟩
  | _ => j

/-- The processes take turns in the order given. -/
def Job.run (keyOk : Key → Bool) (cfgs : List Cfg) (ρ : Nat → Nat → Ret α) : List Nat → Job α
  | [] => Job.init cfgs
  | p :: ps => (Job.run keyOk cfgs ρ ps).step keyOk ρ p

end Verif.Pipe
