/-!
# Model of flow tasks and of grouped tasks

Models `group_tasks` (`caput/pipeline/tasklib/base.py:646-694`), the tasks of `caput/pipeline/tasklib/flow.py:77-166`
and how Python finds the methods of these.

Simplifications: an object passed between tasks is a value; a subtask's hooks change a state that all subtasks share
(`self`); `None` is `none`.
-/
namespace Verif.Flow

inductive PyErr where
  | typeError
  | stop
  | user (n : Nat)
  deriving DecidableEq, Repr

/-- A subtask: the number of arguments of its `setup` (without `self`), how many of them have defaults, the method, and
its `process`. -/
structure Sub (α σ : Type) where
  nargs : Nat
  ndef : Nat
  setup : σ → List α → Except PyErr σ
  process : σ → Option α → Except PyErr (σ × Option α)

variable {α σ : Type}

/-- `t.setup(self, *args)`: Python wants all arguments without defaults and no more than there are. -/
def callSetup (t : Sub α σ) (s : σ) (args : List α) : Except PyErr σ :=
  if args.length < t.nargs - t.ndef ∨ t.nargs < args.length then .error .typeError else t.setup s args

/-- Lines 665-682 `TaskGroup.setup`. -/
def groupSetup : List (Sub α σ) → σ → List α → Except PyErr σ
  | [], s, _ => .ok s
  | t :: ts, s, args =>
    match callSetup t s (args.take t.nargs) with
    | .error e => .error e
    | .ok s' => groupSetup ts s' (args.drop t.nargs)

/-- Lines 684-690 `TaskGroup.process`. -/
def groupProcess : List (Sub α σ) → σ → Option α → Except PyErr (σ × Option α)
  | [], s, x => .ok (s, x)
  | t :: ts, s, x =>
    match t.process s x with
    | .error e => .error e
    | .ok (s', y) => groupProcess ts s' y

/-- A subtask that does not define `setup` has that of `Task`, `setup(self, requires=None)`, which does nothing
(`_pipeline.py:771-781`). -/
def noSetup (process : σ → Option α → Except PyErr (σ × Option α)) : Sub α σ := ⟨1, 1, fun s _ => .ok s, process⟩

/-! ### The flow tasks -/

/-- What a call of `next` gives. -/
inductive Res (α : Type) where
  | obj (x : α)
  | list (l : List α)
  | stop
  deriving DecidableEq, Repr

/-- The methods of the classes. -/
inductive Method where
  /-- `Task.next` (`_pipeline.py:787-801`): `raise PipelineStopIteration`. -/
  | taskNext
  /-- `GatherInputs.next` (flow.py:84-97). -/
  | gather
  /-- `PassOn.next`, `WaitUntil.next` (flow.py:145-147, 164-166). -/
  | forward
  /-- `MakeCopy.process` (flow.py:122-135). -/
  | copy
  /-- `Delete.process` (flow.py:103-116). -/
  | delete
  deriving DecidableEq, Repr

/-- What a class defines itself. -/
abbrev Cls := List (String × Method)

/-- `Task`; `MPITask`, `LoggedTask` and `MPILoggedTask` define neither `next` nor `process` (base.py:114-192). -/
def task : Cls := [("next", .taskNext)]
def gatherInputs : Cls := [("next", .gather)]
def passOn : Cls := [("next", .forward)]
def waitUntil : Cls := [("next", .forward)]
def makeCopy : Cls := [("process", .copy)]
def delete : Cls := [("process", .delete)]

/-- A class derived from `MPILoggedTask`, with its bases, in the order in which methods are looked up. -/
def mro (c : Cls) : List Cls := [c, [], [], [], task]

/-- `getattr`: the first class that defines it. -/
def resolve (l : List Cls) (name : String) : Option Method := l.findSome? fun c => c.lookup name

/-- A call of a method with the arguments given. -/
def call (clone : α → α) (none : α) : Method → List α → Except PyErr (Res α)
  | .taskNext, [] => .ok .stop
  | .taskNext, [_] => .ok .stop
  | .gather, l => .ok (.list l)
  | .forward, [x] => .ok (.obj x)
  | .copy, [x] => .ok (.obj (clone x))
  | .delete, [_] => .ok (.obj none)
  | _, _ => .error .typeError

/-- What the pipeline does with a task in state `next`: `self.next(*args)` (`_pipeline.py:1134`). -/
def callNext (clone : α → α) (none : α) (c : Cls) (args : List α) : Except PyErr (Res α) :=
  match resolve (mro c) "next" with
  | some m => call clone none m args
  | .none => .error .typeError

end Verif.Flow
