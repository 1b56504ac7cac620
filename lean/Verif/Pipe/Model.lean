/-!
# Model of the pipeline manager

Models `Manager.runner`, `_next_task`, `_iter_tasks`, `_check_task_output` and the state machine of
`Task` in `caput/pipeline/_pipeline.py`.

Products are values of a type `α`; `Option α` adds Python's `None`. The user hooks are not modelled:
each call of a hook consumes one value (`Ret`) of an arbitrary stream, so that every behaviour of the
hooks, including one that depends on the history of the whole run, is covered.

Simplifications: one process (`bcast` is the identity, as it is when all ranks agree); no
breakpoints, profiling and logging (interactive mode is in `Inter.lean`); the check for products modified in place
(_pipeline.py:1144-1150) only writes a message, and where the comparison itself raises (numpy arrays
of more than one element) the run is one in which the hook ends with `error`; an object that is neither tuple nor list
is taken to be not iterable. The `log` is a ghost field that the code does not have.
-/
namespace Verif.Pipe

abbrev Key := String

/-- What a user hook does: returns `None`, an object, a tuple, a list (as an object and its items),
raises `PipelineStopIteration`, or raises something else. -/
inductive Ret (α : Type) where
  | none
  | obj (p : α)
  | tup (items : List (Option α))
  | lst (whole : α) (items : List (Option α))
  | stop
  | error
deriving DecidableEq, Repr

/-- The keys and parameters of a task. `bareOut` tells that `out` was given as a single key and not as
a list, which the code remembers as the difference of tuple and list.
_pipeline.py:755-757, 1018-1028, 691-714. -/
structure Cfg where
  reqKeys : List Key
  inKeys : List Key
  outKeys : List Key
  bareOut : Bool
  limit : Option Int
  base : Int
deriving DecidableEq, Repr

/-- State of a task with the fields that exist in it: `_requires` is `None` after `setup`, `_in` is
`None` once the state `next` has been left (but not if `next` was skipped).
_pipeline.py:1042-1090. -/
inductive Stage (α : Type) where
  | setup (req : List (Option α)) (q : List (List (Option α)))
  | next (q : List (List (Option α)))
  | finish (q : Option (List (List (Option α))))
  | raised (q : Option (List (List (Option α))))
deriving DecidableEq, Repr

/-- A task: its stage and `_num_iters`. -/
structure TState (α : Type) where
  stage : Stage α
  iters : Nat
deriving DecidableEq, Repr

/-- An entry of `Manager.tasks`; `st = none` once the task has been replaced by `None`. -/
structure Slot (α : Type) where
  cfg : Cfg
  st : Option (TState α)
deriving DecidableEq, Repr

inductive Hook where
  | setup | next | finish
deriving DecidableEq, Repr

/-- A call of a user hook: task, hook, arguments and what came back. -/
structure Event (α : Type) where
  task : Nat
  hook : Hook
  args : List (Option α)
  ret : Ret α
deriving DecidableEq, Repr

inductive Status where
  | running | done | failed
deriving DecidableEq, Repr

structure State (α : Type) where
  tasks : List (Slot α)
  idx : Nat
  head : Nat
  status : Status
  log : List (Event α)
deriving DecidableEq, Repr

variable {α : Type}

/-- State of a task after `_setup_keys`. _pipeline.py:1016-1040. -/
def TState.init (c : Cfg) : TState α :=
  ⟨.setup (List.replicate c.reqKeys.length none) (List.replicate c.inKeys.length []), 0⟩

/-- Start of `runner`. _pipeline.py:293-297. -/
def State.init (cfgs : List Cfg) : State α :=
  ⟨cfgs.map fun c => ⟨c, some (TState.init c)⟩, 0, 0, .running, []⟩

/-- `_pipeline_advance_state`. _pipeline.py:1042-1090. -/
def Stage.advance : Stage α → Stage α
  | .setup req q => if req.all Option.isSome then .next q else .finish (some q)
  | .next _ => .finish none
  | .finish q => .raised q
  | .raised q => .raised q

def TState.advance (t : TState α) : TState α := { t with stage := t.stage.advance }

/-- Is there an entry in each of the queues? -/
def allFilled (q : List (List (Option α))) : Bool := q.all fun l => !l.isEmpty

/-- `_pipeline_is_available`. _pipeline.py:852-870. -/
def Stage.available : Stage α → Bool
  | .setup req _ => req.all Option.isSome
  | .next q => !q.isEmpty && allFilled q
  | .finish _ => true
  | .raised _ => true

/-- `min((q.qsize() for q in self._in), default=1)` -/
def minSize : List (List (Option α)) → Nat
  | [] => 1
  | [l] => l.length
  | l :: ls => min l.length (minSize ls)

/-- `_pipeline_priority`. The constant `1e10` is exact as a float, also with any realistic base
priority added. _pipeline.py:872-923. -/
def priority (c : Cfg) : Stage α → Int
  | .setup req _ => (if req.all Option.isSome then 1 else 0) + c.base
  | .next q => ((c.inKeys.length : Int) - c.outKeys.length) * minSize q + c.base
  | .finish _ => 10000000000 + c.base
  | .raised _ => 10000000000 + c.base

/-- Take one item off each queue; `none` if one is empty. _pipeline.py:1119-1127. -/
def pop : List (List (Option α)) → Option (List (Option α) × List (List (Option α)))
  | [] => some ([], [])
  | [] :: _ => none
  | (x :: l) :: qs => match pop qs with
    | none => none
    | some (xs, qs') => some (x :: xs, l :: qs')

/-- How `_pipeline_next` ends. -/
inductive NextRes (α : Type) where
  | missing
  | finished
  | failed (e : Hook × List (Option α))
  | out (t : TState α) (e : Hook × List (Option α)) (ret : Ret α)
deriving DecidableEq, Repr

/-- Has the limit on the outputs been reached? _pipeline.py:1154-1157. -/
def limitReached (c : Cfg) (n : Nat) : Bool :=
  match c.limit with
  | none => false
  | some l => decide (l ≤ n)

/-- What follows the call of `next`. _pipeline.py:1133-1164. -/
def afterNext (c : Cfg) (q : List (List (Option α))) (iters : Nat) (args : List (Option α)) :
    Ret α → NextRes α
  | .error => .failed (.next, args)
  | .stop => .out ⟨.finish none, iters⟩ (.next, args) .stop
  | .none => .out ⟨.next q, iters⟩ (.next, args) .none
  | r => .out ⟨if limitReached c (iters + 1) then .finish none else .next q, iters + 1⟩
      (.next, args) r

/-- What follows the calls of `setup` and `finish`: `PipelineStopIteration` is not caught there.
_pipeline.py:1112-1115, 1169-1172. -/
def afterOther (h : Hook) (args : List (Option α)) (t : TState α) : Ret α → NextRes α
  | .error => .failed (h, args)
  | .stop => .failed (h, args)
  | r => .out t.advance (h, args) r

/-- `_pipeline_next`; `r` is what the hook does if it is called. _pipeline.py:1092-1177. -/
def pipelineNext (c : Cfg) (t : TState α) (r : Ret α) : NextRes α :=
  match t.stage with
  | .setup req _ => if req.all Option.isSome then afterOther .setup req t r else .missing
  | .next q => match pop q with
    | none => .missing
    | some (args, q') => afterNext c q' t.iters args r
  | .finish _ => afterOther .finish [] t r
  | .raised _ => .finished

/-- `_check_task_output` followed by `zip`: the products in the order of the keys, `none` if an
exception is raised (wrong number of outputs, or not a sequence). _pipeline.py:454-500, 354. -/
def checkOutput (c : Cfg) (r : Ret α) : Option (List (Key × Option α)) :=
  match c.outKeys, r with
  | [], _ => some []
  | _, .none => some []
  | _, .stop => some []
  | _, .error => none
  | [k], .obj p => if c.bareOut then some [(k, some p)] else none
  | [k], .tup l => some ([k].zip l)
  | [k], .lst w l => if c.bareOut then some [(k, some w)] else some ([k].zip l)
  | _, .obj _ => none
  | ks, .tup l => if ks.length = l.length then some (ks.zip l) else none
  | ks, .lst _ l => if ks.length = l.length then some (ks.zip l) else none

/-- Put a product into the `requires` slots with its key; `none` if a slot is already filled.
_pipeline.py:1195-1213. -/
def stow (key : Key) (p : Option α) : List Key → List (Option α) → Option (List (Option α))
  | k :: ks, r :: rs =>
    if k = key then
      if r.isSome then none else (stow key p ks rs).map (p :: ·)
    else (stow key p ks rs).map (r :: ·)
  | _, rs => some rs

/-- Put a product into the queues with its key. _pipeline.py:1215-1227. -/
def push (key : Key) (p : Option α) : List Key → List (List (Option α)) → List (List (Option α))
  | k :: ks, q :: qs => (if k = key then q ++ [p] else q) :: push key p ks qs
  | _, qs => qs

/-- `_pipeline_queue_product`; `none` is a `PipelineRuntimeError`. _pipeline.py:1179-1229. -/
def Stage.queue (c : Cfg) (key : Key) (p : Option α) : Stage α → Option (Stage α)
  | .setup req q => (stow key p c.reqKeys req).map fun req' => .setup req' (push key p c.inKeys q)
  | .next q => if key ∈ c.reqKeys then none else some (.next (push key p c.inKeys q))
  | .finish (some q) =>
    if key ∈ c.reqKeys then none else some (.finish (some (push key p c.inKeys q)))
  | .finish none => if key ∈ c.reqKeys ∨ key ∈ c.inKeys then none else some (.finish none)
  | .raised (some q) =>
    if key ∈ c.reqKeys then none else some (.raised (some (push key p c.inKeys q)))
  | .raised none => if key ∈ c.reqKeys ∨ key ∈ c.inKeys then none else some (.raised none)

/-- Pass a product to one entry of the task list (`None` entries are skipped).
_pipeline.py:360-364. -/
def Slot.queue (key : Key) (p : Option α) (s : Slot α) : Option (Slot α) :=
  match s.st with
  | none => some s
  | some t => (t.stage.queue s.cfg key p).map fun g => { s with st := some { t with stage := g } }

/-- Pass a product to all tasks in the order of the list. -/
def queueTasks (key : Key) (p : Option α) : List (Slot α) → Option (List (Slot α))
  | [] => some []
  | s :: ss => match s.queue key p with
    | none => none
    | some s' => (queueTasks key p ss).map (s' :: ·)

/-- The loop over keys and products. `keyOk` is `key_match`. _pipeline.py:354-372. -/
def queueAll (keyOk : Key → Bool) : List (Key × Option α) → List (Slot α) → Option (List (Slot α))
  | [], ts => some ts
  | (k, p) :: rest, ts =>
    if keyOk k then
      match queueTasks k p ts with
      | none => none
      | some ts' => queueAll keyOk rest ts'
    else queueAll keyOk rest ts

/-- Is the task at an index in the list and not `None`? -/
def live (ts : List (Slot α)) (j : Nat) : Bool :=
  match ts[j]? with
  | some ⟨_, some _⟩ => true
  | _ => false

/-- Is the task at an index able to run? -/
def avail (ts : List (Slot α)) (j : Nat) : Bool :=
  match ts[j]? with
  | some ⟨_, some t⟩ => t.stage.available
  | _ => false

/-- Sort key of the task at an index. _pipeline.py:420-423. -/
def rank (ts : List (Slot α)) (j : Nat) : Int × Int :=
  match ts[j]? with
  | some ⟨c, some t⟩ => (priority c t.stage, c.base)
  | _ => (0, 0)

/-- Is the first key larger? Python compares tuples lexicographically. -/
def ahead (a b : Int × Int) : Bool := decide (b.1 < a.1) || (decide (b.1 = a.1) && decide (b.2 < a.2))

/-- First element of the stable descending sort of a non-empty list: the first one with the largest
key. _pipeline.py:418-425. -/
def best (ts : List (Slot α)) : Nat → List Nat → Nat
  | cur, [] => cur
  | cur, j :: js => if ahead (rank ts j) (rank ts cur) then best ts j js else best ts cur js

/-- Indices in the order of the loops, starting at `idx`. _pipeline.py:395-399, 441-443. -/
def cyclic (n idx : Nat) : List Nat := (List.range n).map fun ii => (ii + idx) % n

/-- `_next_task`: the index of the task to run, `none` at the end. _pipeline.py:374-452. -/
def nextTask (s : State α) : Option Nat :=
  match (cyclic s.tasks.length s.idx).filter (avail s.tasks) with
  | [] => (cyclic s.tasks.length s.head).find? (live s.tasks)
  | j :: js => some (best s.tasks j js)

/-- The first entry that is not `None` at or after the head; unchanged if there is none.
_pipeline.py:341-344. -/
def newHead (ts : List (Slot α)) (head : Nat) : Nat :=
  match (List.range' head (ts.length - head)).find? (live ts) with
  | some h => h
  | none => head

/-- Replace the state of a task. -/
def setTask (ts : List (Slot α)) (i : Nat) (c : Cfg) (t : Option (TState α)) : List (Slot α) :=
  ts.set i ⟨c, t⟩

/-- What the loop does after `_pipeline_next`. _pipeline.py:319-372. -/
def handle (keyOk : Key → Bool) (s : State α) (i : Nat) (c : Cfg) (t : TState α) :
    NextRes α → State α
  | .missing =>
    if i = s.head then { s with idx := i, tasks := setTask s.tasks i c (some t.advance) }
    else { s with idx := s.head }
  | .finished =>
    { s with idx := i, tasks := setTask s.tasks i c none,
             head := newHead (setTask s.tasks i c none) s.head }
  | .failed e => { s with idx := i, status := .failed, log := s.log ++ [⟨i, e.1, e.2, .error⟩] }
  | .out t' e ret =>
    match checkOutput c ret with
    | none => { s with idx := i, status := .failed, log := s.log ++ [⟨i, e.1, e.2, ret⟩] }
    | some outs =>
      match queueAll keyOk outs (setTask s.tasks i c (some t')) with
      | none => { s with idx := i, status := .failed, log := s.log ++ [⟨i, e.1, e.2, ret⟩] }
      | some ts => { s with idx := i, tasks := ts, log := s.log ++ [⟨i, e.1, e.2, ret⟩] }

/-- One round of the loop of `runner`. _pipeline.py:300-372. -/
def step (keyOk : Key → Bool) (s : State α) (r : Ret α) : State α :=
  match s.status with
  | .running =>
    match nextTask s with
    | none => { s with status := .done }
    | some i => match s.tasks[i]? with
      | some ⟨c, some t⟩ => handle keyOk s i c t (pipelineNext c t r)
      | _ => { s with status := .failed }
  | _ => s

/-- The run driven by a stream of what the hooks do. -/
def run (keyOk : Key → Bool) (cfgs : List Cfg) (ρ : Nat → Ret α) : Nat → State α
  | 0 => State.init cfgs
  | n + 1 => step keyOk (run keyOk cfgs ρ n) (ρ n)

end Verif.Pipe
