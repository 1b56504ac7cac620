import Verif.Pipe.Spec

/-!
# `Input` and `Output`, the ends of a pipeline in an interactive session

caput/pipeline/extensions/_pytools.py. The tasks are objects with a state of their own. A run of the manager
(`run`) is driven by an arbitrary stream of what the hooks do; `inputPlays` and `outputPlays` say that in the log of
the run one task has done what an `Input`, or an `Output`, does.
-/
namespace Verif.Pipe
variable {α : Type}

/-- What is given to `Input`: nothing, a list (or another container with a length), an iterator (always true), or a
numpy array with the truth value of each of its items. -/
inductive Given (α : Type) where
  | nothing
  | list (xs : List (Ret α))
  | iterator (xs : List (Ret α))
  | array (xs : List (Ret α × Bool))

/-- The state of an `Input`: `inputs` and `_iter`, the latter as what is left of it. -/
structure Input (α : Type) where
  inputs : List (Ret α)
  iter : Option (List (Ret α))

/-- `Input.__init__`: `inputs or []`. The truth value of an array with several items is a `ValueError` (`none`), of an
array with one item that of the item. _pytools.py:20-23. -/
def Input.make : Given α → Option (Input α)
  | .nothing => some ⟨[], none⟩
  | .list xs => some ⟨xs, none⟩
  | .iterator xs => some ⟨xs, none⟩
  | .array [] => some ⟨[], none⟩
  | .array [x] => if x.2 then some ⟨[x.1], none⟩ else some ⟨[], none⟩
  | .array _ => none

/-- `Input.next`: the iterator is made at the first call; at its end `PipelineStopIteration` is raised.
_pytools.py:25-38. -/
def Input.next (p : Input α) : Ret α × Input α :=
  match p.iter.getD p.inputs with
  | [] => (.stop, ⟨p.inputs, some []⟩)
  | x :: xs => (x, ⟨p.inputs, some xs⟩)

/-- A callback: its truth value as an object, and what it returns (`none`: it raises). -/
structure Callback (α : Type) where
  truthy : Bool
  call : Option α → Option (Option α)

/-- The state of an `Output`. _pytools.py:57-60. -/
structure Output (α : Type) where
  callback : Option (Callback α)
  outputs : List (Option α)

/-- `Output.next`. Anything but one argument is a `TypeError`. _pytools.py:62-71. -/
def Output.next (p : Output α) : List (Option α) → Ret α × Output α
  | [x] => match p.callback with
    | none => (.none, { p with outputs := p.outputs ++ [x] })
    | some f =>
      if f.truthy then
        match f.call x with
        | none => (.error, p)
        | some y => (.none, { p with outputs := p.outputs ++ [y] })
      else (.none, { p with outputs := p.outputs ++ [x] })
  | _ => (.error, p)

/-- Task `i` does what an `Input` does; `setup` and `finish` are those of `Task`, which return `None`.
_pipeline.py:771-793. -/
def inputPlays (i : Nat) : Input α → List (Event α) → Prop
  | _, [] => True
  | p, e :: es =>
    if e.task = i then
      match e.hook with
      | .next => e.ret = p.next.1 ∧ inputPlays i p.next.2 es
      | _ => e.ret = .none ∧ inputPlays i p es
    else inputPlays i p es

/-- Task `j` does what an `Output` does, and ends in the state given last. -/
def outputPlays (j : Nat) : Output α → List (Event α) → Output α → Prop
  | p, [], p' => p' = p
  | p, e :: es, p' =>
    if e.task = j then
      match e.hook with
      | .next => e.ret = (p.next e.args).1 ∧ outputPlays j (p.next e.args).2 es p'
      | _ => e.ret = .none ∧ outputPlays j p es p'
    else outputPlays j p es p'

/-! ## What the properties say -/

/-- An object that can be an item: anything but an exception. -/
def isItem : Ret α → Prop
  | .stop => False
  | .error => False
  | _ => True

/-- What the manager makes of an item that is passed on under one key: `None` is no product, and of a tuple only the
first entry is one. -/
def productOf : Ret α → List (Option α)
  | .obj p => [some p]
  | .lst w _ => [some w]
  | .tup l => l.take 1
  | _ => []

/-- What is left of the items of an `Input`. -/
def Input.rest (p : Input α) : List (Ret α) := p.iter.getD p.inputs

/-- What `Output` does to an item: the callback, if one was given. -/
def Output.apply (p : Output α) (x : Option α) : Option (Option α) :=
  match p.callback with
  | none => some x
  | some f => f.call x

/-- No callback, or one that is true as an object (as functions are). -/
def Output.plain (p : Output α) : Prop := ∀ f, p.callback = some f → f.truthy = true

end Verif.Pipe
