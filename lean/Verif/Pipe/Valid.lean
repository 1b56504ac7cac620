import Mathlib.Data.List.Dedup
import Verif.Pipe.Model

/-!
# Model of the validation of the task list

Models `Manager._validate_task_inputs`, `_setup_tasks`, `add_task`, `_format_product_keys` and
`Task._setup_keys` of `caput/pipeline/_pipeline.py`.

Simplifications: the values of `in`, `out` and `requires` are scalars or flat lists of scalars as they
come from YAML (a nested list or mapping is unhashable and is not modelled); creating the task object
from `type` and `params` and the hook `validate` of the task are two outcomes per task that may be
anything (`build`, `userValidate`); `broadcast_inputs` is off.
-/
namespace Verif.Pipe

/-- A scalar: `None`, a string, or another scalar (number, bool, date). -/
inductive Atom where
  | null
  | str (s : Key)
  | other (n : Int)
deriving DecidableEq, Repr

/-- The value of `in`, `out` or `requires` in the specification of a task. -/
inductive Val where
  | absent
  | one (a : Atom)
  | many (l : List Atom)
deriving DecidableEq, Repr

/-- The arguments of a hook besides `self`: number, how many of them have defaults, `*args`. -/
structure Arity where
  args : Nat
  defaults : Nat
  varargs : Bool
deriving DecidableEq, Repr

/-- What can go wrong. -/
inductive SetupErr where
  | config
  | keyError
deriving DecidableEq, Repr

/-- An entry of the task list. -/
structure TaskSpec where
  hasType : Bool
  inp : Val
  out : Val
  req : Val
  setup : Arity
  next : Arity
  build : Option SetupErr
  userValidate : Bool
  limit : Option Int
  base : Int
deriving DecidableEq, Repr

/-- Lines 522-527: what a specification adds to `all_out_values`. -/
def outValues : Val → List Atom
  | .absent => []
  | .one a => [a]
  | .many l => l

/-- Lines 543-548: the values to check. -/
def inValues : Val → List Atom
  | .absent => []
  | .one .null => []
  | .one a => [a]
  | .many l => l

/-- Lines 529-537: `len(set(l)) != len(l)`. -/
def hasDuplicate (l : List Atom) : Bool := decide (l.dedup.length ≠ l.length)

/-- The loop over the specifications; the message of the error needs `type`. Lines 539-553. -/
def checkInputs (outs : List Atom) : List TaskSpec → Except SetupErr Unit
  | [] => .ok ()
  | t :: ts =>
    if (inValues t.inp ++ inValues t.req).all (fun v => decide (v ∈ outs)) then checkInputs outs ts
    else if t.hasType then .error .config else .error .keyError

/-- `_validate_task_inputs`. _pipeline.py:519-553. -/
def validateInputs (ts : List TaskSpec) : Except SetupErr Unit :=
  if hasDuplicate (ts.flatMap fun t => outValues t.out) then .error .config
  else checkInputs (ts.flatMap fun t => outValues t.out) ts

def asKey : Atom → Option Key
  | .str s => some s
  | _ => none

/-- `_format_product_keys`: the keys and whether the result is a tuple. _pipeline.py:691-714. -/
def formatKeys : Val → Option (List Key × Bool)
  | .absent => some ([], false)
  | .one .null => some ([], false)
  | .one a => (asKey a).map fun k => ([k], true)
  | .many l => (l.mapM asKey).map fun ks => (ks, false)

/-- The number of keys fits the arguments of the hook. _pipeline.py:965-989, 991-1014. -/
def arityOk (a : Arity) (n : Nat) : Bool :=
  !(decide ((n : Int) < (a.args : Int) - a.defaults)) && (decide (n ≤ a.args) || a.varargs)

/-- `_setup_keys`; `none` if it raises. _pipeline.py:942-1040. -/
def setupKeys (t : TaskSpec) : Option Cfg := do
  let req ← formatKeys t.req
  let inp ← formatKeys t.inp
  let out ← formatKeys t.out
  if !arityOk t.setup req.1.length then none
  else if !arityOk t.next inp.1.length then none
  else if !t.userValidate then none
  else some ⟨req.1, inp.1, out.1, out.2, t.limit, t.base⟩

/-- `_get_task_from_spec` and `add_task` for one specification. _pipeline.py:508-517, 677-683. -/
def addTask (t : TaskSpec) : Except SetupErr Cfg :=
  match t.build with
  | some e => .error e
  | none =>
    if t.hasType = false then .error .config
    else match setupKeys t with
      | none => .error .config
      | some c => .ok c

/-- The loop of `_setup_tasks`. _pipeline.py:508-517. -/
def addTasks : List TaskSpec → Except SetupErr (List Cfg)
  | [] => .ok []
  | t :: ts => match addTask t with
    | .error e => .error e
    | .ok c => match addTasks ts with
      | .error e => .error e
      | .ok cs => .ok (c :: cs)

/-- `_setup_tasks`. _pipeline.py:502-517. -/
def setupTasks (ts : List TaskSpec) : Except SetupErr (List Cfg) :=
  match validateInputs ts with
  | .error e => .error e
  | .ok () => addTasks ts

/-- The hooks called by `Manager.from_yaml_str(...).run()` in `n` rounds.
_pipeline.py:213-225, 251-266. -/
def launch {α : Type} (keyOk : Key → Bool) (ts : List TaskSpec) (ρ : Nat → Ret α) (n : Nat) :
    Except SetupErr (List (Event α)) :=
  match setupTasks ts with
  | .error e => .error e
  | .ok cfgs => .ok (run keyOk cfgs ρ n).log

end Verif.Pipe
