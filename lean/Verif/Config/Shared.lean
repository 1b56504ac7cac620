import Mathlib.Tactic.Common

/-!
# Model of property objects with their state and of the values they hold

Models `caput/config.py:90-181` (`Property`: `__init__`, `__get__`, `__set__`, `_from_config`, `_set_propname`) and `:233-265`
(the loop of `Reader.read_config`) for any number of classes, objects and calls, with what these share: property objects, which
remember a name and a key, and values, which are numbered cells.

A conversion (`proptype`) checks its argument and returns it (no `proptype`, `enum`, `list_type`), or makes a new value (`int`,
`float`, `str`, `list`, `dict`, `logging_config`). What it says about a value is arbitrary.

Simplifications: all exceptions of a conversion are one. Classes have no other attributes with the names of properties. Deprecation
warnings are left out, and so are the checks at the end of `read_config` (C26).
-/
namespace Verif.Config.Shared

variable {V : Type}

/-- What a `proptype` does. -/
inductive Conv (V : Type) where
  | same (ok : V → Bool)
  | make (f : V → Option V)

/-- A `Property` (lines 90-102). `key` and `name` are changed by use. -/
structure PropObj (V : Type) where
  conv : Conv V
  default : Option Nat
  key : Option String
  name : Option String

/-- An object: its class and its `__dict__`. -/
structure Ob where
  cls : Nat
  dict : String → Option Nat

/-- The classes: `own c` are the properties in the `__dict__` of class `c`, by number, and `mro c` its classes, the class itself
last (the code reverses the order). -/
structure Classes where
  own : Nat → List (String × Nat)
  mro : Nat → List Nat

/-- Everything that changes. -/
structure World (V : Type) where
  props : List (PropObj V)
  objs : List Ob
  cells : List V

/-- Exceptions. -/
inductive Err where
  | attributeError
  | refused
  | noSuchThing
  deriving DecidableEq, Repr

/-- The properties of a class and its bases, in the order in which the code goes through them. -/
def Classes.all (K : Classes) (c : Nat) : List (String × Nat) := (K.mro c).flatMap K.own

/-- Python's lookup of an attribute: the most derived class that has it. -/
def Classes.lookup (K : Classes) (c : Nat) (a : String) : Option Nat :=
  ((K.all c).filter fun x => decide (x.1 = a)).getLast?.map (·.2)

/-- Lines 169-181 `_set_propname`: the last name found is kept. -/
def nameFor (K : Classes) (c p : Nat) (old : Option String) : Option String :=
  match old with
  | some n => some n
  | none => ((K.all c).filter fun x => decide (x.2 = p)).getLast?.map (·.1)

/-- `proptype(value)`. -/
def convert (cells : List V) (cv : Conv V) (r : Nat) : Except Err (List V × Nat) :=
  match cells[r]? with
  | none => .error .noSuchThing
  | some v =>
    match cv with
    | .same ok => if ok v then .ok (cells, r) else .error .refused
    | .make f =>
      match f v with
      | none => .error .refused
      | some v' => .ok (cells ++ [v'], cells.length)

/-- `obj.__dict__[name] = r`. -/
def Ob.put (o : Ob) (n : String) (r : Nat) : Ob := { o with dict := fun m => if m = n then some r else o.dict m }

/-- Lines 104-118 `__get__`: the number of the value, or `None`. -/
def get (K : Classes) (w : World V) (i : Nat) (a : String) : World V × Except Err (Option Nat) :=
  match w.objs[i]? with
  | none => (w, .error .noSuchThing)
  | some o =>
    match K.lookup o.cls a with
    | none => (w, .error .attributeError)
    | some p =>
      match w.props[p]? with
      | none => (w, .error .noSuchThing)
      | some d =>
        let w' := { w with props := w.props.set p { d with name := nameFor K o.cls p d.name } }
        match nameFor K o.cls p d.name with
        | none => (w', .error .noSuchThing)
        | some n =>
          match o.dict n with
          | some r => (w', .ok (some r))
          | none =>
            match d.default with
            | none => (w', .ok none)
            | some r =>
              match convert w.cells d.conv r with
              | .error e => (w', .error e)
              | .ok (cells, r') => ({ w' with cells := cells }, .ok (some r'))

/-- Lines 120-131 `__set__`. -/
def set (K : Classes) (w : World V) (i : Nat) (a : String) (r : Nat) : World V × Option Err :=
  match w.objs[i]? with
  | none => (w, some .noSuchThing)
  | some o =>
    match K.lookup o.cls a with
    | none => (w, some .attributeError)
    | some p =>
      match w.props[p]? with
      | none => (w, some .noSuchThing)
      | some d =>
        let w' := { w with props := w.props.set p { d with name := nameFor K o.cls p d.name } }
        match nameFor K o.cls p d.name with
        | none => (w', some .noSuchThing)
        | some n =>
          match convert w.cells d.conv r with
          | .error e => (w', some e)
          | .ok (cells, r') => ({ w' with cells := cells, objs := w.objs.set i (o.put n r') }, none)

/-- Lines 133-167 `_from_config`: the key is remembered (153-154). -/
def fromConfig (K : Classes) (cfg : String → Option Nat) (i : Nat) (w : World V) (p : Nat) : World V × Option Err :=
  match w.objs[i]? with
  | none => (w, some .noSuchThing)
  | some o =>
    match w.props[p]? with
    | none => (w, some .noSuchThing)
    | some d =>
      match nameFor K o.cls p d.name with
      | none => (w, some .noSuchThing)
      | some n =>
        let w' := { w with props := w.props.set p { d with name := some n, key := some (d.key.getD n) } }
        match cfg (d.key.getD n) with
        | none => (w', none)
        | some r =>
          match convert w.cells d.conv r with
          | .error e => (w', some e)
          | .ok (cells, r') => ({ w' with cells := cells, objs := w.objs.set i (o.put n r') }, none)

/-- Lines 259-264: the loop of `read_config`; an exception ends it. -/
def readLoop (K : Classes) (cfg : String → Option Nat) (i : Nat) : World V → List Nat → World V × Option Err
  | w, [] => (w, none)
  | w, p :: ps =>
    match fromConfig K cfg i w p with
    | (w', some e) => (w', some e)
    | (w', none) => readLoop K cfg i w' ps

/-- `read_config`. -/
def readConfig (K : Classes) (w : World V) (i : Nat) (cfg : String → Option Nat) : World V × Option Err :=
  match w.objs[i]? with
  | none => (w, some .noSuchThing)
  | some o => readLoop K cfg i w ((K.all o.cls).map (·.2))

/-- What a program does: make values and objects, change a value in place, and use properties. -/
inductive Op (V : Type) where
  | value (v : V)
  | change (r : Nat) (v : V)
  | object (c : Nat)
  | get (i : Nat) (a : String)
  | set (i : Nat) (a : String) (r : Nat)
  | config (i : Nat) (cfg : String → Option Nat)

/-- What it sees. -/
inductive Seen where
  | done
  | failed (e : Err)
  | got (r : Option Nat)
  deriving DecidableEq, Repr

/-- One operation. -/
def step (K : Classes) (w : World V) : Op V → World V × Seen
  | .value v => ({ w with cells := w.cells ++ [v] }, .got (some w.cells.length))
  | .change r v => ({ w with cells := w.cells.set r v }, .done)
  | .object c => ({ w with objs := w.objs ++ [⟨c, fun _ => none⟩] }, .done)
  | .get i a =>
    match get K w i a with
    | (w', .ok r) => (w', .got r)
    | (w', .error e) => (w', .failed e)
  | .set i a r =>
    match set K w i a r with
    | (w', none) => (w', .done)
    | (w', some e) => (w', .failed e)
  | .config i cfg =>
    match readConfig K w i cfg with
    | (w', none) => (w', .done)
    | (w', some e) => (w', .failed e)

/-- Many operations. -/
def run (K : Classes) (w : World V) : List (Op V) → World V
  | [] => w
  | op :: ops => run K (step K w op).1 ops

end Verif.Config.Shared
