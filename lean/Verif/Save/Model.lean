/-!
# Model of the handling of outputs by container tasks

Models `ContainerTask.next`, `finish`, `_process_output`, `_nan_process_output`, `_save_output` and
`_interpolation_dict` (`caput/pipeline/tasklib/base.py:334-559`).

Simplifications: format strings are given as literal pieces and plain named fields; attributes are a function from
names (values: strings, numbers, lists of strings); each output of a call is an object of its own; the check for NaNs
(modelled in `Tasks/Nan.lean`) is a property of the container; writing a file succeeds and is recorded; options for
compression and the history are left out.
-/
namespace Verif.Save

abbrev Str := List Char

inductive PyErr where
  | keyError
  | indexError
  | typeError
  | attributeError
  | runtimeError
  | pipelineError
  | stop
  | user (n : Nat)
  deriving DecidableEq, Repr

/-- The value of an attribute. -/
inductive AVal where
  | str (s : Str)
  | num (z : Int)
  | strs (l : List Str)
  deriving DecidableEq, Repr

/-- A piece of a format string: literal text or `{name}`. -/
inductive Piece where
  | lit (s : Str)
  | field (name : Str)
  deriving DecidableEq, Repr

/-- `str` of numbers and of lists of strings, and `os.path.expanduser` with `os.path.expandvars`. -/
structure Env where
  num : Int → Str
  strs : List Str → Str
  expand : Str → Str

/-- `str(value)`. -/
def Env.show (E : Env) : AVal → Str
  | .str s => s
  | .num z => E.num z
  | .strs l => E.strs l

abbrev Dict := Str → Option AVal

def Dict.put (d : Dict) (k : Str) (v : AVal) : Dict := fun a => if a = k then some v else d a

/-- A container: its attributes, whether there is a NaN or an infinity in it, and the rest. -/
structure Cont (δ : Type) where
  attrs : Dict
  bad : Bool
  data : δ

/-- Something a task is given or gives: a container or something else. -/
inductive Item (δ : Type) where
  | cont (c : Cont δ)
  | other

/-- What `process` gives: `None`, one object, a tuple. -/
inductive Out (δ : Type) where
  | none
  | one (i : Item δ)
  | many (l : List (Item δ))

/-- A parameter that is one value or a list of values, one for each output. -/
inductive OneOrList (κ : Type) where
  | one (v : κ)
  | list (l : List κ)

/-- `self.save[ii] if isinstance(self.save, list) else self.save` (488-491, 505-508). -/
def OneOrList.at {κ : Type} (p : OneOrList κ) (ii : Nat) : Except PyErr κ :=
  match p with
  | .one v => .ok v
  | .list l => match l[ii]? with
    | some v => .ok v
    | none => .error .indexError

/-- The value of an entry of the parameter `attrs`: a format string, or something that is not a string. -/
inductive CVal where
  | fmt (l : List Piece)
  | val (v : AVal)

/-- The parameters of a task (284-312), the name of its class, and its output keys. -/
structure Cfg where
  save : OneOrList Bool
  outputRoot : Str
  outputName : OneOrList (List Piece)
  nanCheck : Bool
  nanSkip : Bool
  nanDump : Bool
  tag : List Piece
  attrs : List (Str × CVal)
  task : Str
  outKeys : Option (List Str)
  noInput : Bool

/-- Files written. -/
inductive Ev (δ : Type) where
  | dump (file : Str) (c : Cont δ)
  | save (file : Str) (c : Cont δ)

variable {δ σ : Type}

/-- `str.format`. A field that is missing raises `KeyError`. -/
def format (E : Env) (d : Dict) : List Piece → Except PyErr Str
  | [] => .ok []
  | .lit s :: l =>
    match format E d l with
    | .error e => .error e
    | .ok r => .ok (s ++ r)
  | .field n :: l =>
    match d n with
    | none => .error .keyError
    | some v =>
      match format E d l with
      | .error e => .error e
      | .ok r => .ok (E.show v ++ r)

/-- Lines 540-546: the tag. -/
def tagOf (count : Nat) (d : Dict) : Except PyErr AVal :=
  match d "tag".toList with
  | some v => .ok v
  | none =>
    match d "input_tags".toList with
    | none => .ok (.num count)
    | some (.strs []) => .ok (.num count)
    | some (.strs (t :: _)) => .ok (.str t)
    | some (.str []) => .ok (.num count)
    | some (.str (ch :: _)) => .ok (.str [ch])
    | some (.num _) => .error .typeError

/-- Lines 552-556: the key of an output. -/
def keyOf (c : Cfg) (ii : Nat) : Except PyErr Str :=
  match c.outKeys with
  | none => .ok []
  | some [] => .ok []
  | some (k :: l) => match (k :: l)[ii]? with
    | some k => .ok k
    | none => .error .indexError

/-- Lines 537-559 `_interpolation_dict`. -/
def interp (c : Cfg) (count : Nat) (d : Dict) (ii : Nat) : Except PyErr Dict :=
  match tagOf count d with
  | .error e => .error e
  | .ok tag =>
    match keyOf c ii with
    | .error e => .error e
    | .ok key => .ok (((((d.put "tag".toList tag).put "count".toList (.num count)).put "task".toList (.str c.task)).put
        "key".toList (.str key)).put "output_root".toList (.str c.outputRoot))

/-- Lines 428-433: an attribute is set. -/
def setAttr (E : Env) (idict : Dict) (d : Dict) (nv : Str × CVal) : Except PyErr Dict :=
  match nv.2 with
  | .val v => .ok (d.put nv.1 v)
  | .fmt l =>
    match format E idict l with
    | .error e => .error e
    | .ok s => .ok (d.put nv.1 (.str s))

def setAttrs (E : Env) (idict : Dict) : Dict → List (Str × CVal) → Except PyErr Dict
  | d, [] => .ok d
  | d, nv :: l =>
    match setAttr E idict d nv with
    | .error e => .error e
    | .ok d' => setAttrs E idict d' l

/-- Lines 426-427: `attrs_to_set["tag"] = self.tag`. -/
def attrsToSet (c : Cfg) : List (Str × CVal) :=
  if c.attrs.any (·.1 == "tag".toList) then c.attrs.map fun nv => if nv.1 == "tag".toList then (nv.1, .fmt c.tag) else nv
  else c.attrs ++ [("tag".toList, .fmt c.tag)]

/-- Lines 513-535 `_nan_process_output`: what is passed on, and the dump. -/
def nanOutput (E : Env) (c : Cfg) (count : Nat) (x : Cont δ) : Option (Cont δ) × List (Ev δ) :=
  let found := c.nanCheck && x.bad
  let tag := match x.attrs "tag".toList with
    | some v => v
    | none => .num count
  let evs := if found && c.nanDump then
    [Ev.dump ("nandump_".toList ++ c.task ++ "_".toList ++ E.show tag ++ ".h5".toList) x] else []
  (if found && c.nanSkip then none else some x, evs)

/-- Lines 487-526: the writing part of `_save_output`. -/
def saveOutput (E : Env) (c : Cfg) (count ii : Nat) (x : Cont δ) : Except PyErr (List (Ev δ)) :=
  match c.save.at ii with
  | .error e => .error e
  | .ok false => .ok []
  | .ok true =>
    match interp c count x.attrs ii with
    | .error e => .error e
    | .ok d =>
      let d := if c.outputRoot ≠ [] then d.put "output_root".toList (.str c.outputRoot) else d
      match c.outputName.at ii with
      | .error e => .error e
      | .ok name =>
        match format E d name with
        | .error e => .error e
        | .ok f => .ok [.save (E.expand f) x]

/-- Lines 413-441 `_process_output`. -/
def processOutput (E : Env) (c : Cfg) (count ii : Nat) (i : Item δ) : Except PyErr (Option (Cont δ) × List (Ev δ)) :=
  match i with
  | .other => .error .pipelineError
  | .cont x =>
    match interp c count x.attrs ii with
    | .error e => .error e
    | .ok idict =>
      match setAttrs E idict x.attrs (attrsToSet c) with
      | .error e => .error e
      | .ok attrs =>
        match nanOutput E c count { x with attrs := attrs } with
        | (none, evs) => .ok (none, evs)
        | (some y, evs) =>
          match saveOutput E c count ii y with
          | .error e => .error e
          | .ok evs' => .ok (some y, evs ++ evs')

/-- Lines 379, 406: the outputs one after the other. -/
def processOutputs (E : Env) (c : Cfg) (count : Nat) : Nat → List (Item δ) → Except PyErr (List (Option (Cont δ)) × List (Ev δ))
  | _, [] => .ok ([], [])
  | ii, i :: l =>
    match processOutput E c count ii i with
    | .error e => .error e
    | .ok (y, evs) =>
      match processOutputs E c count (ii + 1) l with
      | .error e => .error e
      | .ok (ys, evs') => .ok (y :: ys, evs ++ evs')

/-- Lines 375-376: the tags of the inputs are put into an output. -/
def putTags (tags : List Str) : Item δ → Except PyErr (Item δ)
  | .other => .error .attributeError
  | .cont x => .ok (.cont { x with attrs := x.attrs.put "input_tags".toList (.strs tags) })

def putTagsAll (tags : List Str) : List (Item δ) → Except PyErr (List (Item δ))
  | [] => .ok []
  | i :: l =>
    match putTags tags i with
    | .error e => .error e
    | .ok j =>
      match putTagsAll tags l with
      | .error e => .error e
      | .ok r => .ok (j :: r)

/-- Lines 351-354: the tag of an input. -/
def inputTag (E : Env) : Item δ → Str
  | .other => []
  | .cont x => match x.attrs "tag".toList with
    | some v => E.show v
    | none => "None".toList

/-- The hooks of the user. -/
structure User (δ σ : Type) where
  process : σ → List (Item δ) → Except PyErr (σ × Out δ)
  finish : Option (σ → Except PyErr (σ × Out δ))

structure St (δ σ : Type) where
  user : σ
  count : Nat
  trace : List (Ev δ)

/-- What `next` gives to the pipeline. -/
inductive Ret (δ : Type) where
  | none
  | one (c : Option (Cont δ))
  | many (l : List (Option (Cont δ)))

/-- Line 388: `output if len(output) > 1 else output[0]`. -/
def wrap : List (Option (Cont δ)) → Except PyErr (Ret δ)
  | [] => .error .indexError
  | [x] => .ok (.one x)
  | l => .ok (.many l)

/-- Lines 371-372: the outputs as a tuple; `none` is no output. -/
def Out.items : Out δ → Option (List (Item δ))
  | .none => Option.none
  | .one i => some [i]
  | .many l => some l

/-- Lines 334-388 `next`. -/
def next (E : Env) (c : Cfg) (u : User δ σ) (s : St δ σ) (inputs : List (Item δ)) : Except PyErr (Ret δ × St δ σ) :=
  let tags := inputs.map (inputTag E)
  if c.noInput && inputs.length != 0 then .error .runtimeError
  else
    match u.process s.user inputs with
    | .error e => .error e
    | .ok (t, out) =>
      match out.items with
      | none => .ok (.none, { s with user := t })
      | some l =>
        match putTagsAll tags l with
        | .error e => .error e
        | .ok l' =>
          match processOutputs E c s.count 0 l' with
          | .error e => .error e
          | .ok (ys, evs) =>
            match wrap ys with
            | .error e => .error e
            | .ok r => .ok (r, { user := t, count := s.count + 1, trace := s.trace ++ evs })

/-- Lines 390-411 `finish`. -/
def finish (E : Env) (c : Cfg) (u : User δ σ) (s : St δ σ) : Except PyErr (Ret δ × St δ σ) :=
  match u.finish with
  | none => .ok (.none, s)
  | some f =>
    match f s.user with
    | .error e => .error e
    | .ok (t, out) =>
      match out.items with
      | none => .ok (.none, { s with user := t })
      | some l =>
        match processOutputs E c s.count 0 l with
        | .error e => .error e
        | .ok (ys, evs) =>
          match wrap ys with
          | .error e => .error e
          | .ok r => .ok (r, { s with user := t, trace := s.trace ++ evs })

/-- Calls of `next`, one after the other. -/
def calls (E : Env) (c : Cfg) (u : User δ σ) : St δ σ → List (List (Item δ)) → Except PyErr (List (Ret δ) × St δ σ)
  | s, [] => .ok ([], s)
  | s, x :: xs =>
    match next E c u s x with
    | .error e => .error e
    | .ok (y, t) =>
      match calls E c u t xs with
      | .error e => .error e
      | .ok (ys, r) => .ok (y :: ys, r)

end Verif.Save
