/-!
# Model of tasks with at most one input and one output, from and to files

Models `_OneAndOne`, `SingleBase` and `IterBase` (`caput/pipeline/extensions/_extensions.py:31-296`), and the
beginning of `GroupIOMixin.write_output` (351-357, 373-374).

What the user's methods do is a parameter. Effects are recorded: files read, calls of `process`, files
written; and which directories there are. Left out: logging; parents of directories that are made.
-/
namespace Verif.Iter

abbrev Str := List Char

inductive PyErr where
  | pipelineStop
  | configError
  | runtimeError
  | fileNotFound
  | nameError
  | user (n : Nat)
  deriving DecidableEq, Repr

/-- What `inspect.getfullargspec(self.process)` shows: the number of arguments with `self`, and whether there are
variable or optional ones. -/
structure Spec where
  args : Nat
  varargs : Bool
  varkw : Bool
  kwonly : Bool
  defaults : Bool

/-- Properties of a task; a root of `"None"` is `none`. -/
structure Cfg where
  inputRoot : Option Str
  outputRoot : Option Str
  inputExt : Str
  outputExt : Str
  middles : List Str
  inputFile : Str
  outputFile : Str

/-- The user's methods, and `os.path.expanduser`. `process` has a state; `none` is `None`. `truthy` is what
`if input:` makes of an input. -/
structure User (α β σ : Type) where
  read : Str → Except PyErr α
  process : σ → Option α → Except PyErr (σ × Option β)
  write : Str → β → Except PyErr Unit
  cast : α → α
  truthy : α → Bool
  expand : Str → Str

inductive Ev (α β : Type) where
  | read (f : Str) (x : α)
  | process (x : Option α) (y : Option β)
  | write (f : Str) (y : β)
  deriving DecidableEq, Repr

/-- The state of a task and what it has done. `done` is the attribute of `SingleBase`. -/
structure St (α β σ : Type) where
  user : σ
  iteration : Nat
  done : Bool
  trace : List (Ev α β)
  dirs : Str → Bool

variable {α β σ : Type}

/-- `posixpath.dirname`. -/
def dirname (p : Str) : Str :=
  let head := (p.reverse.dropWhile (· != '/')).reverse
  if head.all (· == '/') then head else (head.reverse.dropWhile (· == '/')).reverse

/-- Lines 56-103 `validate`. `nin` is the number of "in" keys. -/
def validate (c : Cfg) (s : Spec) (nin : Nat) : Except PyErr Unit :=
  let nargs := s.args - 1
  if 1 < nargs then .error .configError
  else if s.varargs || s.varkw || s.kwonly || s.defaults then .error .configError
  else
    match c.inputRoot with
    | none => if nin ≠ nargs then .error .configError else .ok ()
    | some _ =>
      if nin ≠ 0 then .error .configError
      else if nargs ≠ 1 then .error .configError
      else .ok ()

/-- Lines 41-48: `_no_input`. -/
def noInput (s : Spec) : Bool := s.args - 1 == 0

/-- Lines 107-117: the input is read. -/
def readIn (u : User α β σ) (c : Cfg) (no : Bool) (input : Option α) (fn : Option Str) (s : St α β σ) :
    Except PyErr (Option α × St α β σ) :=
  match input, no with
  | none, false =>
    match fn with
    | none => .error .runtimeError
    | some f =>
      let f := u.expand (c.inputRoot.getD "None".toList ++ f)
      match u.read f with
      | .error e => .error e
      | .ok x => .ok (some x, { s with trace := s.trace ++ [.read f x] })
  | x, _ => .ok (x, s)

/-- Lines 119-125: the input is processed. -/
def processIn (u : User α β σ) (no : Bool) (input : Option α) (s : St α β σ) : Except PyErr (Option β × St α β σ) :=
  if no && input.isSome then .error .runtimeError
  else
    match u.process s.user input with
    | .error e => .error e
    | .ok (t, y) => .ok (y, { s with user := t, trace := s.trace ++ [.process input y] })

/-- Lines 127-141: the output is written. -/
def writeOut (u : User α β σ) (c : Cfg) (fn : Option Str) (y : Option β) (s : St α β σ) : Except PyErr (St α β σ) :=
  match c.outputRoot, y with
  | some root, some out =>
    match fn with
    | none => .error .runtimeError
    | some f =>
      let f := u.expand (root ++ f)
      let d := dirname f
      if d ≠ [] ∧ s.dirs d = true then
        match u.write f out with
        | .error e => .error e
        | .ok _ => .ok { s with trace := s.trace ++ [.write f out] }
      else if d = [] then .error .fileNotFound
      else
        match u.write f out with
        | .error e => .error e
        | .ok _ => .ok { s with trace := s.trace ++ [.write f out], dirs := fun x => x == d || s.dirs x }
  | _, _ => .ok s

/-- Lines 105-142 `read_process_write`. -/
def readProcessWrite (u : User α β σ) (c : Cfg) (no : Bool) (input : Option α) (inFn outFn : Option Str) (s : St α β σ) :
    Except PyErr (Option β × St α β σ) :=
  match readIn u c no input inFn s with
  | .error e => .error e
  | .ok (x, s1) =>
    match processIn u no x s1 with
    | .error e => .error e
    | .ok (y, s2) =>
      match writeOut u c outFn y s2 with
      | .error e => .error e
      | .ok s3 => .ok (y, s3)

/-- Lines 218-219, 291-292: `if input: input = self.cast_input(input)`. -/
def castIn (u : User α β σ) : Option α → Option α
  | none => none
  | some x => if u.truthy x then some (u.cast x) else some x

/-- Lines 210-221 `SingleBase.next`. -/
def nextSingle (u : User α β σ) (c : Cfg) (no : Bool) (s : St α β σ) (input : Option α) :
    Except PyErr (Option β × St α β σ) :=
  if s.done then .error .pipelineStop
  else readProcessWrite u c no (castIn u input) (some c.inputFile) (some c.outputFile) { s with done := true }

/-- Lines 276-289: the names of the files of an iteration. -/
def fileNames (c : Cfg) (k : Nat) : Except PyErr (Option Str × Option Str) :=
  match c.middles[k]? with
  | none => if c.inputRoot.isSome then .error .pipelineStop else .ok (none, none)
  | some m => .ok (some (m ++ c.inputExt), some (m ++ c.outputExt))

/-- Lines 273-296 `IterBase.next`. -/
def nextIter (u : User α β σ) (c : Cfg) (no : Bool) (s : St α β σ) (input : Option α) :
    Except PyErr (Option β × St α β σ) :=
  match fileNames c s.iteration with
  | .error e => .error e
  | .ok (inFn, outFn) =>
    match readProcessWrite u c no (castIn u input) inFn outFn s with
    | .error e => .error e
    | .ok (y, t) => .ok (y, { t with iteration := t.iteration + 1 })

/-- Calls of `next`, one after the other. -/
def calls (next : St α β σ → Option α → Except PyErr (Option β × St α β σ)) :
    St α β σ → List (Option α) → Except PyErr (List (Option β) × St α β σ)
  | s, [] => .ok ([], s)
  | s, x :: xs =>
    match next s x with
    | .error e => .error e
    | .ok (y, t) =>
      match calls next t xs with
      | .error e => .error e
      | .ok (ys, r) => .ok (y :: ys, r)

/-- A task when it has been made. -/
def start (u : σ) (dirs : Str → Bool) : St α β σ := ⟨u, 0, false, [], dirs⟩

/-- Lines 351-374 `GroupIOMixin.write_output`, after the file format has been found. Directories are made first, if that
can be done: the empty name is not a directory (`os.path.isdir`) and cannot be made. Then `MemGroup` is looked up, which is
imported only for type checking (19-21) and so is not defined. -/
def groupWrite (f : Str) : Except PyErr Unit := if dirname f = [] then .error .fileNotFound else .error .nameError

end Verif.Iter
