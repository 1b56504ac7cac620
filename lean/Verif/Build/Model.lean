import Verif.Config.Model

/-!
# Model of building a pipeline from a configuration

Models of `caput/pipeline/_pipeline.py`: `_get_versions` (42-77), `Manager.__init__`, `from_yaml_str` and `_setup_logging` (140-249), `_setup_tasks` and `_get_task_from_spec`
(502-633), `Task._from_config` (932-940); `caput/util/importtools.py` (12-35); `caput/pipeline/runner/_core.py`: `_load_venv` (164-199).

Reading properties from a mapping is `Verif.Config` (C26). A document is what the YAML loader gives: a value, with the lines of the entries of the task list. Keys of mappings are strings.

Left out: an entry of the task list that is not a mapping; `__init__` of tasks; lines of errors in the options of the pipeline. The validation of the task list and adding a task to the
pipeline are parameters (C25).
-/
namespace Verif.Build

open Verif.Config (Val Cfg Class Obj Decl Compare readConfig getAttr truth)

/-- Exceptions. A configuration error may tell the line of a block. -/
inductive Err where
  | config (line : Option Nat)
  | keyError
  | typeError
  | attributeError
  | valueError
  | importError
  | exit
  deriving DecidableEq, Repr

/-- An exception from reading properties. -/
def lift (line : Option Nat) : Config.Err → Err
  | .configError => .config line
  | .typeError => .typeError
  | .valueError => .valueError
  | .attributeError => .attributeError

/-- What a name stands for: a class of tasks, with its classes base first; or something without `_from_config`. -/
inductive Thing where
  | task (name : String) (classes : List Class)
  | other

/-- Importing a module fails because there is none, or with another `ImportError`. -/
inductive ModErr where
  | notFound
  | failed
  deriving DecidableEq

/-- An entry of the task list, with the line that the mapping carries if it is one with a line, and that of its parameters if they are a mapping. -/
structure Spec where
  line : Option Nat
  entries : Cfg
  paramsLine : Option Nat

/-- A task. -/
structure Task where
  name : String
  classes : List Class
  obj : Obj

/-- The world: local tasks; names in the module `importtools`; modules with their attributes; what `dict.update` makes of a list; validation of the task list (C25), and of a task that is
added (C25); versions of modules, which may have none; `str.upper`, `str`. -/
structure World where
  locals : String → Option Thing
  globals : String → Option Thing
  module : String → Except ModErr (String → Option Thing)
  update : List Val → Except Err Cfg
  valid : List Spec → Option Err
  add : Task → Spec → Bool
  version : String → Except ModErr (Option String)
  upper : String → String
  str : Val → String

/-! ### Classes -/

/-- `s.split(".")`. -/
def splitDots : List Char → List (List Char)
  | [] => [[]]
  | c :: s =>
    if c = '.' then [] :: splitDots s
    else
      match splitDots s with
      | [] => [[c]]
      | w :: ws => (c :: w) :: ws

/-- `".".join(l)`. -/
def joinDots : List (List Char) → List Char
  | [] => []
  | [w] => w
  | w :: ws => w ++ '.' :: joinDots ws

inductive FindErr where
  | module (e : ModErr)
  | attributeError
  | keyError

/-- importtools.py:12-35 `import_class`. -/
def importClass (W : World) (path : String) : Except FindErr Thing :=
  let parts := splitDots path.toList
  let modulePath := String.ofList (joinDots parts.dropLast)
  let className := String.ofList (parts.getLastD [])
  if modulePath ≠ "" then
    match W.module modulePath with
    | .error e => .error (.module e)
    | .ok attrs =>
      match attrs className with
      | none => .error .attributeError
      | some t => .ok t
  else
    match W.globals className with
    | none => .error .keyError
    | some t => .ok t

/-- _pipeline.py:582-594: only some exceptions become configuration errors. A value that is not a string has no method `split`; a list or a mapping cannot be looked up. -/
def findClass (W : World) (v : Val) : Except Err Thing :=
  match v with
  | .str s =>
    match W.locals s with
    | some t => .ok t
    | none =>
      match importClass W s with
      | .ok t => .ok t
      | .error (.module .notFound) => .error (.config none)
      | .error (.module .failed) => .error .importError
      | .error .attributeError => .error (.config none)
      | .error .keyError => .error .keyError
  | .list _ => .error .typeError
  | .dict _ => .error .typeError
  | _ => .error (.config none)

/-! ### Parameters -/

/-- `old.update(new)`. -/
def merge (new old : Cfg) : Cfg := new ++ old.filter fun kv => !(new.map Prod.fst).contains kv.1

/-- What `params.update` makes of a group. -/
def groupOf (W : World) (g : Val) : Except Err Cfg :=
  match g with
  | .dict d => .ok d
  | .list l => W.update l
  | .tuple l => W.update l
  | .str s => if s = "" then .ok [] else .error .valueError
  | _ => .error .typeError

/-- _pipeline.py:612-618: the loop over the names of groups. -/
def addGroups (W : World) (doc : Cfg) : List Val → Cfg → Except Err Cfg
  | [], params => .ok params
  | .str k :: ks, params =>
    match doc.lookup k with
    | none => .error (.config none)
    | some g =>
      match groupOf W g with
      | .error e => .error e
      | .ok d => addGroups W doc ks (merge d params)
  | .list _ :: _, _ => .error .typeError
  | .dict _ :: _, _ => .error .typeError
  | _ :: _, _ => .error (.config none)

/-- _pipeline.py:597-618. -/
def paramsOf (W : World) (doc : Cfg) (s : Spec) : Except Err Cfg :=
  match s.entries.lookup "params" with
  | none => .ok []
  | some (.dict d) => .ok (merge d [])
  | some (.list l) => addGroups W doc l []
  | some v => addGroups W doc [v] []

/-- _pipeline.py:630: where the line comes from, `task_spec.get("params", task_spec)`. -/
def paramsLocation (s : Spec) : Option Nat :=
  match s.entries.lookup "params" with
  | none => s.line
  | some (.dict _) => s.paramsLine
  | some _ => none

def allowedKeys : List String := ["type", "params", "requires", "in", "out"]

/-- _pipeline.py:555-633 `_get_task_from_spec`, with `Task._from_config` (932-940). `doc` is the whole document and `base` what all tasks are given. -/
def getTask (W : World) (doc base : Cfg) (s : Spec) : Except Err Task :=
  if s.entries.any (fun kv => !allowedKeys.contains kv.1) then .error (.config none)
  else
    match s.entries.lookup "type" with
    | none => .error (.config none)
    | some v =>
      match findClass W v with
      | .error e => .error e
      | .ok thing =>
        match paramsOf W doc s with
        | .error e => .error e
        | .ok params =>
          match thing with
          | .other => .error .attributeError
          | .task name classes =>
            let r := readConfig classes (fun _ => none) (merge params base) (.tolerate ["versions", "pipeline_config"]) true
            match r.2 with
            | none => .ok ⟨name, classes, r.1⟩
            | some e => .error (lift (paramsLocation s) e)

/-- _pipeline.py:512-517: the new error has the line of the entry if the old one has none; otherwise the line itself is passed on as the location, where a block is expected, and lost. -/
def relocate (s : Spec) : Err → Err
  | .config none => .config s.line
  | .config (some _) => .config none
  | e => e

/-- _pipeline.py:507-517. -/
def buildAll (W : World) (doc base : Cfg) : List Spec → Except Err (List Task)
  | [] => .ok []
  | s :: ss =>
    match getTask W doc base s with
    | .error e => .error (relocate s e)
    | .ok t =>
      if W.add t s then
        match buildAll W doc base ss with
        | .error e => .error e
        | .ok ts => .ok (t :: ts)
      else .error (relocate s (.config none))

/-! ### The document -/

/-- `list(v)`. -/
def pyList : Val → Except Config.Err Val
  | .list l => .ok (.list l)
  | .tuple l => .ok (.list l)
  | .dict d => .ok (.list (d.map fun kv => .str kv.1))
  | .str s => .ok (.list (s.toList.map fun c => .str (String.ofList [c])))
  | _ => .error .typeError

/-- _pipeline.py:62-75: one module after the other. A module without `__version__` is an `AttributeError`; another `ImportError` is not told apart from it here. -/
def versionsOf (W : World) : List Val → Except Config.Err Cfg
  | [] => .ok []
  | .str m :: ms =>
    match W.version m with
    | .error .notFound => .error .configError
    | .error .failed => .error .attributeError
    | .ok none => .error .attributeError
    | .ok (some v) =>
      match versionsOf W ms with
      | .error e => .error e
      | .ok l => .ok (merge l [(m, .str v)])
  | _ :: _ => .error .configError

/-- _pipeline.py:42-77 `_get_versions`. -/
def getVersions (W : World) (v : Val) : Except Config.Err Val :=
  match v with
  | .str m => (versionsOf W [.str m]).map .dict
  | .list l => (versionsOf W l).map .dict
  | _ => .error .configError

def defaultPattern : String := "[^\\W_]"

/-- _pipeline.py:127-138: the properties of the manager. -/
def managerClass (W : World) : Class :=
  [("logging", { conv := Config.loggingConv W.upper, default := some (.dict [("root", .str "WARNING")]) }),
   ("task_specs", { key := some "tasks", conv := pyList, default := some (.list []) }),
   ("key_pattern", { conv := fun v => .ok (.str (W.str v)), default := some (.str defaultPattern) }),
   ("interactive", { conv := fun v => .ok (.bool (truth v)), default := some (.bool false) }),
   ("enable_breakpoints", { conv := fun v => .ok (.bool (truth v)), default := some (.bool false) }),
   ("versions", { key := some "save_versions", conv := getVersions W, default := some (.list []) }),
   ("save_config", { conv := fun v => .ok (.bool (truth v)), default := some (.bool true) })]

/-- The value of an option of the manager. -/
def option (W : World) (o : Obj) (a : String) : Except Config.Err Val :=
  match getAttr [managerClass W] o a with
  | none => .error .attributeError
  | some r => r

/-- _pipeline.py:227-249 `_setup_logging`: modules and the levels they are set to. An option that was not in the configuration is made anew each time it is asked for (config.py:104-118), so
what is put into it on line 242 is lost. All levels that pass `logging_config` are names of levels. -/
def setLevels (W : World) (lint : Bool) (o : Obj) : Except Config.Err Cfg :=
  match option W o "logging" with
  | .ok (.dict l) =>
    if lint || !(l.map Prod.fst).contains "root" then
      match o "logging" with
      | some _ => .ok (merge [("root", .str "INFO")] l)
      | none => .ok l
    else .ok l
  | .ok _ => .error .typeError
  | .error e => .error e

/-- A document, and the lines that the entries of its task list and their parameters carry. -/
structure Doc where
  val : Val
  lines : Nat → Option Nat × Option Nat

/-- The entries of the task list from number `i` on. -/
def specsOf (lines : Nat → Option Nat × Option Nat) : Nat → List Val → Except Err (List Spec)
  | _, [] => .ok []
  | i, .dict d :: vs =>
    match specsOf lines (i + 1) vs with
    | .error e => .error e
    | .ok ss => .ok (⟨(lines i).1, d, (lines i).2⟩ :: ss)
  | _, _ :: _ => .error .typeError

/-- A manager: its options, the pattern that keys are compared with, levels of logging, what all tasks are given, and the tasks. -/
structure Manager where
  obj : Obj
  keyMatch : String
  levels : Cfg
  base : Cfg
  tasks : List Task

/-- _pipeline.py:502-517 `_setup_tasks`. -/
def setupTasks (W : World) (doc base : Cfg) (ss : List Spec) : Except Err (List Task) :=
  match W.valid ss with
  | some e => .error e
  | none => buildAll W doc base ss

/-- _pipeline.py:216-223. -/
def finishManager (W : World) (lint : Bool) (doc : Doc) (d : Cfg) (o : Obj) : Except Err Manager :=
  match option W o "versions", option W o "save_config", setLevels W lint o, option W o "task_specs" with
  | .ok vs, .ok save, .ok levels, .ok (.list specs) =>
    let base : Cfg := [("versions", vs), ("pipeline_config", if truth save then doc.val else .none)]
    match specsOf doc.lines 0 specs with
    | .error e => .error e
    | .ok ss =>
      match setupTasks W d base ss with
      | .error e => .error e
      | .ok ts => .ok ⟨o, defaultPattern, levels, base, ts⟩
  | .error e, _, _, _ => .error (lift none e)
  | _, .error e, _, _ => .error (lift none e)
  | _, _, .error e, _ => .error (lift none e)
  | _, _, _, _ => .error .typeError

/-- _pipeline.py:179-225 `from_yaml_str`. The object is made first (`__init__`, 140-150, compiles the pattern) and reads its configuration afterwards (config.py:228-229). A document
that is no mapping cannot be indexed with a string; the `TypeError` is reported as a configuration error (207-211). -/
def fromYaml (W : World) (lint : Bool) (doc : Doc) : Except Err Manager :=
  match doc.val with
  | .dict d =>
    match d.lookup "pipeline" with
    | none => .error .keyError
    | some (.dict p) =>
      let r := readConfig [managerClass W] (fun _ => none) p
      match r.2 with
      | some e => .error (lift none e)
      | none => finishManager W lint doc d r.1
    | some _ => .error (.config none)
  | _ => .error (.config none)

/-! ### The virtual environment -/

/-- A version of Python. -/
structure Python where
  major : Nat
  minor : Nat
  micro : Nat
  rest : List Char

/-- `sys.version`. -/
def Python.version (v : Python) : List Char :=
  Nat.toDigits 10 v.major ++ '.' :: (Nat.toDigits 10 v.minor ++ '.' :: (Nat.toDigits 10 v.micro ++ v.rest))

/-- _core.py:185: the directory of packages. -/
def sitePackages (v : Python) (base : List Char) : List Char :=
  base ++ "/lib/python".toList ++ v.version.take 3 ++ "/site-packages".toList

/-- _core.py:192-199: one pass over a copy of the path. `now` is the path, `new` what was moved. -/
def moveNew (prev : List String) : List String → List String → List String → List String × List String
  | [], now, new => (now, new)
  | x :: l, now, new => if x ∈ prev then moveNew prev l now new else moveNew prev l (now.erase x) (new ++ [x])

/-- The path afterwards. -/
def newFirst (prev now : List String) : List String :=
  let r := moveNew prev now now []
  r.2 ++ r.1

/-- _core.py:164-199 `_load_venv`; `dirs`: directories that there are; `added`: what `site.addsitedir` appends to the path for a directory. -/
def loadVenv (conf : Val) (v : Python) (dirs : List String) (added : String → List String) (path : List String) : Except Err (List String) :=
  match conf with
  | .dict d =>
    match d.lookup "cluster" with
    | none => .ok path
    | some (.dict c) =>
      match c.lookup "venv" with
      | none => .ok path
      | some (.str b) =>
        if b ∈ dirs then .ok (newFirst path (path ++ added (String.ofList (sitePackages v b.toList)))) else .error .exit
      | some _ => .error .typeError
    | some _ => .error .typeError
  | _ => .error .typeError

end Verif.Build
