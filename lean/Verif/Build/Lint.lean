import Verif.Build.Model

/-!
# Model of checking configuration files

Models `caput/pipeline/runner/_core.py:24-41` `lint_config`, with `_load_venv` and `Manager.from_yaml_file(..., lint=True)` from `Verif.Build.Model`.

`importlib.import_module` gives a module that has been imported before, and otherwise looks for it along `sys.path`. Simplifications: a document is read alike by the two loaders of YAML (`_load_config` and
`SafeLineLoader`); files can be read; the versions of modules (`save_versions`) do not depend on the path; a module that cannot be imported leaves nothing behind; what a module imports itself is left out.
-/
namespace Verif.Build

open Verif.Config (Val Cfg)

/-- The attributes of a module. -/
abbrev Attrs := String → Option Thing

/-- The process: `sys.path` and `sys.modules`. -/
structure Proc where
  path : List String
  loaded : List (String × Attrs)

/-- The machine: the version of Python, the directories that there are, what `site.addsitedir` appends, and the modules that are found along a path. -/
structure Machine where
  python : Python
  dirs : List String
  added : String → List String
  find : List String → String → Except ModErr Attrs

/-- `importlib.import_module` in a process. -/
def importIn (M : Machine) (s : Proc) (m : String) : Except ModErr Attrs :=
  match s.loaded.lookup m with
  | some a => .ok a
  | none => M.find s.path m

/-- What a document sees in a process. -/
def worldIn (B : World) (M : Machine) (s : Proc) : World := { B with module := importIn M s }

/-- The module that the class of an entry is looked for in (_pipeline.py:582-586, importtools.py:27-31). -/
def moduleOf (W : World) (s : Cfg) : Option String :=
  match s.lookup "type" with
  | some (.str t) =>
    match W.locals t with
    | some _ => none
    | none =>
      let m := String.ofList (joinDots (splitDots t.toList).dropLast)
      if m = "" then none else some m
  | _ => none

/-- The entries of the list of tasks. -/
def entriesOf (doc : Doc) : List Cfg :=
  match doc.val with
  | .dict d =>
    match d.lookup "pipeline" with
    | some (.dict p) =>
      match p.lookup "tasks" with
      | some (.list l) => l.filterMap fun v => match v with
        | .dict e => some e
        | _ => none
      | _ => []
    | _ => []
  | _ => []

/-- `sys.modules` after the modules were imported, those that exist. -/
def importAll (M : Machine) (path : List String) : List String → List (String × Attrs) → List (String × Attrs)
  | [], loaded => loaded
  | m :: ms, loaded =>
    match importIn M ⟨path, loaded⟩ m with
    | .ok a => importAll M path ms ((m, a) :: loaded)
    | .error _ => importAll M path ms loaded

/-- _core.py:38-41: one file. -/
def lintOne (B : World) (M : Machine) (s : Proc) (doc : Doc) : Except Err Proc :=
  match loadVenv doc.val M.python M.dirs M.added s.path with
  | .error e => .error e
  | .ok path =>
    match fromYaml (worldIn B M ⟨path, s.loaded⟩) true doc with
    | .error e => .error e
    | .ok _ => .ok ⟨path, importAll M path ((entriesOf doc).filterMap (moduleOf B)) s.loaded⟩

/-- _core.py:24-41 `lint_config`: `none` if nothing is wrong, otherwise the exception. -/
def lintConfig (B : World) (M : Machine) : Proc → List Doc → Option Err
  | _, [] => none
  | s, doc :: docs =>
    match lintOne B M s doc with
    | .error e => some e
    | .ok s' => lintConfig B M s' docs

/-- _core.py:79: what `run` does before anything runs (the environment is not activated). -/
def setUp (B : World) (M : Machine) (s : Proc) (doc : Doc) : Except Err Manager := fromYaml (worldIn B M s) false doc

end Verif.Build
