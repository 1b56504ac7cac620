import Mathlib.Tactic.Common

/-!
# Model of job submission

Models `caput/pipeline/runner/_scheduler/__init__.py:110-277` (`queue`), `327-371`
(`_create_job_directories`), the status lines of the job scripts in
`caput/pipeline/runner/_scheduler/_default_systems.toml`, and `_from_template` in
`caput/pipeline/runner/_core.py:108-147`.

There is one job. Its files are in the working directory, which is the final directory unless
`temp_directory` is given. Whether a job script can be made of the configuration (C57) and whether the mail type
is valid are parameters.
-/
namespace Verif.Tasks

/-- Whether a text occurs in another one (`in`). -/
def occurs (p : List Char) : List Char → Bool
  | [] => p.isPrefixOf []
  | c :: cs => p.isPrefixOf (c :: cs) || occurs p cs

/-- The files of a job: `config.yaml`, `jobscript.sh` and `STATUS`. -/
structure JobDir where
  config : Nat
  script : Option Nat
  status : Option (List Char)
  deriving DecidableEq

/-- The working directory, the final directory (only if different), and the configurations submitted to
the scheduler so far. -/
structure World where
  work : Option JobDir
  final : Option JobDir
  submitted : List Nat
  deriving DecidableEq

/-- The argument `overwrite`; the command line also offers `always`, and any other value does the same. -/
inductive Overwrite where
  | never
  | failed
  | other
  deriving DecidableEq

/-- Results. -/
inductive QRes where
  | skipped
  | prepared
  | submitted
  | keyError
  | valueError
  deriving DecidableEq

/-- The arguments of `queue`: the configuration; whether to submit; whether the script can be made of it; and
whether the mail type is valid (or no mail was asked for). -/
structure QArgs where
  overwrite : Overwrite
  config : Nat
  submit : Bool
  scriptOk : Bool
  mailOk : Bool

/-- __init__.py:348-365: whether an existing job is left alone. -/
def leaveAlone (o : Overwrite) (j : JobDir) : Bool :=
  match o, j.status with
  | .never, _ => true
  | .failed, some s => occurs "FINISHED".toList s
  | .failed, none => false
  | .other, _ => false

/-- __init__.py:212-277, from the existing or the new directory on. -/
def fillDir (a : QArgs) (w : World) (j : JobDir) : QRes × World :=
  if a.scriptOk then
    if a.mailOk then
      if a.submit then
        (.submitted, { w with work := some { j with config := a.config, script := some a.config },
                              submitted := w.submitted ++ [a.config] })
      else (.prepared, { w with work := some { j with config := a.config, script := some a.config } })
    else (.valueError, { w with work := some { j with config := a.config, script := some a.config } })
  else (.keyError, { w with work := some { j with config := a.config } })

/-- __init__.py:110-277 `queue`. -/
def queueJob (a : QArgs) (w : World) : QRes × World :=
  match w.work with
  | some j => if leaveAlone a.overwrite j then (.skipped, w) else fillDir a w j
  | none => fillDir a w ⟨a.config, none, none⟩

/-- What happens to a job: `queue` is called, or the job script starts, crashes or finishes. -/
inductive JobOp where
  | queue (a : QArgs)
  | start
  | crash
  | finish

/-- `echo ... > STATUS`. -/
def World.setStatus (w : World) (s : String) : World :=
  match w.work with
  | some j => { w with work := some { j with status := some (s.toList ++ ['\n']) } }
  | none => w

/-- _default_systems.toml:44-49: with a temporary directory the files are moved to the final one (into it, if
it exists). -/
def World.move (temp : Bool) (w : World) : World :=
  if temp then
    match w.work, w.final with
    | some j, none => { w with work := none, final := some j }
    | some _, some _ => { w with work := none }
    | none, _ => w
  else w

/-- One step. -/
def World.step (temp : Bool) (w : World) : JobOp → World
  | .queue a => (queueJob a w).2
  | .start => w.setStatus "RUNNING"
  | .crash => w.setStatus "CRASHED"
  | .finish => (w.setStatus "FINISHED").move temp

/-- A history. -/
def World.run (temp : Bool) (w : World) (ops : List JobOp) : World := ops.foldl (World.step temp) w

/-! ### Templates -/

/-- `s.split("=", 1)`; `none` if there is no `=` (`ValueError` when unpacking). -/
def splitEq : List Char → Option (List Char × List Char)
  | [] => none
  | c :: cs => if c = '=' then some ([], cs) else (splitEq cs).map fun r => (c :: r.1, r.2)

/-- `s.split(",")`. -/
def splitComma : List Char → List (List Char)
  | [] => [[]]
  | c :: cs =>
    if c = ',' then [] :: splitComma cs
    else
      match splitComma cs with
      | [] => [[c]]
      | w :: ws => (c :: w) :: ws

/-- `vardict[name] = vals`: a key keeps its place. -/
def assignVar (d : List (List Char × List (List Char))) (k : List Char) (v : List (List Char)) :
    List (List Char × List (List Char)) :=
  match d with
  | [] => [(k, v)]
  | (k', v') :: rest => if k' = k then (k, v) :: rest else (k', v') :: assignVar rest k v

/-- _core.py:122-127: the variables and their values. -/
def parseVars : List (List Char × List (List Char)) → List (List Char) →
    Option (List (List Char × List (List Char)))
  | d, [] => some d
  | d, s :: rest =>
    match splitEq s with
    | none => none
    | some (k, v) => parseVars (assignVar d k (splitComma v)) rest

/-- `itertools.product`. -/
def product {α : Type} : List (List α) → List (List α)
  | [] => [[]]
  | vs :: rest => vs.flatMap fun v => (product rest).map (v :: ·)

/-- _core.py:132-134: the assignments of one run each. -/
def runsOf (d : List (List Char × List (List Char))) : List (List (List Char × List Char)) :=
  (product (d.map (·.2))).map fun vs => (d.map (·.1)).zip vs

/-- _core.py:108-147 `_from_template`: the runs for the `--var` options. -/
def fromTemplate (vars : List (List Char)) : Option (List (List (List Char × List Char))) :=
  (parseVars [] vars).map runsOf

/-- Whether a Python function takes `n` positional arguments, if it has so many parameters and the first of them have no default. -/
def takes (required parameters n : Nat) : Bool := required ≤ n && n ≤ parameters

/-- _core.py:82-106 `template_run` with so many more arguments: the runs that are started, and whether there is a `TypeError`. `run_pipeline` (_core.py:43-49) has five parameters and no defaults;
the first is the file. -/
def templateRun (more : Nat) : List (List (List Char × List Char)) → List (List (List Char × List Char)) × Bool
  | [] => ([], false)
  | r :: rs =>
    if takes 5 5 (1 + more) then
      let t := templateRun more rs
      (r :: t.1, t.2)
    else ([], true)

/-- _cli.py:114-129: the command `template-run` without `--submit`: no other arguments are given. -/
def cliTemplateRun (vars : List (List Char)) : Option (List (List (List Char × List Char)) × Bool) := (fromTemplate vars).map (templateRun 0)

end Verif.Tasks
