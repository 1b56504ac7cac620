import Verif.Runner.Profile

/-!
# Model of job scripts

Models of `caput/pipeline/runner/_scheduler/__init__.py`: `_create_job_environment_strings` (374-407), the options of `queue` that go into the script and the command to submit it (235-277); the commands of the
scripts in `caput/pipeline/runner/_scheduler/_default_systems.toml`; and the command line of `run` in `caput/pipeline/runner/_cli.py:35-74`.

Which keys a script needs is C57, and when a job is left alone is C46. The shell only splits a command at blanks, which is what it does with words that have no characters special to it. `click` is modelled for the options of `run`.
-/
namespace Verif.Runner

abbrev Text := List Char

/-! ### The environment -/

/-- A list of names in the configuration: a string or a list of strings. -/
inductive Names where
  | str (s : Text)
  | list (l : List Text)

/-- __init__.py:385-387, 390-392: the names, if the value is given and not empty. -/
def Names.tuple : Option Names → List Text
  | none => []
  | some (.str []) => []
  | some (.str s) => [s]
  | some (.list l) => l

/-- `sep.join(l)`. -/
def joinText (sep : Text) : List Text → Text
  | [] => []
  | [x] => x
  | x :: y :: l => x ++ sep ++ joinText sep (y :: l)

/-- __init__.py:380-396: the commands for modules. -/
def moduleText (modlist modpath : Option Names) : Text :=
  let p := Names.tuple modpath
  let m := Names.tuple modlist
  let s1 := if p ≠ [] then "module use ".toList ++ joinText "\nmodule use ".toList p else []
  let s2 := if m ≠ [] then s1 ++ "\nmodule load ".toList ++ joinText "\nmodule load ".toList m else s1
  if s2 ≠ [] then "module --force purge\n".toList ++ s2 else s2

/-- __init__.py:398-405: the file that is sourced. `found` says which files exist, and `expand` is `_expand_path` (20-24). -/
def venvText (expand : Text → Text) (found : Text → Bool) : Option Text → Except Err Text
  | none => .ok "/dev/null".toList
  | some v => if found (expand (v ++ "/bin/activate".toList)) then .ok (expand (v ++ "/bin/activate".toList)) else .error .valueError

/-- The commands of a text: its lines, without the empty ones. -/
def textLines : Text → List Text
  | [] => [[]]
  | c :: cs =>
    if c = '\n' then [] :: textLines cs
    else
      match textLines cs with
      | [] => [[c]]
      | l :: ls => (c :: l) :: ls

def commands (t : Text) : List Text := (textLines t).filter (· ≠ [])

/-! ### The command that runs the pipeline -/

/-- What is asked of `queue`. -/
structure Asked where
  profile : Bool
  profiler : Text
  psutil : Bool

/-- __init__.py:115: the profiler if none is given. -/
def defaultProfiler : Text := "cProfiler".toList

/-- __init__.py:236. -/
def profileOpt (a : Asked) : Text := if a.profile then "--profile".toList else []

/-- __init__.py:237. -/
def profilerOpt (a : Asked) : Text := if a.profile then "--profiler=".toList ++ a.profiler else []

/-- __init__.py:238. -/
def psutilOpt (a : Asked) : Text := if a.psutil then "--psutil".toList else []

/-- _default_systems.toml:39, the command of the `slurm` script. -/
def slurmLine (invoke args : Text) (a : Asked) (config log : Text) : Text :=
  invoke ++ ' ' :: (args ++ ' ' :: ("caput-pipeline run".toList ++ ' ' :: (profileOpt a ++ ' ' :: (profilerOpt a ++ ' ' :: (psutilOpt a ++ ' ' :: (config ++ ' ' :: ("&>".toList ++ ' ' :: log)))))))

/-- _default_systems.toml:88, the command of the `pbs` script. -/
def pbsLine (invoke args : Text) (_ : Asked) (config log : Text) : Text :=
  invoke ++ ' ' :: (args ++ ' ' :: ("caput-pipeline run".toList ++ ' ' :: (config ++ ' ' :: ("&>".toList ++ ' ' :: log))))

def blank (c : Char) : Bool := c = ' ' || c = '\t' || c = '\n'

/-- The words of a text, where `acc` is the word so far, backwards. -/
def wordsFrom : Text → Text → List Text
  | acc, [] => if acc = [] then [] else [acc.reverse]
  | acc, c :: cs => if blank c then (if acc = [] then wordsFrom [] cs else acc.reverse :: wordsFrom [] cs) else wordsFrom (c :: acc) cs

/-- The words of a command; also `str.split()`. -/
def words (t : Text) : List Text := wordsFrom [] t

/-- What `run_pipeline` is called with (_core.py:44-49). -/
structure RunOpts where
  config : Text
  profile : Bool
  profiler : Text
  mpiAbort : Bool
  psutil : Bool
  deriving DecidableEq

/-- `click.Choice(["cProfile", "pyinstrument"], case_sensitive=False)` (_cli.py:51): the choice. -/
def choose (v : Text) : Option Text := ["cProfile".toList, "pyinstrument".toList].find? fun c => c.map Char.toLower = v.map Char.toLower

/-- The value of an argument with a given beginning. -/
def valueOf (p v : Text) : Option Text := if p.isPrefixOf v then some (v.drop p.length) else none

/-- What an argument is. -/
inductive Token where
  | profile
  | psutil
  | abort
  | noAbort
  | profiler
  | profilerIs (v : Text)
  | unknown
  | arg

/-- The options of _cli.py:40-71. -/
def token (a : Text) : Token :=
  if a = "--profile".toList then .profile
  else if a = "--psutil".toList then .psutil
  else if a = "--mpi-abort".toList then .abort
  else if a = "--no-mpi-abort".toList then .noAbort
  else if a = "--profiler".toList then .profiler
  else
    match valueOf "--profiler=".toList a with
    | some v => .profilerIs v
    | none => if a.head? = some '-' && a ≠ ['-'] then .unknown else .arg

/-- _cli.py:40-71: the options, in any order, and the arguments. -/
def parseArgs : RunOpts → List Text → List Text → Except Err (RunOpts × List Text)
  | o, pos, [] => .ok (o, pos)
  | o, pos, a :: rest =>
    match token a with
    | .profile => parseArgs { o with profile := true } pos rest
    | .psutil => parseArgs { o with psutil := true } pos rest
    | .abort => parseArgs { o with mpiAbort := true } pos rest
    | .noAbort => parseArgs { o with mpiAbort := false } pos rest
    | .profiler =>
      match rest with
      | [] => .error .usage
      | v :: rest' =>
        match choose v with
        | none => .error .usage
        | some c => parseArgs { o with profiler := c } pos rest'
    | .profilerIs v =>
      match choose v with
      | none => .error .usage
      | some c => parseArgs { o with profiler := c } pos rest
    | .unknown => .error .usage
    | .arg => parseArgs o (pos ++ [a]) rest

/-- _cli.py:35-74 `run`: one argument, the file; the profiler is made lower case in `run_pipeline` (_core.py:76). -/
def parseRun (args : List Text) : Except Err RunOpts :=
  match parseArgs ⟨[], false, "cProfile".toList, true, false⟩ [] args with
  | .error e => .error e
  | .ok (o, [c]) => .ok { o with config := c, profiler := o.profiler.map Char.toLower }
  | .ok (_, _) => .error .usage

/-! ### The script -/

/-- The status that the script writes. -/
inductive Status where
  | running
  | crashed
  | finished
  deriving DecidableEq, Repr

/-- Commands of the script: writing the status, or another one. -/
inductive Cmd where
  | status (s : Status)
  | cmd (t : Text)
  deriving DecidableEq

/-- _default_systems.toml:6-49: the commands of the `slurm` script, after `set -e` and `trap`. The commands that set variables are left out. -/
def slurmCmds (modules venv workdir line finaldir : Text) (temp : Bool) : List Cmd :=
  [.status .running] ++ (commands modules).map .cmd ++
    [.cmd ("source ".toList ++ venv), .cmd ("cd ".toList ++ workdir), .cmd line, .status .finished] ++
    if temp then [.cmd ("mkdir -p $(dirname ".toList ++ finaldir ++ ")".toList), .cmd ("mv ".toList ++ workdir ++ ' ' :: finaldir)] else []

/-- The shell with `set -e` and the trap (_default_systems.toml:15-23): the first command that fails sets the status, and ends the script. `ok` says which commands succeed. Returned are the commands
that were started, and the status. -/
def shell (ok : Text → Bool) : List Cmd → Option Status → List Text × Option Status
  | [], s => ([], s)
  | .status s :: cs, _ => shell ok cs (some s)
  | .cmd t :: cs, s =>
    if ok t then
      let r := shell ok cs s
      (t :: r.1, r.2)
    else ([t], some .crashed)

/-! ### Submitting -/

/-- The part of a queue system for mail: the types, and the options as a function of address and type. -/
structure Mail where
  types : List Text
  options : Text → Text → Text

/-- _default_systems.toml:52-54. -/
def slurmMail : Mail where
  types := ["BEGIN".toList, "END".toList, "FAIL".toList, "REQUEUE".toList, "ALL".toList]
  options email mailtype := "--mail-user=".toList ++ email ++ ' ' :: ("--mail-type=".toList ++ mailtype)

/-- _default_systems.toml:101-103. -/
def pbsMail : Mail where
  types := ["a", "b", "e", "ab", "ae", "ba", "be", "ea", "eb", "abe", "aeb", "bae", "bea", "eab", "eba"].map String.toList
  options email mailtype := "-M ".toList ++ email ++ ' ' :: ("-m ".toList ++ mailtype)

/-- __init__.py:247-277: the command to submit the job. -/
def submitCommand (command : Text) (mail : Option Mail) (email mailtype : Option Text) : Except Err (List Text) :=
  match email with
  | none => .ok [command, "jobscript.sh".toList]
  | some e =>
    match mail with
    | none => .ok [command, "jobscript.sh".toList]
    | some m =>
      match mailtype with
      | none => .error .valueError
      | some t => if t ∈ m.types then .ok (command :: words (m.options e t) ++ ["jobscript.sh".toList]) else .error .valueError

end Verif.Runner
