import Mathlib.Tactic.Common

/-!
# Model of the registered queue systems

Models `caput/pipeline/runner/_scheduler/__init__.py`: `register_system` (32-56), the registration of the built-in systems (59-65),
`_resolve_system_config` (280-324), and the command `register-system` (`caput/pipeline/runner/_cli.py:274-283`). Of a description only the keys that are looked at
here are kept, and a number `id` for its contents. Of the cluster section only its keys and the value of `system` are kept. A description is taken to be a table (`conf.keys()` of anything else is an `AttributeError`).
-/
namespace Verif.Tasks.Systems

/-- A description of a queue system: whether it has the keys `script` and `command`, its `required` keys, and `mail` (the second option is its key `types`). -/
structure Desc where
  id : Nat
  script : Bool
  command : Bool
  required : List String
  mail : Option (Option (List String))
  deriving DecidableEq

/-- `REGISTERED_SYSTEMS` and `MAIL_TYPES`. -/
structure Reg where
  systems : List (String × Desc)
  mailTypes : List String
  deriving DecidableEq

inductive Err where
  | valueError
  | keyError
  /-- `UnboundLocalError`: a variable without a value. -/
  | unbound
  deriving DecidableEq

/-- `d[k] = v` for a dictionary. -/
def put (l : List (String × Desc)) (k : String) (d : Desc) : List (String × Desc) :=
  if l.any (·.1 = k) then l.map fun x => if x.1 = k then (k, d) else x else l ++ [(k, d)]

/-- __init__.py:46-56 `register_system`: one system after another; what was done before an exception stays. -/
def register : List (String × Desc) → Reg → Reg × Option Err
  | [], r => (r, none)
  | (k, d) :: rest, r =>
    if !(d.script && d.command) then (r, some .valueError)
    else
      let r := { r with systems := put r.systems k d }
      match d.mail with
      | none => register rest r
      | some none => (r, some .keyError)
      | some (some ts) => register rest { r with mailTypes := r.mailTypes ++ ts }

/-- `_default_systems.toml:1-52`. -/
def slurm : Desc := ⟨0, true, true, ["name", "nodes", "time", "mem", "directory", "ompnum", "pernode", "account"], some (some ["BEGIN", "END", "FAIL", "REQUEUE", "ALL"])⟩

/-- `_default_systems.toml:55-98`. -/
def pbs : Desc := ⟨1, true, true, ["name", "nodes", "time", "directory", "ppn", "queue"],
  some (some ["a", "b", "e", "ab", "ae", "ba", "be", "ea", "eb", "abe", "aeb", "bae", "bea", "eab", "eba"])⟩

/-- `_default_systems.toml`, in the order of the file. -/
def builtinFile : List (String × Desc) := [("slurm", slurm), ("pbs", pbs)]

/-- __init__.py:59-60: a process that has loaded the module. -/
def fresh : Reg := (register builtinFile ⟨[], []⟩).1

/-- __init__.py:65 `REGISTERED_CLUSTERS`. -/
def clusters : List (String × String) := [("gpc", "pbs"), ("cedar", "slurm"), ("fir", "slurm")]

/-- The cluster section: its keys other than `system`, and the value of `system`. -/
structure Cluster where
  keys : List String
  system : Option String

/-- __init__.py:315-324. The key `system` is in the section. -/
def checkKeys (d : Desc) (c : Cluster) (name : String) : Except Err (String × Desc) :=
  if d.required.all fun k => k = "system" || c.keys.contains k then .ok (name, d) else .error .valueError

/-- __init__.py:280-324 `_resolve_system_config`: the name that is used, and its description. `none` is a configuration without a cluster section. -/
def resolve (r : Reg) : Option Cluster → Except Err (String × Desc)
  | none => .error .keyError
  | some c =>
    match c.system with
    | none => .error .keyError
    | some n =>
      match r.systems.lookup n with
      | some d => checkKeys d c n
      | none =>
        match clusters.lookup n with
        | some n' =>
          match r.systems.lookup n' with
          | some d => checkKeys d c n'
          | none => .error .keyError
        | none => .error .unbound

/-- The commands. -/
inductive Cmd where
  | registerSystem (file : List (String × Desc))
  | queue (c : Option Cluster)

/-- What a command gives: for `queue` what is used. -/
inductive Res where
  | done
  | failed (e : Err)
  | uses (n : String) (d : Desc)
  deriving DecidableEq

/-- A command is a process of its own. -/
def runCmd : Cmd → Res
  | .registerSystem f =>
    match (register f fresh).2 with
    | none => .done
    | some e => .failed e
  | .queue c =>
    match resolve fresh c with
    | .ok (n, d) => .uses n d
    | .error e => .failed e

/-- Commands one after another, as from a shell. -/
def runCmds (cs : List Cmd) : List Res := cs.map runCmd

end Verif.Tasks.Systems
