import Mathlib.Tactic.Common

/-!
# C57: making a job script of a configuration

Models the parts of `caput/pipeline/runner/_scheduler/__init__.py` that decide whether a job script can be
made: `_resolve_system_config` (316-322: required keys), `queue` (222-225: profiler keys) and
`_resolve_job_script` (407-457), with the placeholders of the two built-in templates in
`caput/pipeline/runner/_scheduler/_default_systems.toml`. Only keys and the types of their values are
modelled, not the values (a `venv` that does not exist is refused before this); paths count as strings, as they are converted before formatting (445-447).
-/
namespace Verif.Tasks

/-- The type of a value. -/
inductive Ty where
  | int
  | str
  | other
  deriving DecidableEq

/-- A configuration: the type of the value of each key. -/
abbrev Conf := String → Option Ty

/-- `conf[k] = v`. -/
def Conf.set (c : Conf) (k : String) (t : Ty) : Conf := fun k' => if k' = k then some t else c k'

/-- A queue system: its required keys, the placeholders of its script and those of its default
arguments for the launch command. -/
structure System where
  required : List String
  script : List (String × Ty)
  invokeArgs : List (String × Ty)

/-- _default_systems.toml:1-50. -/
def slurm : System where
  required := ["name", "nodes", "time", "mem", "directory", "ompnum", "pernode", "account"]
  script := [("account", .str), ("nodes", .int), ("pernode", .int), ("ompnum", .int), ("mem", .str),
    ("time", .str), ("name", .str), ("statuspath", .str), ("modules", .str), ("venv", .str),
    ("workdir", .str), ("invoke", .str), ("invoke_args", .str), ("profile", .str), ("profiler", .str),
    ("psutil", .str), ("configpath", .str), ("logpath", .str), ("usetemp", .int), ("finaldir", .str)]
  invokeArgs := []

/-- _default_systems.toml:57-99. -/
def pbs : System where
  required := ["name", "nodes", "time", "directory", "ppn", "queue"]
  script := [("nodes", .int), ("ppn", .int), ("queue", .str), ("time", .str), ("name", .str),
    ("statuspath", .str), ("module", .str), ("venv", .str), ("workdir", .str), ("ompnum", .int),
    ("invoke", .str), ("invoke_args", .str), ("configpath", .str), ("logpath", .str), ("usetemp", .int),
    ("finaldir", .str)]
  invokeArgs := [("mpiproc", .int), ("pernode", .int)]

/-- Exceptions. -/
inductive SErr where
  | keyError (k : String)
  | valueError
  deriving DecidableEq

/-- `template.format(**conf)`: a missing key is a `KeyError`, a value of the wrong type a `ValueError`. -/
def format (phs : List (String × Ty)) (c : Conf) : Except SErr Unit :=
  match phs with
  | [] => .ok ()
  | (k, t) :: rest =>
    match c k with
    | none => .error (.keyError k)
    | some t' => if t' = t then format rest c else .error .valueError

/-- __init__.py:416 `conf["nodes"] * conf["pernode"]`, for integers. -/
def mpiproc (c : Conf) : Except SErr Unit :=
  match c "nodes", c "pernode" with
  | none, _ => .error (.keyError "nodes")
  | some _, none => .error (.keyError "pernode")
  | some .int, some .int => .ok ()
  | some _, some _ => .error .valueError

/-- __init__.py:222-225 and 409-423: the keys that are always set. -/
def derived (c : Conf) : Conf :=
  ((((((((((((c.set "profile" .str).set "profiler" .str).set "psutil" .str).set "modules" .str).set "venv" .str).set
    "mpiproc" .int).set "workdir" .str).set "finaldir" .str).set "logpath" .str).set "configpath" .str).set
    "statuspath" .str).set "usetemp" .int)

/-- __init__.py:432-438: `invoke` and `invoke_args` if they are not given. -/
def withInvoke (c : Conf) : Conf :=
  let c1 := if (c "invoke").isNone then c.set "invoke" .str else c
  if (c1 "invoke_args").isNone then c1.set "invoke_args" .str else c1

/-- __init__.py:436-453: the placeholders of the arguments for the launch command that are used; `user` are
those in the configuration's own `invoke_args`, if it has one. -/
def usedArgs (_s : System) (user : Option (List (String × Ty))) : List (String × Ty) :=
  match user with
  | some phs => phs
  | none => []

/-- __init__.py:445-447: `time` is always made a string. -/
def timeStr (c : Conf) : Conf := if (c "time").isSome then c.set "time" .str else c

/-- __init__.py:316-322 and 407-457: whether a script can be made. -/
def jobScript (s : System) (user : Option (List (String × Ty))) (c : Conf) : Except SErr Unit :=
  if s.required.all fun k => (c k).isSome then
    match mpiproc c with
    | .error e => .error e
    | .ok () =>
      match format (usedArgs s user) (timeStr (withInvoke (derived c))) with
      | .error e => .error e
      | .ok () => format s.script (timeStr (withInvoke (derived c)))
  else .error .valueError

/-! ## The property -/

/-- A configuration with all the keys that `slurm` requires, of the right types, and no arguments for the launch
command of its own. -/
structure SlurmConf (c : Conf) : Prop where
  name : c "name" = some .str
  nodes : c "nodes" = some .int
  time : (c "time").isSome
  mem : c "mem" = some .str
  directory : (c "directory").isSome
  ompnum : c "ompnum" = some .int
  pernode : c "pernode" = some .int
  account : c "account" = some .str
  invoke : c "invoke" = none ∨ c "invoke" = some .str
  invoke_args : c "invoke_args" = none

/-- C57 for `slurm`: a complete configuration yields a script, whatever other keys it has. -/
theorem C57_slurm_partial (c : Conf) (h : SlurmConf c) : jobScript slurm none c = .ok () := by
  obtain ⟨h1, h2, h3, h4, h5, h6, h7, h8, h9, h10⟩ := h
  obtain ⟨t, ht⟩ := Option.isSome_iff_exists.1 h3
  obtain ⟨d, hd⟩ := Option.isSome_iff_exists.1 h5
  rcases h9 with h9 | h9 <;>
  simp [jobScript, slurm, h1, h2, h4, h6, h7, h8, h9, h10, ht, hd, mpiproc, format, usedArgs, timeStr, withInvoke,
    derived, Conf.set]

/-- C57. A configuration without one of the required keys is refused. -/
theorem C57_required (s : System) (user : Option (List (String × Ty))) (c : Conf) (k : String)
    (hk : k ∈ s.required) (hc : c k = none) : jobScript s user c = .error .valueError := by
  unfold jobScript
  rw [if_neg]
  simp only [List.all_eq_true]
  intro h
  have := h k hk
  rw [hc] at this
  cases this

/-- C57 fails for `pbs`: no configuration yields a script, unless it happens to have a key `module`, which
is neither required nor documented (the template asks for `module`, the code provides `modules`). -/
theorem C57_pbs_violated (user : Option (List (String × Ty))) (c : Conf) (h : c "module" = none) :
    jobScript pbs user c ≠ .ok () := by
  intro hj
  unfold jobScript at hj
  split at hj
  · split at hj
    · cases hj
    · split at hj
      · cases hj
      · have key : ∀ (phs : List (String × Ty)) (c : Conf) (k : String) (t : Ty), (k, t) ∈ phs →
            format phs c = .ok () → (c k).isSome := by
          intro phs c k t hm hf
          induction phs with
          | nil => cases hm
          | cons p rest ih =>
            obtain ⟨k', t'⟩ := p
            unfold format at hf
            cases hc : c k' with
            | none => simp [hc] at hf
            | some t'' =>
              simp only [hc] at hf
              split at hf
              · rcases List.mem_cons.1 hm with he | hm
                · cases he; simp [hc]
                · exact ih hm hf
              · cases hf
        have := key _ _ "module" .str (by simp [pbs]) hj
        have hn : timeStr (withInvoke (derived c)) "module" = none := by
          have hd : derived c "module" = none := by simp [derived, Conf.set, h]
          have hw : withInvoke (derived c) "module" = none := by
            unfold withInvoke
            split <;> split <;> exact hd
          unfold timeStr
          split <;> exact hw
        rw [hn] at this
        cases this
  · cases hj

/-- C57 fails for `pbs` also in that its required keys are not enough: without `pernode` there is a
`KeyError`. -/
theorem C57_pbs_pernode_violated (user : Option (List (String × Ty))) (c : Conf)
    (hr : ∀ k ∈ pbs.required, (c k).isSome) (hp : c "pernode" = none) :
    jobScript pbs user c = .error (.keyError "pernode") := by
  unfold jobScript
  rw [if_pos (List.all_eq_true.2 hr)]
  obtain ⟨t, ht⟩ := Option.isSome_iff_exists.1 (hr "nodes" (by simp [pbs]))
  simp [mpiproc, ht, hp]

/-- C57 fails for the default arguments of the launch command: those of the system are never used. For
`pbs` they would set the number of processes. -/
theorem C57_default_arguments_violated : usedArgs pbs none ≠ pbs.invokeArgs := by decide

/-- A configuration for `slurm`. -/
def exConf : Conf := fun k =>
  if k ∈ ["name", "mem", "directory", "account", "time", "system"] then some .str
  else if k ∈ ["nodes", "ompnum", "pernode"] then some .int else none

example : jobScript slurm none exConf = .ok () := by
  apply C57_slurm_partial
  constructor <;> first | rfl | exact Or.inl rfl

end Verif.Tasks
