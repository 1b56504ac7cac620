import Mathlib.Data.Nat.Log
import Mathlib.Data.Rat.Defs
import Mathlib.Algebra.Order.Ring.Rat
import Mathlib.Algebra.Order.Group.Unbundled.Abs

/-!
# Model of profilers

Models of `caput/util/profiler.py`: `Profiler` (24-100), `IOUsage` (103-172), `PSUtilProfiler` (175-477).

What the profilers and `psutil` measure is given. Writing to a file does not fail. The logarithm of the number of processes is exact.
-/
namespace Verif.Runner

inductive Err where
  | valueError
  | attributeError
  | runtimeError
  | keyError
  | usage
  deriving DecidableEq, Repr

/-! ### Profiler -/

/-- profiler.py:91: `int(math.log10(size)) + 1`. -/
def rankLength (size : Nat) : Nat := Nat.log 10 size + 1

/-- profiler.py:95, 99: `f"{rank:0{w}}"`. -/
def padded (w rank : Nat) : List Char := List.replicate (w - (Nat.toDigits 10 rank).length) '0' ++ Nat.toDigits 10 rank

/-- profiler.py:41. -/
def profilers : List String := ["cprofile", "pyinstrument"]

/-- profiler.py:93-99: the name of the file. -/
def profileName (profiler : String) (size rank : Nat) : List Char :=
  "profile_".toList ++ padded (rankLength size) rank ++ (if profiler = "cprofile" then ".prof".toList else ".txt".toList)

/-- Files by directory and name. -/
abbrev Files := String → List Char → Option String

/-- A profiler (profiler.py:43-62). -/
structure Prof where
  profile : Bool
  profiler : String
  path : String

/-- profiler.py:43-62 `__init__`, in the directory `cwd`. -/
def mkProf (profile : Bool) (profiler : String) (path : Option String) (cwd : String) : Except Err Prof :=
  if profiler ∉ profilers then .error .valueError else .ok ⟨profile, profiler, path.getD cwd⟩

/-- profiler.py:64-100: a block with a profiler that finds `data`; `cwd` is the current directory at the end of the block, `outcome` what the block raises. The name of the file has no directory. -/
def profBlock (p : Prof) (size rank : Nat) (cwd data : String) (outcome : Option String) (files : Files) : Files × Option String :=
  if p.profile = false then (files, outcome)
  else (fun d n => if d = cwd ∧ n = profileName p.profiler size rank then some data else files d n, outcome)

/-- The same block in all processes, one after the other. -/
def profAll (p : Prof) (size : Nat) (cwd : String) (data : Nat → String) : List Nat → Files → Files
  | [], files => files
  | r :: rs, files => profAll p size cwd data rs (profBlock p size r cwd (data r) none files).1

/-! ### IOUsage -/

/-- Counters by name, each once (profiler.py:129-140). -/
abbrev Counters := List (String × Int)

/-- profiler.py:156-163: the differences. -/
def ioUsage (start : Counters) : Counters → Except Err Counters
  | [] => .ok []
  | (n, v) :: f =>
    match start.lookup n with
    | none => .error .keyError
    | some s =>
      match ioUsage start f with
      | .error e => .error e
      | .ok l => .ok ((n, v - s) :: l)

/-! ### PSUtilProfiler -/

/-- Lines of the table (profiler.py:253-278, 411-436); of a row only the label. -/
inductive Line where
  | header
  | row (label : String)
  deriving DecidableEq, Repr

/-- A profiler (profiler.py:224-249): whether it is used, its label, and whether it was started. -/
structure PObj where
  use : Bool
  label : String
  started : Bool
  deriving DecidableEq, Repr

/-- The table of one process, and the profilers. -/
structure PState where
  file : Option (List Line)
  objs : List PObj
  deriving DecidableEq, Repr

/-- What is done: a new profiler, perhaps with a path; starting and stopping; and the ends of a block. Profilers have numbers. -/
inductive POp where
  | new (use : Bool) (label : String) (path : Option String)
  | start (i : Nat)
  | stop (i : Nat)
  | enter (i : Nat)
  | leave (i : Nat)
  deriving DecidableEq, Repr

/-- profiler.py:216-281 `__init__`: with a path, `self.path` is read before it is set. -/
def newProf (use : Bool) (label : String) (path : Option String) (s : PState) : PState × Option Err :=
  match path with
  | some _ => (s, some .attributeError)
  | none => (⟨if use && s.file.isNone then some [.header] else s.file, s.objs ++ [⟨use, label, false⟩]⟩, none)

/-- profiler.py:304-326 `start`. -/
def startProf (i : Nat) (s : PState) : PState × Option Err := ({ s with objs := s.objs.modify i fun o => { o with started := true } }, none)

/-- profiler.py:328-436 `stop`: a row is added at the end of the file, which is made if there is none. -/
def stopProf (i : Nat) (s : PState) : PState × Option Err :=
  match s.objs[i]? with
  | none => (s, none)
  | some o => if o.started = false then (s, some .runtimeError) else ({ s with file := some (s.file.getD [] ++ [.row o.label]) }, none)

/-- profiler.py:294-302 `__enter__`, `__exit__`. -/
def pstep (s : PState) : POp → PState × Option Err
  | .new use label path => newProf use label path s
  | .start i => startProf i s
  | .stop i => stopProf i s
  | .enter i => if (s.objs[i]?.map (·.use)).getD false then startProf i s else (s, none)
  | .leave i => if (s.objs[i]?.map (·.use)).getD false then stopProf i s else (s, none)

/-- A history, with what each operation raises. -/
def prun : PState → List POp → PState × List (Option Err)
  | s, [] => (s, [])
  | s, op :: ops =>
    let r := pstep s op
    let t := prun r.1 ops
    (t.1, r.2 :: t.2)

/-- profiler.py:324, 438-443 `monitor`: the peak after the samples. -/
def peak (start : Nat) (samples : List Nat) : Nat := samples.foldl max start

/-- profiler.py:378-383 `bytes2human`: the number that is shown, and its unit. -/
def human : List String → ℚ → ℚ × String
  | [], n => (n, "Yi")
  | u :: us, n => if |n| < 1024 then (n, u) else human us (n / 1024)

/-- profiler.py:379. -/
def units : List String := ["", "Ki", "Mi", "Gi", "Ti", "Pi", "Ei", "Zi"]

end Verif.Runner
