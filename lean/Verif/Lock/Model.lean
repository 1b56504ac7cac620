/-!
# Model of `lock_file`

Models `caput/memdata/_io.py:71-133`. The directory is a map from paths to nodes; a node is a file or a
directory (a `zarr` store is a directory) with some content. Every system call is one atomic step.
The body of the `with` block is an arbitrary sequence of changes followed by success or an
exception. Simplifications: paths are pairs of a directory and a base name, as `os.path.split`
returns them; opening the lock file always succeeds; the content is a list of numbers. The model is
about the death of a process, not about a loss of power.
-/
namespace Verif.Lock

structure Path where
  dir : String
  base : String
  deriving DecidableEq, Repr

inductive Node where
  | file (content : List Nat)
  | dir (content : List Nat)
  deriving DecidableEq, Repr

abbrev FS := Path → Option Node

inductive Exc where
  /-- raised by the body -/
  | user (n : Nat)
  | fileNotFound
  | isADirectory
  | notADirectory
  | notEmpty
  deriving DecidableEq, Repr

/-- _io.py:124-128 `tmpfile`. -/
def tmpOf (p : Path) : Path := ⟨p.dir, "." ++ p.base⟩

/-- _io.py:130-133 `lockfile`. -/
def lockOf (p : Path) : Path := ⟨p.dir, "." ++ p.base ++ ".lock"⟩

def FS.set (fs : FS) (p : Path) (n : Option Node) : FS := fun q => if q = p then n else fs q

/-- POSIX `unlink`, as `os.remove` calls it. -/
def FS.remove (fs : FS) (p : Path) : Except Exc FS :=
  match fs p with
  | none => .error .fileNotFound
  | some (.dir _) => .error .isADirectory
  | some (.file _) => .ok (fs.set p none)

/-- POSIX `rename`, as `os.rename` calls it: a file replaces a file, a directory only an empty
directory. -/
def FS.rename (fs : FS) (p q : Path) : Except Exc FS :=
  match fs p, fs q with
  | none, _ => .error .fileNotFound
  | some (.file _), some (.dir _) => .error .isADirectory
  | some (.dir _), some (.file _) => .error .notADirectory
  | some (.dir _), some (.dir (_ :: _)) => .error .notEmpty
  | some n, _ => .ok ((fs.set q (some n)).set p none)

/-- One change made by the body: a path gets a new content, or disappears. -/
abbrev Change := Path × Option Node

def FS.apply (fs : FS) (c : Change) : FS := fs.set c.1 c.2

/-- The states after each change. -/
def bodyStates : FS → List Change → List FS
  | _, [] => []
  | fs, c :: cs => fs.apply c :: bodyStates (fs.apply c) cs

/-- The state after the body. -/
def afterBody (fs : FS) (cs : List Change) : FS := cs.foldl FS.apply fs

/-- The states a block goes through after it was entered, and the exception that leaves it. -/
structure Outcome where
  states : List FS
  final : FS
  exc : Option Exc

/-- _io.py:119-122: `os.remove(self.lockfile)`; the exception of the body, if any, propagates since
`__exit__` returns `False`. -/
def dropLock (fs : FS) (name : Path) (exc : Option Exc) : Outcome :=
  match fs.remove (lockOf name) with
  | .ok fs' => ⟨[fs'], fs', exc⟩
  | .error e => ⟨[], fs, some e⟩

/-- One more state in front. -/
def Outcome.after (o : Outcome) (s : List FS) : Outcome := ⟨s ++ o.states, o.final, o.exc⟩

/-- _io.py:109-122 `__exit__` on rank 0. -/
def leave (fs : FS) (name : Path) (preserve : Bool) (exc : Option Exc) : Outcome :=
  match exc with
  | some e =>
    if preserve then dropLock fs name (some e)
    else
      match fs.remove (tmpOf name) with
      | .error e' => ⟨[], fs, some e'⟩
      | .ok fs' => (dropLock fs' name (some e)).after [fs']
  | none =>
    match fs.rename (tmpOf name) name with
    | .error e' => ⟨[], fs, some e'⟩
    | .ok fs' => (dropLock fs' name none).after [fs']

/-- _io.py:102-107 `__enter__` on rank 0. -/
def enter (fs : FS) (name : Path) : FS := fs.set (lockOf name) (some (.file []))

/-- The whole block `with lock_file(name, preserve): body`, on rank 0. The first state is the one
before it. -/
def block (fs : FS) (name : Path) (preserve : Bool) (body : List Change) (exc : Option Exc) :
    Outcome :=
  (leave (afterBody (enter fs name) body) name preserve exc).after
    (fs :: enter fs name :: bodyStates (enter fs name) body)

/-- The whole block on another rank of a communicator: only the body acts (`rank0` is false). -/
def blockOther (fs : FS) (body : List Change) (exc : Option Exc) : Outcome :=
  ⟨fs :: bodyStates fs body, afterBody fs body, exc⟩

/-! ## Two writers -/

/-- One atomic step of a writer; it may read and write any path. A failed call leaves the state. -/
abbrev Step := FS → FS

def removeStep (p : Path) : Step := fun fs => (fs.remove p).toOption.getD fs
def renameStep (p q : Path) : Step := fun fs => (fs.rename p q).toOption.getD fs

/-- The steps of a block whose body succeeds. -/
def writer (name : Path) (body : List Change) : List Step :=
  (fun fs => enter fs name) :: (body.map fun c fs => fs.apply c) ++
    [renameStep (tmpOf name) name, removeStep (lockOf name)]

/-- The steps of two processes in some order that keeps the order of each. -/
inductive Interleaving : List Step → List Step → List Step → Prop where
  | nil : Interleaving [] [] []
  | left {a b c : List Step} {s : Step} : Interleaving a b c → Interleaving (s :: a) b (s :: c)
  | right {a b c : List Step} {s : Step} : Interleaving a b c → Interleaving a (s :: b) (s :: c)

def runSteps (fs : FS) (l : List Step) : FS := l.foldl (fun fs s => s fs) fs

end Verif.Lock
