import Verif.Lock.Model

/-!
# Any number of locked writes at the same time

Models `caput/memdata/_io.py:71-133` (`lock_file`) in several processes, each with a block of its own, whose bodies may
also fail. System calls happen one after the other in any order; a call that fails ends the block of its process, so
that the calls behind it do not happen. Simplified as in `Verif.Lock.Model`.
-/
namespace Verif.Lock

/-- A system call. -/
inductive Call where
  /-- the content of a path changes, or it disappears -/
  | set (p : Path) (n : Option Node)
  | remove (p : Path)
  | rename (p q : Path)

def Call.run (fs : FS) : Call → Except Exc FS
  | .set p n => .ok (fs.set p n)
  | .remove p => fs.remove p
  | .rename p q => fs.rename p q

/-- One block: `with lock_file(name, preserve): body`, the body ending with an exception or not. -/
structure Job where
  name : Path
  preserve : Bool
  body : List Change
  exc : Option Exc

/-- _io.py:101-121: the calls of a block, in order. -/
def Job.calls (j : Job) : List Call :=
  .set (lockOf j.name) (some (.file [])) :: (j.body.map fun c => .set c.1 c.2) ++
    match j.exc with
    | some _ => (if j.preserve then [] else [.remove (tmpOf j.name)]) ++ [.remove (lockOf j.name)]
    | none => [.rename (tmpOf j.name) j.name, .remove (lockOf j.name)]

/-- The next call of a process. If it fails, the process makes no more calls. -/
def advance (fs : FS) : List Call → FS × List Call
  | [] => (fs, [])
  | c :: cs =>
    match c.run fs with
    | .ok fs' => (fs', cs)
    | .error _ => (fs, [])

/-- The files, and what each process has still to do. -/
structure Many (ι : Type) where
  fs : FS
  todo : ι → List Call

variable {ι : Type} [DecidableEq ι]

def Many.start (fs : FS) (jobs : ι → Job) : Many ι := ⟨fs, fun i => (jobs i).calls⟩

def Many.step (M : Many ι) (i : ι) : Many ι :=
  ⟨(advance M.fs (M.todo i)).1, fun k => if k = i then (advance M.fs (M.todo i)).2 else M.todo k⟩

/-- The processes make calls in the given order. -/
def Many.run (M : Many ι) (order : List ι) : Many ι := order.foldl Many.step M

end Verif.Lock
