import Mathlib.Tactic.Common
import Mathlib.Data.List.Basic

/-!
# C129: the tasks that save the configuration and the versions

Models `caput/pipeline/tasklib/debug.py:138-193` (`SaveModuleVersions`, `SaveConfig`). Every process of the pipeline runs `setup`
and all of them write to the same file: `open(fname, "w")` truncates, and what is written reaches the file in pieces at the offset of the
process (the buffer is flushed when it is full, and by `close`). Writes beyond the end fill the gap with zeros, as POSIX has it. Simplified: the
document that `yaml.safe_dump` gives is a parameter for each process and kind; pieces are written atomically; a process may
work on its tasks in any order, which only allows more interleavings. How the tasks get the configuration and the versions is C84.
-/
namespace Verif.Tasks

/-- The two classes (debug.py:138, 168). -/
inductive SaverKind where
  | versions
  | config
  deriving DecidableEq, Repr

/-- A task of one of the classes; `root` is a property without default (debug.py:150, 179), which is `None` if it is not given
(`caput/config.py:104-118`). -/
structure Saver where
  kind : SaverKind
  root : Option (List Char)
  deriving DecidableEq, Repr

/-- What the f-string makes of the root. -/
def Saver.rootText (s : Saver) : List Char :=
  match s.root with
  | some r => r
  | none => "None".toList

/-- debug.py:156 and 184. -/
def Saver.fileName (s : Saver) : List Char :=
  match s.kind with
  | .versions => s.rootText ++ "_versions.yml".toList
  | .config => s.rootText ++ "_config.yml".toList

/-- The files, and for each process and task (by number) how much has been written, if the file has been opened. -/
structure Disk where
  files : List Char → Option (List Char)
  pos : Nat → Nat → Option Nat

/-- A process opens the file of a task (debug.py:157, 185), or at most `k` further characters reach the file (158-159, 186-187). -/
inductive DiskEvent where
  | opens (p t : Nat)
  | flush (p t k : Nat)
  deriving DecidableEq, Repr

/-- POSIX `pwrite`: a piece at an offset. -/
def writeAt (old : List Char) (n : Nat) (piece : List Char) : List Char :=
  (old ++ List.replicate (n - old.length) '\x00').take n ++ piece ++ old.drop (n + piece.length)

def Disk.setFile (D : Disk) (f c : List Char) : List Char → Option (List Char) :=
  fun g => if g = f then some c else D.files g

def Disk.setPos (D : Disk) (p t n : Nat) : Nat → Nat → Option Nat :=
  fun q u => if q = p ∧ u = t then some n else D.pos q u

/-- One event; `none` if it cannot happen: no such task, a second open by the process, or a write without open. -/
def diskStep (ts : List Saver) (text : Nat → SaverKind → List Char) (D : Disk) : DiskEvent → Option Disk
  | .opens p t =>
    match ts[t]?, D.pos p t with
    | some s, none => some ⟨D.setFile s.fileName [], D.setPos p t 0⟩
    | _, _ => none
  | .flush p t k =>
    match ts[t]?, D.pos p t with
    | some s, some n =>
      match D.files s.fileName with
      | some old =>
        let piece := ((text p s.kind).drop n).take k
        some ⟨D.setFile s.fileName (writeAt old n piece), D.setPos p t (n + piece.length)⟩
      | none => none
    | _, _ => none

/-- The events in their order. -/
def diskRun (ts : List Saver) (text : Nat → SaverKind → List Char) (D : Disk) : List DiskEvent → Option Disk
  | [] => some D
  | e :: es =>
    match diskStep ts text D e with
    | some D' => diskRun ts text D' es
    | none => none

end Verif.Tasks
