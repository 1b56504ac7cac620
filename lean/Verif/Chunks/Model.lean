import Verif.Split.Model

/-!
# Model of processes that write chunks of a Zarr file at the same time

Models the writing in `MPIArray.to_zarr` (`caput/mpiarray.py:1255-1302`), `ZarrProcessSynchronizer` and `remove_file_or_dir`
(`caput/memdata/fileformats.py:339-384`), and from the library `zarr` how a chunk is changed when a synchronizer is given: the lock of the chunk is taken (a lock
file in the directory of the synchronizer), the chunk is read, changed, written back as a whole, and the lock is given back.

One round is one call: the processes meet at a barrier (two in the code, between which process 0 makes the dataset, which is left out), write, meet again, and process 0
removes the directory of lock files. A lock file that is made after that is another one, so that locks taken before and after do not exclude each other.

Left out: failures of processes; `to_zarr` on a group that was opened by the caller, where the caller removes the directory (`_memh5.py:2815-2831`, after a barrier as well).
-/
namespace Verif.Chunks

/-- A part of the array that a process writes: some cells of a chunk. -/
structure Write (κ α : Type) where
  chunk : κ
  cells : Nat → Option α

/-- The chunk with these cells changed. -/
def Write.apply {κ α : Type} (w : Write κ α) (b : Nat → α) : Nat → α := fun x =>
  match w.cells x with
  | some v => v
  | none => b x

/-- Where a process is: before the first barrier of a round; about to take the lock for its next write; with the lock, about to read; with what it has read; about to give back the
lock; at the last barrier; about to remove the lock files. Locks are of the directory number `g`. -/
inductive Stage (α : Type) where
  | start
  | ready
  | locked (g : Nat)
  | holding (g : Nat) (b : Nat → α)
  | written (g : Nat)
  | finish
  | clean

/-- A process: rounds it has been through, where it is, what it has to write in this round, and in later ones. -/
structure Proc (κ α : Type) where
  round : Nat
  stage : Stage α
  now : List (Write κ α)
  later : List (List (Write κ α))

/-- The chunks in the file; the number of the directory of lock files, who has which lock, and the files in the directory, which stay when a lock is given back; the processes. -/
structure St (κ α : Type) where
  store : κ → Nat → α
  gen : Nat
  locks : Nat → κ → Option Nat
  files : List κ
  procs : Nat → Proc κ α

def upd {κ β : Type} [DecidableEq κ] (f : κ → β) (a : κ) (v : β) : κ → β := fun x => if x = a then v else f x

/-- How many barriers a process has passed. -/
def Proc.passed {κ α : Type} (p : Proc κ α) : Nat :=
  match p.stage with
  | .start => 2 * p.round
  | .clean => 2 * p.round + 2
  | _ => 2 * p.round + 1

/-- The process has called `Barrier`. -/
def Proc.arrived {κ α : Type} (p : Proc κ α) : Bool :=
  match p.stage with
  | .start => !p.later.isEmpty
  | .finish => true
  | _ => false

/-- All others have called `Barrier` as often. -/
def passes {κ α : Type} (n : Nat) (s : St κ α) (i : Nat) : Bool :=
  (List.range n).all fun j => decide ((s.procs i).passed < (s.procs j).passed) ||
    (decide ((s.procs j).passed = (s.procs i).passed) && (s.procs j).arrived)

def Proc.next {κ α : Type} (p : Proc κ α) : Proc κ α := { p with round := p.round + 1, stage := .start, now := [] }

def St.set {κ α : Type} (s : St κ α) (i : Nat) (p : Proc κ α) : St κ α := { s with procs := upd s.procs i p }

variable {κ α : Type} [DecidableEq κ]

/-- A step of process `i` of `n`; `none`: it has to wait, or is through. -/
def step (n : Nat) (s : St κ α) (i : Nat) : Option (St κ α) :=
  let p := s.procs i
  match p.stage with
  | .start =>
    match p.later with
    | [] => none
    | ws :: rest => if passes n s i then some (s.set i { p with stage := .ready, now := ws, later := rest }) else none
  | .ready =>
    match p.now with
    | [] => some (s.set i { p with stage := .finish })
    | w :: _ =>
      match s.locks s.gen w.chunk with
      | some _ => none
      | none => some { s.set i { p with stage := .locked s.gen } with locks := upd s.locks s.gen (upd (s.locks s.gen) w.chunk (some i)), files := w.chunk :: s.files }
  | .locked g =>
    match p.now with
    | [] => none
    | w :: _ => some (s.set i { p with stage := .holding g (s.store w.chunk) })
  | .holding g b =>
    match p.now with
    | [] => none
    | w :: _ => some { s.set i { p with stage := .written g } with store := upd s.store w.chunk (w.apply b) }
  | .written g =>
    match p.now with
    | [] => none
    | w :: ws => some { s.set i { p with stage := .ready, now := ws } with locks := upd s.locks g (upd (s.locks g) w.chunk none) }
  | .finish =>
    if passes n s i then
      if i = 0 then some (s.set i { p with stage := .clean }) else some (s.set i p.next)
    else none
  | .clean => some { s.set i p.next with gen := s.gen + 1, files := [] }

/-- The processes get their turns in this order; who has to wait does nothing. -/
def run (n : Nat) (s : St κ α) : List Nat → St κ α
  | [] => s
  | i :: is =>
    match (if i < n then step n s i else none) with
    | none => run n s is
    | some s' => run n s' is

/-- Before the first round; `prog i` is what process `i` writes, round by round. -/
def St.init (store : κ → Nat → α) (prog : Nat → List (List (Write κ α))) : St κ α :=
  ⟨store, 0, fun _ _ => none, [], fun i => ⟨0, .start, [], prog i⟩⟩

/-- A process has been through all rounds. -/
def Proc.finished (p : Proc κ α) : Bool :=
  match p.stage with
  | .start => p.later.isEmpty
  | _ => false

/-! ### The array of `to_zarr`

Rows of an array (whatever is in them), `ck` in a chunk; process `r` has the rows that `split_local` gives it. -/

/-- The rows `lo ≤ g < hi` in chunk `k`. -/
def rowWrite (ck : Nat) (v : Nat → α) (lo hi k : Nat) : Write Nat α :=
  ⟨k, fun x => if x < ck ∧ lo ≤ k * ck + x ∧ k * ck + x < hi then some (v (k * ck + x)) else none⟩

/-- Rows `lo ≤ g < hi`, chunk by chunk, as `zarr` does for `group[dataset][islice] = ...`. -/
def rowWrites (ck : Nat) (v : Nat → α) (lo hi : Nat) : List (Write Nat α) :=
  ((List.range ((hi + ck - 1) / ck)).filter fun k => decide (lo < hi ∧ lo < (k + 1) * ck)).map (rowWrite ck v lo hi)

/-- `mpiarray.py:1295-1299`: one call of `to_zarr`, for all processes. -/
def arrayProg (N size ck : Nat) (v : Nat → α) (r : Nat) : List (List (Write Nat α)) :=
  match Split.splitLocal N size r with
  | .error _ => []
  | .ok (_, lo, hi) => [rowWrites ck v lo hi]

/-! ### Where the lock files are

`mpiarray.py:1260` and `_memh5.py:2821`: the directory of lock files is `.{f}.sync`, a name that is relative to the current directory. -/

/-- The parts of the name of the directory of lock files, for a file given as a relative or absolute name with these parts. -/
def lockPath (absolute : Bool) : List String → List String
  | [] => []
  | [f] => if absolute then [f ++ ".sync"] else ["." ++ f ++ ".sync"]
  | d :: f :: fs => if absolute then d :: (f :: fs).dropLast ++ [(f :: fs).getLast (by simp) ++ ".sync"]
    else ("." ++ d) :: (f :: fs).dropLast ++ [(f :: fs).getLast (by simp) ++ ".sync"]

/-- Directories below the current one after lock files have been made in `p`: it and all above it. -/
def madeDirs (dirs : List (List String)) (p : List String) : List (List String) := dirs ++ (List.range p.length).map fun k => p.take (k + 1)

/-- `remove_file_or_dir(p)`: `p` and what is in it. -/
def removeTree (dirs : List (List String)) (p : List String) : List (List String) := dirs.filter fun q => !p.isPrefixOf q

/-- Directories below the current one after a call of `to_zarr`. -/
def leftDirs (absolute : Bool) (dirs : List (List String)) (f : List String) : List (List String) :=
  removeTree (madeDirs dirs (lockPath absolute f)) (lockPath absolute f)

end Verif.Chunks
