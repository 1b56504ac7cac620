/-!
# Model of making the directory of an output

Models, from `caput/pipeline/extensions/_extensions.py`, lines 134-136 (in `_OneAndOne.read_process_write`), 359-367 (in
`GroupIOMixin.write_output`) and 499-507 (in `ContainerIOMixin.write_output`), and from Python's library `os.makedirs(name)` and
`os.path.isdir`. Every access to the file system is one step; steps of several processes are interleaved.

The file system holds files and directories; permissions and links are left out. A path is a list of names; `.` and `..` do not occur in it.
-/
namespace Verif.Dirs

inductive Kind where
  | dir
  | file
  deriving DecidableEq

abbrev Path := List String

abbrev FS := Path → Option Kind

inductive Err where
  | fileExists
  | notFound
  | notADirectory
  deriving DecidableEq

/-- Which of the three places. -/
inductive Caller where
  | task
  | group
  | container
  deriving DecidableEq

/-- A process that is about to write: from where, and the directory as it is written in the file name, which is relative to `base` (the current directory)
or absolute (`base` is the root). -/
structure Proc where
  caller : Caller
  relative : Bool
  base : Path
  comps : Path

/-- The directory is written as `""`. -/
def Proc.bare (p : Proc) : Bool := p.relative && p.comps.isEmpty

/-- The first `k` directories. -/
def Proc.path (p : Proc) (k : Nat) : Path := p.base ++ p.comps.take k

def Proc.len (p : Proc) : Nat := p.comps.length

/-- `os.path.isdir(dirname)`. -/
def Proc.isdir (p : Proc) (fs : FS) : Bool := !p.bare && fs (p.path p.len) == some .dir

/-- Where a process is: before the test; in `os.makedirs` for the first `k` names, before the test whether there is a parent, or before `os.mkdir`; in the
handler of an exception; through; or an exception came out. -/
inductive PC where
  | start
  | check (k : Nat)
  | mk (k : Nat)
  | handler (e : Err)
  | done
  | failed (e : Err)
  deriving DecidableEq

/-- `os.mkdir`. -/
def mkdir (fs : FS) (q : Path) : FS × Option Err :=
  match fs q with
  | some _ => (fs, some .fileExists)
  | none =>
    match fs q.dropLast with
    | some .dir => (fun r => if r = q then some .dir else fs r, none)
    | some .file => (fs, some .notADirectory)
    | none => (fs, some .notFound)

/-- An exception from `os.makedirs`: handled at lines 364-367 and 504-507, not at 136. -/
def Proc.raise (p : Proc) (e : Err) : PC :=
  match p.caller with
  | .task => .failed e
  | _ => .handler e

/-- One step of a process. -/
def Proc.step (p : Proc) (fs : FS) : PC → FS × PC
  | .start =>
    -- lines 135, 361, 501
    if p.caller = .container ∧ p.bare = true then (fs, .done)
    else if p.isdir fs then (fs, .done)
    else (fs, .check p.len)
  | .check k =>
    -- `if head and tail and not path.exists(head): makedirs(head)`
    if k ≤ 1 ∨ (fs (p.path (k - 1))).isSome then (fs, .mk k) else (fs, .check (k - 1))
  | .mk k =>
    -- `mkdir("")` does not work
    if p.bare then (fs, p.raise .notFound)
    else
      match mkdir fs (p.path k) with
      | (fs1, none) => if k = p.len then (fs1, .done) else (fs1, .mk (k + 1))
      | (fs1, some .fileExists) =>
        -- `except FileExistsError: pass` for all but the last
        if k = p.len then (fs1, p.raise .fileExists) else (fs1, .mk (k + 1))
      | (fs1, some e) => (fs1, p.raise e)
  | .handler e => if p.isdir fs then (fs, .done) else (fs, .failed e)
  | .done => (fs, .done)
  | .failed e => (fs, .failed e)

/-- The file system and where every process is. -/
structure World where
  fs : FS
  pcs : List PC

/-- What happens next: a process makes a step, or some other program makes a directory. -/
inductive Move where
  | proc (i : Nat)
  | other (q : Path)

def World.move (ps : List Proc) (w : World) : Move → World
  | .proc i =>
    match ps[i]?, w.pcs[i]? with
    | some p, some pc => ⟨(p.step w.fs pc).1, w.pcs.set i (p.step w.fs pc).2⟩
    | _, _ => w
  | .other q => ⟨(mkdir w.fs q).1, w.pcs⟩

def World.run (ps : List Proc) (w : World) (ms : List Move) : World := ms.foldl (World.move ps) w

/-- All processes before their first step. -/
def World.start (ps : List Proc) (fs : FS) : World := ⟨fs, ps.map fun _ => .start⟩

end Verif.Dirs
