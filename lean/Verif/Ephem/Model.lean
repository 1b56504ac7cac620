/-!
# Model of the loading of astronomical data

Models `caput/astro/skyfield.py:32-172` (`SkyfieldWrapper`).

Of the library `skyfield` the loader is modelled as far as it is used: `load(name)` opens a file of its directory and downloads it from
the official source before if it is not there; `load.timescale` does so with a number of files; `load.download` always
downloads, over a file that is there. A download raises `OSError` or leaves the file. The contents of a file are a
number, its version. The two sources are arbitrary functions of the moment (counted in downloads) and the file. Without
`skyfield` no function of the module works (it is imported at the top): this case is left out.
-/
namespace Verif.Ephem

/-- Names of files. -/
abbrev File := Nat

/-- What the sources have at a moment; `none`: the download fails. -/
structure Net where
  official : Nat → File → Option Nat
  mirror : Nat → File → Option Nat

/-- The names: the files the timescale is made from (by the library), those of line 113, that of line 171, the ephemeris. -/
structure Names where
  timescale : List File
  leap : File
  finals : File
  ephemeris : File

/-- A loaded object: which it is, and the versions of the files it was made from. -/
structure Obj where
  id : Nat
  versions : List Nat
  deriving DecidableEq, Repr

/-- The wrapper, its directory, and the number of downloads so far. `next`: the number of objects made so far. -/
structure State where
  clock : Nat
  disk : File → Option Nat
  ts : Option Obj
  eph : Option Obj
  next : Nat

/-- A download: true if it worked. -/
def fetch (src : Nat → File → Option Nat) (f : File) (s : State) : State × Bool :=
  match src s.clock f with
  | some v => ({ s with clock := s.clock + 1, disk := fun g => if g = f then some v else s.disk g }, true)
  | none => ({ s with clock := s.clock + 1 }, false)

/-- Downloads one after the other, up to the first that fails: skyfield.py:115-116, 171-172. -/
def fetchAll (src : Nat → File → Option Nat) : List File → State → State × Bool
  | [], s => (s, true)
  | f :: fs, s =>
    match fetch src f s with
    | (s1, true) => fetchAll src fs s1
    | (s1, false) => (s1, false)

/-- `load(f)`: the version of the file. -/
def openFile (net : Net) (f : File) (s : State) : State × Option Nat :=
  match s.disk f with
  | some v => (s, some v)
  | none =>
    match fetch net.official f s with
    | (s1, true) => (s1, s1.disk f)
    | (s1, false) => (s1, none)

def openAll (net : Net) : List File → State → State × Option (List Nat)
  | [], s => (s, some [])
  | f :: fs, s =>
    match openFile net f s with
    | (s1, none) => (s1, none)
    | (s1, some v) =>
      match openAll net fs s1 with
      | (s2, none) => (s2, none)
      | (s2, some vs) => (s2, some (v :: vs))

/-- skyfield.py:98-129 `timescale`; `none`: `OSError`. -/
def timescale (net : Net) (N : Names) (s : State) : State × Option Obj :=
  match s.ts with
  | some o => (s, some o)
  | none =>
    match openAll net N.timescale s with
    | (s1, some vs) => ({ s1 with ts := some ⟨s1.next, vs⟩, next := s1.next + 1 }, some ⟨s1.next, vs⟩)
    | (s1, none) =>
      match fetchAll net.mirror [N.leap, N.finals] s1 with
      | (s2, false) => (s2, none)
      | (s2, true) =>
        match openAll net N.timescale s2 with
        | (s3, some vs) => ({ s3 with ts := some ⟨s3.next, vs⟩, next := s3.next + 1 }, some ⟨s3.next, vs⟩)
        | (s3, none) => (s3, none)

/-- skyfield.py:134-163 `ephemeris`. -/
def ephemeris (net : Net) (N : Names) (s : State) : State × Option Obj :=
  match s.eph with
  | some o => (s, some o)
  | none =>
    match openFile net N.ephemeris s with
    | (s1, some v) => ({ s1 with eph := some ⟨s1.next, [v]⟩, next := s1.next + 1 }, some ⟨s1.next, [v]⟩)
    | (s1, none) =>
      match fetchAll net.mirror [N.ephemeris] s1 with
      | (s2, false) => (s2, none)
      | (s2, true) =>
        match openFile net N.ephemeris s2 with
        | (s3, some v) => ({ s3 with eph := some ⟨s3.next, [v]⟩, next := s3.next + 1 }, some ⟨s3.next, [v]⟩)
        | (s3, none) => (s3, none)

/-- skyfield.py:165-172 `reload`; false: `OSError`. -/
def reload (net : Net) (N : Names) (s : State) : State × Bool := fetchAll net.official [N.finals, N.ephemeris] s

/-- What a program does with the wrapper. -/
inductive Op where
  | timescale
  | ephemeris
  | reload
  deriving DecidableEq

def step (net : Net) (N : Names) (s : State) : Op → State
  | .timescale => (timescale net N s).1
  | .ephemeris => (ephemeris net N s).1
  | .reload => (reload net N s).1

def run (net : Net) (N : Names) (s : State) (ops : List Op) : State := ops.foldl (step net N) s

/-- skyfield.py:62-66: the directory, from the argument, the environment and the package. -/
def dataPath (path env : Option String) (package : String) : String :=
  match path with
  | some p => p
  | none =>
    match env with
    | some p => p
    | none => package

end Verif.Ephem
