/-!
# Model of the seeds of random tasks

Models `caput/pipeline/tasklib/random.py:30-92` (`RandomTask`) and `caput/pipeline/_pipeline.py:932-940` (a task gets its
configuration before its `__init__` is called). `zlib.adler32` is modelled from its definition (RFC 1950). The names
of classes are byte strings. Not modelled: the generator that is made from the seed (C50).
-/
namespace Verif.Rng

/-- One byte of Adler-32: the sum and the sum of sums. -/
def adlerStep (s : Nat × Nat) (x : Nat) : Nat × Nat := ((s.1 + x) % 65521, (s.2 + (s.1 + x) % 65521) % 65521)

/-- `zlib.adler32`. -/
def adler32 (l : List Nat) : Nat := let s := l.foldl adlerStep (1, 0); s.2 * 65536 + s.1

/-- random.py:42-49: the seed on all processes: from the configuration, or drawn on rank 0 and broadcast. -/
def jobSeed (cfg : Option Int) (entropy : Nat → Int) : Int :=
  match cfg with
  | none => entropy 0
  | some s => s

/-- random.py:55-58: the seed of one process. -/
def localSeed (seed : Int) (cls : List Nat) (rank : Nat) : Int := seed + ((rank : Int) + 1) * (adler32 cls : Int)

/-- A task on one process: its attribute `seed`, and the seed it uses. -/
structure RTask where
  cls : List Nat
  seed : Option Int
  used : Int

/-- _pipeline.py:932-940 with a configuration; and `cls()`, which has none. -/
def RTask.make (cls : List Nat) (cfg : Option Int) (entropy : Nat → Int) (rank : Nat) : RTask :=
  ⟨cls, cfg, localSeed (jobSeed cfg entropy) cls rank⟩

/-- Assignment to the attribute `seed`, or `read_config`, of a task that exists. -/
def RTask.setSeed (t : RTask) (s : Int) : RTask := { t with seed := some s }

end Verif.Rng
