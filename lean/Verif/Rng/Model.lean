/-!
# Model of the threads of `MultithreadedRNG`

Models `caput/algorithms/random.py:83-239`: the generators of the threads, how an array is split between them, and
the workers that fill it. Which calls get here is modelled in `Rng/Call.lean`.

A generator is its state `S`; `draw g n` is `n` numbers from it (the methods of `numpy.random.Generator` with a
size, or with an array to fill) together with the new state. The array is its memory, indexed by the position in
`out.ravel()`. The threads run as small steps in any order: each takes its numbers from its own generator, and
then writes them one after the other. The division in `np.ceil(flatsize / threads)` is exact, as it is for arrays
with fewer than 2^53 elements.
-/
namespace Verif.Rng

variable {S α : Type}

/-- A worker: not started yet, with the first position and the length of its slice; or writing, with the writes
that are left. -/
inductive Worker (S α : Type) where
  | ready (g : S) (pos len : Nat)
  | writing (g : S) (todo : List (Nat × α))

/-- Is `_fill` done? -/
def Worker.done : Worker S α → Bool
  | .ready _ _ _ => false
  | .writing _ todo => todo.isEmpty

/-- The generator. -/
def Worker.gen : Worker S α → S
  | .ready g _ _ => g
  | .writing g _ => g

/-- The memory, the workers, and the positions written so far, the latest first. -/
structure Machine (S α : Type) where
  mem : Nat → α
  workers : List (Worker S α)
  log : List Nat

/-- random.py:202: `int(np.ceil(flatsize / self._threads))`. -/
def stepSize (n threads : Nat) : Nat := (n + threads - 1) / threads

/-- The first position of `[i * step : (i + 1) * step]` in an array of `n` elements. -/
def sliceStart (n step i : Nat) : Nat := min (i * step) n

/-- The length of that slice. -/
def sliceLen (n step i : Nat) : Nat := min ((i + 1) * step) n - min (i * step) n

/-- random.py:223-230: the jobs given to the executor. -/
def jobs (n step : Nat) : Nat → List S → List (Worker S α)
  | _, [] => []
  | i, g :: gs => .ready g (sliceStart n step i) (sliceLen n step i) :: jobs n step (i + 1) gs

/-- What a worker writes. -/
def writesFrom : Nat → List α → List (Nat × α)
  | _, [] => []
  | p, v :: vs => (p, v) :: writesFrom (p + 1) vs

/-- One step of a worker (random.py:206-220): the worker afterwards and the write, if there is one. -/
def Worker.step (draw : S → Nat → List α × S) : Worker S α → Option (Worker S α × Option (Nat × α))
  | .ready g pos len => some (.writing (draw g len).2 (writesFrom pos (draw g len).1), none)
  | .writing _ [] => none
  | .writing g (w :: ws) => some (.writing g ws, some w)

/-- Carry out a write. -/
def Machine.write (m : Machine S α) : Option (Nat × α) → Machine S α
  | none => m
  | some (p, v) => { m with mem := fun q => if q = p then v else m.mem q, log := p :: m.log }

/-- Worker `i` makes a step; `none` if it cannot. -/
def Machine.step (draw : S → Nat → List α × S) (m : Machine S α) (i : Nat) : Option (Machine S α) :=
  match m.workers[i]? with
  | none => none
  | some w =>
    match w.step draw with
    | none => none
    | some (w', e) => some (({ m with workers := m.workers.set i w' } : Machine S α).write e)

/-- The workers make steps in the given order. -/
def Machine.run (draw : S → Nat → List α × S) : Machine S α → List Nat → Option (Machine S α)
  | m, [] => some m
  | m, i :: is =>
    match m.step draw i with
    | none => none
    | some m' => m'.run draw is

/-- The machine at the start of a call; `gens` are the generators, one per thread. -/
def start (gens : List S) (mem : Nat → α) (n : Nat) : Machine S α :=
  ⟨mem, jobs n (stepSize n gens.length) 0 gens, []⟩

/-- random.py:231: `concurrent.futures.wait(futures)` returns. -/
def Machine.finished (m : Machine S α) : Prop := ∀ w ∈ m.workers, w.done = true

/-- random.py:102-105: the generators of the threads, made from the seed. -/
def initGens {Seed : Type} (spawn : Seed → Nat → S) (seed : Seed) (threads : Nat) : List S :=
  (List.range threads).map (spawn seed)

end Verif.Rng
