import Verif.Mpi.Arr

/-!
# Model of `MPIArray`: `wrap`, `redistribute`, `gather`, `allgather`

Models `caput/mpiarray.py`. Processes are numbered `0 … P-1`. `redistribute` is a transition system:
in each transition one process performs the next action of its loop (fill the send buffer and post
the message; or receive a message and copy it out), and a process whose message has not been sent
yet is blocked. A schedule is any list of process numbers.
-/
namespace Verif.Mpi

open Verif.Split (splitLocal)

/-- Start and stop of process `r`'s block of an axis of length `n` (`split_all(n)[1:, r]`,
mpitools.py:506-531). The code only uses it for `r < P`, where `splitLocal` does not fail (C01). -/
def bounds (n P r : Nat) : Nat × Nat :=
  match splitLocal n P r with
  | .ok (_, s, e) => (s, e)
  | .error _ => (0, 0)

/-- Length of process `r`'s block. -/
def num (n P r : Nat) : Nat := (bounds n P r).2 - (bounds n P r).1

/-- `max(e - s)` over all processes (mpiarray.py:804-805). -/
def maxNum (n P : Nat) : Nat := ((List.range P).map (num n P)).foldl max 0

/-- Python list indexing by a possibly negative axis number; `none` is an `IndexError`. -/
def axisOf (d : Nat) (axis : Int) : Option (Fin d) :=
  if h : 0 ≤ axis ∧ axis < d then some ⟨axis.toNat, by omega⟩
  else if h : axis < 0 ∧ 0 ≤ axis + d then some ⟨(axis + d).toNat, by omega⟩
  else none

/-! ### `wrap` -/

/-- What one process sees of a collective call: it returns, it raises, or it waits for ever for
another process that has raised before joining the communication. -/
inductive Outcome (β : Type) where
  | returns (b : β)
  | raises (e : PyErr)
  | hangs
  deriving DecidableEq, Repr

/-- `allreduce(x)` with the default operation SUM (mpitools.py:128-135). -/
def allSum (P : Nat) (f : Nat → Nat) : Nat := ((List.range P).map f).sum

/-- `allreduce(x, op=MAX)` of truth values. -/
def allAny (P : Nat) (f : Nat → Bool) : Bool := (List.range P).any f

/-- mpiarray.py:690-743 `wrap(array, axis)` on all processes. `len r` is `array.shape[axis]` on
process `r`, or `none` if that raises `IndexError`; such a process raises `AxisException` at line 718
before the first `allreduce`, so the others wait for it for ever. A successful call returns the
global length and the local start given to `_view_from_data_and_params` (the data is not copied). -/
def wrap (P : Nat) (len : Nat → Option Nat) (r : Nat) : Outcome (Nat × Nat) :=
  match len r with
  | none => .raises .axisException
  | some _ =>
    if (List.range P).any fun q => (len q).isNone then .hangs
    else
      let total := allSum P fun q => (len q).getD 0
      if allAny P fun q => (len q).getD 0 != num total P q then .raises .axisException
      else .returns (total, (bounds total P r).1)

/-! ### `redistribute` -/

/-- What is fixed during one call of `redistribute`: number of processes, global shape, position
of the old axis (`self.axis`) and the new axis (`axis`), and the local arrays. -/
structure Env (d : Nat) (α : Type) where
  P : Nat
  gs : Idx d
  a : Fin d
  b : Fin d
  arr : Nat → Arr d α

namespace Env
variable {d : Nat} {α : Type} (env : Env d α)

/-- mpiarray.py:787-789: shape of the new local array. -/
def targetShape (r : Nat) : Idx d := upd env.gs env.b (num (env.gs env.b) env.P r)

/-- mpiarray.py:803-805: shape of the send and receive buffers. -/
def bufShape (r : Nat) : Idx d :=
  upd (upd (env.targetShape r) env.a (maxNum (env.gs env.a) env.P)) env.b
    (maxNum (env.gs env.b) env.P)

/-- `np.insert(eac, 0, sac[0])` (mpiarray.py:801). -/
def cut (q : Nat) : Nat :=
  if q = 0 then (bounds (env.gs env.b) env.P 0).1 else (bounds (env.gs env.b) env.P (q - 1)).2

/-- mpiarray.py:801: element `q` of `np.array_split(arr, …, axis)[1:]` on process `r`. -/
def block (r q : Nat) : Arr d α :=
  (env.arr r).slice (upd (env.arr r).full env.b (env.cut q, env.cut (q + 1)))

/-- mpiarray.py:825-826. -/
def sendTo (r i : Nat) : Nat := (r + i) % env.P
/-- mpiarray.py:825-826 (`i < P`, so adding `P` gives Python's non-negative remainder). -/
def recvFrom (r i : Nat) : Nat := (r + env.P - i) % env.P

/-- mpiarray.py:817, 829: `sendsl`, set at `self.axis` before the loop, then at `axis`. -/
def sendSl (r i : Nat) : Sl d :=
  upd (upd (fun k => (0, env.bufShape r k)) env.a (0, num (env.gs env.a) env.P r)) env.b
    (0, num (env.gs env.b) env.P (env.sendTo r i))

/-- mpiarray.py:818, 851: `recvsl`, set at `axis` before the loop, then at `self.axis`. -/
def recvSl (r i : Nat) : Sl d :=
  upd (upd (fun k => (0, env.bufShape r k)) env.b (0, num (env.gs env.b) env.P r)) env.a
    (0, num (env.gs env.a) env.P (env.recvFrom r i))

/-- mpiarray.py:850: `targetsl`. -/
def targetSl (r i : Nat) : Sl d :=
  upd (fun k => (0, env.targetShape r k)) env.a (bounds (env.gs env.a) env.P (env.recvFrom r i))

/-- mpiarray.py:829-830: fill the send buffer in round `i`. -/
def stage (r i : Nat) (buf : Arr d α) : Except PyErr (Arr d α) :=
  buf.assign (env.sendSl r i) (env.block r (env.sendTo r i))

/-- mpiarray.py:850-853: copy the received buffer out in round `i`. -/
def store (r i : Nat) (target msg : Arr d α) : Except PyErr (Arr d α) :=
  target.assign (env.targetSl r i) (msg.slice (env.recvSl r i))

end Env

/-- State of all processes during `redistribute`. `pc r = 2i`: process `r` is about to fill its
buffer and post its message of round `i`; `pc r = 2i+1`: it waits for its message of round `i`. Each
ordered pair of processes exchanges one message (its tag `csize*source+dest` names the pair), so
messages under way are kept by source and destination. -/
structure RState (d : Nat) (α : Type) where
  pc : Nat → Nat
  sbuf : Nat → Arr d α
  target : Nat → Arr d α
  mail : Nat → Nat → Option (Arr d α)
  err : Nat → Option PyErr

namespace RState
variable {d : Nat} {α : Type}

/-- A process stops with an exception. -/
def fail (s : RState d α) (r : Nat) (e : PyErr) : RState d α := { s with err := upd s.err r (some e) }

/-- Process `r` has filled its send buffer with `b` and posts it for process `q`. -/
def sent (s : RState d α) (r q : Nat) (b : Arr d α) : RState d α :=
  { s with
    pc := upd s.pc r (s.pc r + 1)
    sbuf := upd s.sbuf r b
    mail := upd s.mail r (upd (s.mail r) q (some b)) }

/-- Process `r` has received the message of process `q`; its result array is now `t`. -/
def received (s : RState d α) (r q : Nat) (t : Arr d α) : RState d α :=
  { s with
    pc := upd s.pc r (s.pc r + 1)
    target := upd s.target r t
    mail := upd s.mail q (upd (s.mail q) r none) }

/-- First half of a round (mpiarray.py:824-835). -/
def sendStep (env : Env d α) (s : RState d α) (r : Nat) : RState d α :=
  match env.stage r (s.pc r / 2) (s.sbuf r) with
  | .error e => s.fail r e
  | .ok b => s.sent r (env.sendTo r (s.pc r / 2)) b

/-- Second half of a round with the message that has arrived (mpiarray.py:836-853). -/
def recvStep (env : Env d α) (s : RState d α) (r : Nat) (m : Arr d α) : RState d α :=
  match env.store r (s.pc r / 2) (s.target r) m with
  | .error e => s.fail r e
  | .ok t => s.received r (env.recvFrom r (s.pc r / 2)) t

/-- The next action of process `r`; `none` if it has finished, has raised, or is blocked. -/
def step (env : Env d α) (s : RState d α) (r : Nat) : Option (RState d α) :=
  if (s.err r).isSome ∨ 2 * env.P ≤ s.pc r ∨ env.P ≤ r then none
  else if s.pc r % 2 = 0 then some (s.sendStep env r)
  else
    match s.mail (env.recvFrom r (s.pc r / 2)) r with
    | none => none
    | some m => some (s.recvStep env r m)

/-- Run a schedule; a process that cannot act when scheduled is skipped. -/
def run (env : Env d α) (s : RState d α) (sched : List Nat) : RState d α :=
  sched.foldl (fun s r => (s.step env r).getD s) s

/-- Has every process left the loop? -/
def finished (env : Env d α) (s : RState d α) : Prop := ∀ r, r < env.P → s.pc r = 2 * env.P

/-- mpiarray.py:780-820: the state before the loop. The send buffer and the target are fresh memory
with arbitrary content (`junkS`, `junkT`). `enough r` is the answer of the memory check (lines
779-784), which is made for each node separately. -/
def start (env : Env d α) (enough : Nat → Bool) (junkS junkT : Nat → Idx d → α) : RState d α where
  pc := fun _ => 0
  sbuf := fun r => ⟨env.bufShape r, junkS r⟩
  target := fun r => ⟨env.targetShape r, junkT r⟩
  mail := fun _ _ => none
  err := fun r => if enough r then none else some .memoryError

end RState

/-- How `redistribute(axis)` proceeds (mpiarray.py:766-781). -/
inductive Plan (d : Nat) where
  /-- The array itself is returned. -/
  | same
  /-- One process: the local array is wrapped. -/
  | wrapLocal
  /-- Several processes: the exchange of `RState`, with positions of the old and the new axis. -/
  | exchange (a b : Fin d)
  /-- `IndexError` in `self.global_shape[axis]` (line 616). -/
  | indexError

/-- mpiarray.py:766-781. Axes are compared as they were given, so `-1` and `d - 1` differ. -/
def redistPlan (d P : Nat) (selfAxis axis : Int) : Plan d :=
  if selfAxis = axis then .same
  else if P = 1 then .wrapLocal
  else
    match axisOf d selfAxis, axisOf d axis with
    | some a, some b => .exchange a b
    | _, _ => .indexError

/-- mpiarray.py:767-776 and 789-791: the attribute `axis` of the array that `redistribute(axis)` returns, when the
array was distributed over `selfAxis`. `comm` is the number of processes, `none` without `mpi4py`; then the array itself
is returned whatever `axis` is. For an axis that is not there `MPIArray.wrap` (719-726) raises `AxisException` and
`MPIArray(…)` (609) `IndexError`; both store the number as it was given (743, 624). -/
def redistAxis (d : Nat) (comm : Option Nat) (selfAxis axis : Int) : Except PyErr Int :=
  match comm with
  | none => .ok selfAxis
  | some P =>
    match redistPlan d P selfAxis axis with
    | .same => .ok selfAxis
    | .wrapLocal =>
      match axisOf d axis with
      | none => .error .axisException
      | some _ => .ok axis
    | .exchange _ _ => .ok axis
    | .indexError => .error .indexError

/-! ### `gather` and `allgather` -/

/-- The slices `[:, …, s:e, …]` used at mpiarray.py:1576-1578 and 1608-1609. -/
def axisSl {d : Nat} (gs : Idx d) (a : Fin d) (b : Nat × Nat) : Sl d := upd (fun k => (0, gs k)) a b

/-- mpiarray.py:1551-1553 and 1597-1599: the temporary buffer of round `ri` when it is created. -/
def fresh {d : Nat} {α : Type} (gs : Idx d) (a : Fin d) (P : Nat) (junk : Nat → Idx d → α) (ri : Nat) :
    Arr d α := ⟨upd gs a (num (gs a) P ri), junk ri⟩

/-- One round of `gather` on the root (mpiarray.py:1548-1579): what the receive buffer holds when it
is copied into the result. For `ri ≠ root` the receive has been waited for, so it holds the local
array of `ri`. For `ri = root` line 1559 overwrites `request` by the send, both waits are for the
send, and the buffer (created by `np.empty`) is copied whether or not the message has arrived. -/
def gatherBuf {d : Nat} {α : Type} (loc : Nat → Arr d α) (empty : Nat → Arr d α)
    (root : Nat) (selfArrived : Bool) (ri : Nat) : Arr d α :=
  if ri = root then (if selfArrived then loc ri else empty ri) else loc ri

/-- Copying the buffers of all rounds into the result. -/
def collect {d : Nat} {α : Type} (gs : Idx d) (a : Fin d) (P : Nat) (buf : Nat → Arr d α)
    (arr : Arr d α) : Except PyErr (Arr d α) :=
  (List.range P).foldlM (fun A ri => A.assign (axisSl gs a (bounds (gs a) P ri)) (buf ri)) arr

/-- mpiarray.py:1522-1581 `gather(rank)` on process `r`. Each process sends one message, and the
root receives by source, so the message for round `ri` is the local array of `ri`. The result
and the receive buffers are fresh memory with arbitrary content (`junk`, `junkB`). -/
def gather {d : Nat} {α : Type} (gs : Idx d) (a : Fin d) (P root : Nat) (loc : Nat → Arr d α)
    (selfArrived : Bool) (junk : Idx d → α) (junkB : Nat → Idx d → α) (r : Nat) :
    Except PyErr (Option (Arr d α)) :=
  if r = root then
    (collect gs a P (gatherBuf loc (fresh gs a P junkB) root selfArrived) ⟨gs, junk⟩).map some
  else .ok none

/-- mpiarray.py:1601-1605: the buffer that process `ri` broadcasts in round `ri`: its temporary
buffer, after its local array has been copied into it. -/
def bcastBuf {d : Nat} {α : Type} (gs : Idx d) (a : Fin d) (P : Nat) (loc : Nat → Arr d α)
    (junkB : Nat → Idx d → α) (ri : Nat) : Except PyErr (Arr d α) :=
  (fresh gs a P junkB ri).assign (fresh gs a P junkB ri).full (loc ri)

/-- mpiarray.py:1583-1612 `allgather()` on any process: in round `ri` every process gets the buffer
broadcast by `ri` and copies it into its result. `junk` is the content of its fresh result array. -/
def allgather {d : Nat} {α : Type} (gs : Idx d) (a : Fin d) (P : Nat) (loc : Nat → Arr d α)
    (junk : Idx d → α) (junkB : Nat → Idx d → α) : Except PyErr (Arr d α) :=
  (List.range P).foldlM (fun A ri => do
    let t ← bcastBuf gs a P loc junkB ri
    A.assign (axisSl gs a (bounds (gs a) P ri)) t) ⟨gs, junk⟩

end Verif.Mpi
