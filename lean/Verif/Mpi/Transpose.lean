import Verif.Mpi.Model

/-!
# Model of `transpose_blocks`

Models `caput/util/mpitools.py:725-836`. An array with at least one axis is given by the lengths of
its leading axes, the length of its last axis, and its rows along the last axis in row-major order.
-/
namespace Verif.Mpi

variable {α : Type}

/-- An array as a list of rows: `lead` is `shape[:-1]`, `last` is `shape[-1]`. -/
structure Rows (α : Type) where
  lead : List Nat
  last : Nat
  rows : List (List α)
  deriving DecidableEq

/-- `np.prod`. -/
def prodL (l : List Nat) : Nat := l.foldr (· * ·) 1

/-- `flat.reshape(n, c)` (without the check of the size). -/
def chunks (n c : Nat) (flat : List α) : List (List α) :=
  (List.range n).map fun k => (flat.drop (k * c)).take c

/-- mpitools.py:771: `row_array[:nr, ..., :nc].reshape(pr, nc)`. An array with one axis only cannot be
indexed with two slices. -/
def localRows (nr nc pr : Nat) (A : Rows α) : Except PyErr (List (List α)) :=
  match A.lead with
  | [] => .error .indexError
  | d0 :: mid =>
    let flat := ((A.rows.take (min d0 nr * prodL mid)).map (List.take nc)).flatten
    if flat.length = pr * nc then .ok (chunks pr nc flat) else .error .valueError

/-- mpitools.py:797: `row_array[:, sic:eic].copy()`. -/
def colBlock (b : Nat × Nat) (rows : List (List α)) : List (List α) :=
  rows.map fun row => (row.drop b.1).take (b.2 - b.1)

/-- A message received into `recv_buffer[sir:eir]` (mpitools.py:805-808). -/
def setRows (buf : List (List α)) (s : Nat) (rows : List (List α)) : List (List α) :=
  buf.take s ++ rows ++ buf.drop (s + rows.length)

/-- mpitools.py:781-833 on process `r`: the messages arrive in the given order; `rowsOf ir` is what
process `ir` made of its array at line 771. -/
def exchange (nr nc nm P r : Nat) (rowsOf : Nat → List (List α)) (order : List Nat)
    (buf : List (List α)) : List (List α) :=
  order.foldl (fun buf ir =>
    setRows buf ((bounds nr P ir).1 * nm) (colBlock (bounds nc P r) (rowsOf ir))) buf

/-- The value of a successful call; only used for calls that succeed. -/
def okRows (e : Except PyErr (List (List α))) : List (List α) :=
  match e with
  | .ok x => x
  | .error _ => []

/-- Did the call raise? -/
def failed {β : Type} (e : Except PyErr β) : Bool :=
  match e with
  | .ok _ => false
  | .error _ => true

/-- mpitools.py:752-758: one process. A tuple is never equal to a list, so a `shape` given as a list is
rejected. -/
def transposeSerial (shapeIsTuple : Bool) (lead : List Nat) (nc : Nat) (A : Rows α) :
    Except PyErr (Rows α) :=
  if shapeIsTuple = true ∧ A.lead = lead then .ok ⟨A.lead, min A.last nc, A.rows.map (List.take nc)⟩
  else .error .valueError

/-- mpitools.py:760-836 on process `r` of several. `junk k` is row `k` of the fresh receive buffer. A
process whose array does not have the right size raises before the barrier at line 811, where the
others then wait for ever. The global shape is `nr :: mid ++ [nc]` (at least two axes). -/
def transposeMany (nr : Nat) (mid : List Nat) (nc P : Nat) (arrs : Nat → Rows α) (order : List Nat)
    (junk : Nat → List α) (r : Nat) : Outcome (Rows α) :=
  let nm := prodL mid
  match localRows nr nc (num nr P r * nm) (arrs r) with
  | .error e => .raises e
  | .ok _ =>
    if (List.range P).any fun q => failed (localRows nr nc (num nr P q * nm) (arrs q)) then .hangs
    else
      .returns ⟨nr :: mid, num nc P r,
        exchange nr nc nm P r (fun q => okRows (localRows nr nc (num nr P q * nm) (arrs q))) order
          ((List.range (nr * nm)).map junk)⟩

end Verif.Mpi
