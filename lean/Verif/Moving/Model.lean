import Verif.Median.Model

/-!
# Model of the moving weighted median

Models `moving_weighted_median`, `_mwm_1D` and `_mwm_2D` of `caput/algorithms/median/weighted.pyx`.
The tree is the one of `Verif.Median`; `add` is its addition of weights (exact, or rounded).

Simplifications. Data and weights have the same shape and are finite (`Item` pairs a datum with its
weight). The type checks of `_check_arrays` are left out. The parallel loop over the columns is a
loop: each column has its own tree and queue and writes its own column.
-/
namespace Verif.Moving
open Verif.Median

/-- How a call fails. `crash` is undefined behaviour (null pointer, front of an empty queue),
`outOfBounds` a write outside of an array. -/
inductive Err where
  | valueError
  | indexError
  | typeError
  | notImplemented
  | runtimeError
  | invalidArgument
  | crash
  | outOfBounds
deriving DecidableEq, Repr

/-- An output sample. -/
inductive Out where
  | nan
  | val (q : Rat)
deriving DecidableEq, Repr

/-- Tree and queue. -/
structure State where
  tree : MTree
  fifo : List Item
deriving DecidableEq, Repr

def State.empty : State := ⟨MTree.empty, []⟩

/-- The dummy node. weighted.pyx:381, 454. -/
def dummy : Item := ⟨0, 0⟩

def orCrash {α : Type} : Option α → Except Err α
  | none => .error .crash
  | some a => .ok a

/-- Insert an element unless its weight is zero, and queue it (or the dummy).
weighted.pyx:385-389, 402-406, 473-477, 504-508. -/
def enter (add : Rat → Rat → Rat) (s : State) (x : Item) : Except Err State :=
  if x.w ≠ 0 then do
    let t ← orCrash (s.tree.insert add x)
    pure ⟨t, s.fifo ++ [x]⟩
  else pure ⟨s.tree, s.fifo ++ [dummy]⟩

/-- The part of `leave` for a node that is in the tree. -/
def removeNode (add : Rat → Rat → Rat) (s : State) (x : Item) (rest : List Item) :
    Except Err State := do
  let p ← orCrash (s.tree.remove add x)
  if p.2 then pure ⟨p.1, rest⟩ else .error .runtimeError

/-- Take the oldest element out of the queue and the tree. The front of an empty queue is undefined
behaviour. weighted.pyx:397-403, 490-500. -/
def leave (add : Rat → Rat → Rat) (s : State) : Except Err State :=
  match s.fifo with
  | [] => .error .crash
  | x :: rest => if x.w ≠ 0 then removeNode add s x rest else pure ⟨s.tree, rest⟩

/-- `avl.weighted_median(method)`. -/
def median (add : Rat → Rat → Rat) (t : MTree) (method : Char) : Except Err Out :=
  match weightedMedian add t.root method with
  | .value q => .ok (.val q)
  | .invalidMethod => .error .invalidArgument
  | .crash => .error .crash

def enterAll (add : Rat → Rat → Rat) (s : State) (xs : List Item) : Except Err State :=
  xs.foldlM (enter add) s

/-! ## One dimension -/

/-- The element at `edge_r` (only called when it is below the length). -/
def enterAt (add : Rat → Rat → Rat) (data : List Item) (s : State) (e : Int) : Except Err State :=
  match data[e.toNat]? with
  | none => .error .indexError
  | some x => enter add s x

/-- Drop what leaves the window. weighted.pyx:397-403. -/
def dropEdge (add : Rat → Rat → Rat) (rad : Int) (i : Nat) (s : State) : Except Err State :=
  if (i : Int) - rad - 1 ≥ 0 then leave add s else pure s

/-- Add what enters the window. weighted.pyx:404-409. -/
def addEdge (add : Rat → Rat → Rat) (data : List Item) (rad : Int) (i : Nat) (s : State) :
    Except Err State :=
  if (i : Int) + rad < data.length then enterAt add data s (i + rad) else pure s

/-- The output of one round. weighted.pyx:412. -/
def output (add : Rat → Rat → Rat) (t : MTree) (method : Char) : Except Err Out :=
  if t.size ≠ 0 then median add t method else pure .nan

/-- The loop of `_mwm_1D` from index `i` for `k` rounds. weighted.pyx:394-412. -/
def loop1 (add : Rat → Rat → Rat) (data : List Item) (rad : Int) (method : Char) :
    Nat → Nat → State → Except Err (List Out)
  | 0, _, _ => pure []
  | k + 1, i, s => do
    let s1 ← dropEdge add rad i s
    let s2 ← addEdge add data rad i s1
    let m ← output add s2.tree method
    let rest ← loop1 add data rad method k (i + 1) s2
    pure (m :: rest)

/-- `_mwm_1D`. An empty array fails at `medians[0] = ...`. weighted.pyx:367-413. -/
def mwm1D (add : Rat → Rat → Rat) (data : List Item) (size : Int) (method : Char) :
    Except Err (List Out) := do
  let rad := size / 2
  let s ← enterAll add State.empty (data.take (min (rad + 1) data.length).toNat)
  let m ← median add s.tree method
  if data.length = 0 then .error .indexError
  else
    let rest ← loop1 add data rad method (data.length - 1) 1 s
    pure (m :: rest)

/-- The `size` argument. -/
inductive Size where
  | int (n : Int)
  | tuple (l : List Int)
deriving DecidableEq, Repr

/-- `size = size[0]` for a sequence of length at most one. weighted.pyx:344-350. -/
def size1 : Size → Except Err Int
  | .int n => pure n
  | .tuple [] => .error .indexError
  | .tuple [n] => pure n
  | .tuple _ => .error .valueError

/-- `np.where(weights != 0, data, weights)`. weighted.pyx:341. -/
def whereWeight (x : Item) : Out := if x.w ≠ 0 then .val x.v else .val x.w

/-- `moving_weighted_median` for 1D data with a valid method. weighted.pyx:334-351. -/
def moving1 (add : Rat → Rat → Rat) (data : List Item) (size : Size) (method : Char) :
    Except Err (List Out) :=
  if size = .int 0 then .error .valueError
  else if size = .int 1 then pure (data.map whereWeight)
  else do
    let n ← size1 size
    if n % 2 = 0 then .error .valueError else mwm1D add data n method

/-! ## Two dimensions -/

/-- A two dimensional array. -/
structure Grid (α : Type) where
  ny : Nat
  nx : Nat
  get : Nat → Nat → α

/-- `.T` -/
def Grid.T {α : Type} (g : Grid α) : Grid α := ⟨g.nx, g.ny, fun i j => g.get j i⟩

/-- The elements `[y, lo:hi]` in order. -/
def seg (g : Grid Item) (lo hi y : Nat) : List Item := (List.range' lo (hi - lo)).map (g.get y)

/-- `upper_limit` and `lower_limit`. weighted.pyx:466-468. -/
def colLo (rx col : Nat) : Nat := col - rx
def colHi (nx rx col : Nat) : Nat := min nx (col + rx + 1)

/-- Drop the row that leaves the window, element by element. weighted.pyx:489-501. -/
def leaveN (add : Rat → Rat → Rat) : Nat → State → Except Err State
  | 0, s => pure s
  | k + 1, s => do
    let s' ← leave add s
    leaveN add k s'

def dropRow (add : Rat → Rat → Rat) (lo hi ry row : Nat) (s : State) : Except Err State :=
  if row ≥ ry + 1 then leaveN add (hi - lo) s else pure s

/-- Add the row that enters the window. weighted.pyx:502-509. -/
def addRow (add : Rat → Rat → Rat) (g : Grid Item) (lo hi ry row : Nat) (s : State) :
    Except Err State :=
  if row + ry < g.ny then enterAll add s (seg g lo hi (row + ry)) else pure s

/-- The loop over the rows of one column, from `row` for `k` rounds. weighted.pyx:485-510. -/
def loop2 (add : Rat → Rat → Rat) (g : Grid Item) (lo hi ry : Nat) (method : Char) :
    Nat → Nat → State → Except Err (List Out)
  | 0, _, _ => pure []
  | k + 1, row, s => do
    let s1 ← dropRow add lo hi ry row s
    let s2 ← addRow add g lo hi ry row s1
    let m ← median add s2.tree method
    let rest ← loop2 add g lo hi ry method k (row + 1) s2
    pure (m :: rest)

/-- One column of the output. With no rows at all `median_view[0, col] = ...` writes outside of the
array (bounds checks are off). weighted.pyx:459-510. -/
def mwmCol (add : Rat → Rat → Rat) (g : Grid Item) (ry rx : Nat) (method : Char) (col : Nat) :
    Except Err (List Out) := do
  let lo := colLo rx col
  let hi := colHi g.nx rx col
  let s ← enterAll add State.empty ((List.range (min (ry + 1) g.ny)).flatMap (seg g lo hi))
  let m ← median add s.tree method
  if g.ny = 0 then .error .outOfBounds
  else
    let rest ← loop2 add g lo hi ry method (g.ny - 1) 1 s
    pure (m :: rest)

/-- `_mwm_2D` with positive sizes: the columns of the output, as an array.
weighted.pyx:415-512. -/
def mwm2D (add : Rat → Rat → Rat) (g : Grid Item) (sy sx : Nat) (method : Char) :
    Except Err (Grid (Option Out)) := do
  let cols ← (List.range g.nx).mapM (mwmCol add g (sy / 2) (sx / 2) method)
  pure ⟨g.ny, g.nx, fun i j => (cols[j]?).bind (·[i]?)⟩

/-- `moving_weighted_median` for 2D data, a pair of sizes and a valid method. weighted.pyx:353-364. -/
def moving2 (add : Rat → Rat → Rat) (g : Grid Item) (sy sx : Nat) (method : Char) :
    Except Err (Grid (Option Out)) :=
  if sy % 2 = 0 ∨ sx % 2 = 0 then .error .valueError
  else if sy < sx then do
    let r ← mwm2D add g.T sx sy method
    pure r.T
  else mwm2D add g sy sx method

end Verif.Moving
