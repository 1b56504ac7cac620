/-!
# Model of `MPIArray.reshape`

Models `caput/mpiarray.py:1397-1492` on one process. An array is its shape and a function from
multi-indices to elements.
-/
namespace Verif.Reshape

/-- Exceptions raised. -/
inductive PyErr where
  | valueError
  | typeError
  | zeroDivisionError
  | indexError
  deriving DecidableEq, Repr

/-- Product of the axis lengths. -/
def prod (s : List Nat) : Nat := s.foldr (· * ·) 1

/-- Position of a multi-index in row-major order. -/
def ravel : List Nat → List Nat → Nat
  | _ :: s, i :: is => i * prod s + ravel s is
  | _, _ => 0

/-- The multi-index at a row-major position. -/
def unravel : List Nat → Nat → List Nat
  | [], _ => []
  | _ :: s, x => x / prod s :: unravel s (x % prod s)

/-- Index orders of `numpy`: row-major ("C") and column-major ("F"). -/
inductive Order where
  | c
  | f
  deriving DecidableEq

/-- Position of a multi-index in the given order. -/
def ravelO (o : Order) (s i : List Nat) : Nat :=
  match o with
  | .c => ravel s i
  | .f => ravel s.reverse i.reverse

/-- The multi-index at a position in the given order. -/
def unravelO (o : Order) (s : List Nat) (x : Nat) : List Nat :=
  match o with
  | .c => unravel s x
  | .f => (unravel s.reverse x).reverse

/-- What the method uses of `self` on one process: the local array, the distributed axis, the global
length along that axis and the local offset along it. Also the form of the result. -/
structure DArr (α : Type) where
  shape : List Nat
  val : List Nat → α
  axis : Int
  glen : Nat
  off : Nat

/-- mpiarray.py:1434-1444: the loop over `new_shape`. Returns the entries, the position of the wildcard
and the product of the others. Multiplying by a further `None` is a `TypeError`. -/
def scan : List (Option Int) → Nat → Option Nat → Int → Except PyErr (List Int × Option Nat × Int)
  | [], _, wild, size => .ok ([], wild, size)
  | none :: _, _, _, _ => .error .typeError
  | some s :: rest, ii, wild, size =>
    if s = -1 then
      if wild = none then
        (scan rest (ii + 1) (some ii) size).map fun res => (s :: res.1, res.2)
      else .error .valueError
    else (scan rest (ii + 1) wild (size * s)).map fun res => (s :: res.1, res.2)

/-- mpiarray.py:1446-1461: what is done after the loop. -/
def finish (actual : Nat) (vals : List Int) (wild : Option Nat) (size : Int) : Except PyErr (List Int) :=
  match wild with
  | some pos =>
    if size = 0 then .error .zeroDivisionError
    else if Int.fmod (actual : Int) size = 0 then .ok (vals.set pos (Int.fdiv (actual : Int) size))
    else .error .valueError
  | none => if (actual : Int) = size then .ok vals else .error .valueError

/-- mpiarray.py:1418-1461 `_check_shapes`. -/
def checkShapes (current : List Nat) (new : List (Option Int)) : Except PyErr (List Int) :=
  match scan new 0 none 1 with
  | .error e => .error e
  | .ok res => finish (prod current) res.1 res.2.1 res.2.2

/-- `np.prod` of integers. -/
def iprod (l : List Int) : Int := l.foldr (· * ·) 1

/-- `numpy`'s own handling of the new shape in `ndarray.reshape`: one negative entry is inferred from
the others if that is possible, several are rejected, and otherwise the sizes must agree. -/
def npShape (size : Nat) (dims : List Int) : Except PyErr (List Nat) :=
  match dims.filter (· < 0) with
  | [] => if iprod dims = size then .ok (dims.map Int.toNat) else .error .valueError
  | [_] =>
    let known := iprod (dims.filter (0 ≤ ·))
    if known = 0 then .error .valueError
    else if (size : Int) % known = 0 then
      .ok (dims.map fun s => if s < 0 then ((size : Int) / known).toNat else s.toNat)
    else .error .valueError
  | _ => .error .valueError

/-- Python `l[i:]`. -/
def fromIdx (l : List Nat) (i : Int) : List Nat :=
  if 0 ≤ i then l.drop i.toNat else l.drop (l.length - (-i).toNat)

/-- Python `l[:i]`. -/
def uptoIdx (l : List Nat) (i : Int) : List Nat :=
  if 0 ≤ i then l.take i.toNat else l.take (l.length - (-i).toNat)

/-- Python `l[i]`. -/
def pyGet (l : List Nat) (i : Int) : Except PyErr Nat :=
  match (if 0 ≤ i then l[i.toNat]? else if (-i).toNat ≤ l.length then l[l.length - (-i).toNat]? else none)
  with
  | some x => .ok x
  | none => .error .indexError

/-- mpiarray.py:1467-1482: the new local shape before `numpy` sees it, and the position of the
distributed axis in it. -/
def plan (shape : List Nat) (axis : Int) (target : List (Option Int)) : Except PyErr (List Int × Nat) :=
  match target.findIdx? (·.isNone) with
  | none => .error .valueError
  | some newAxis => do
    let len ← pyGet shape axis
    let new := target.set newAxis (some (len : Int))
    let newPost ← checkShapes (fromIdx shape axis) (new.drop newAxis)
    let newPre ← checkShapes (uptoIdx shape (axis + 1)) (new.take (newAxis + 1))
    pure (newPre.take newAxis ++ newPost, newAxis)

/-- mpiarray.py:1397-1492 `reshape(*shape, order)`; `target` is the tuple of lengths, with `none` for
`None`. `order` is the order `numpy` uses on this process. -/
def reshape {α : Type} (self : DArr α) (order : Order) (target : List (Option Int)) :
    Except PyErr (DArr α) := do
  let (dims, newAxis) ← plan self.shape self.axis target
  let new ← npShape (prod self.shape) dims
  pure
    { shape := new
      val := fun i => self.val (unravelO order self.shape (ravelO order new i))
      axis := newAxis
      glen := self.glen
      off := self.off }

/-- Is a fresh column-major array of this shape also row-major? (If it has at most one axis longer than
one, or no elements.) -/
def bothOrders (shape : List Nat) : Bool :=
  decide ((shape.filter (1 < ·)).length ≤ 1) || shape.contains 0

/-- The order that `numpy` uses for `order="A"`: column-major if the array is laid out in column-major
order (`memF`) and not also in row-major order. -/
def orderA (memF : Bool) (shape : List Nat) : Order := if memF && !bothOrders shape then .f else .c

end Verif.Reshape
