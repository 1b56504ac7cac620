import Verif.Dist.Ufunc
import Verif.Dist.NpReduce

/-!
# Model of reductions and accumulations of distributed arrays

Models `caput/mpiarray.py:1768-1925` with the methods `reduce` and `accumulate`, lines 1997-2047, and
`allreduce` (856-885).
-/
namespace Verif.Dist

variable {α : Type}

/-- The `axis` keyword of the universal function: not given, `None`, an integer or a tuple. -/
inductive AxisKw where
  | missing
  | none
  | int (ax : Int)
  | tuple (l : List Int)
  deriving DecidableEq, Repr

/-- What `numpy` reduces over; the default of `ufunc.reduce` is axis 0. -/
def AxisKw.np : AxisKw → Option (List Int)
  | .missing => some [0]
  | .none => Option.none
  | .int ax => some [ax]
  | .tuple l => some l

/-- mpiarray.py:2036-2041: the new place of the distributed axis, when the axes `red` are reduced. -/
def finalAxis (ndim : Nat) (axis : Int) (red : List Int) (keep : Bool) : Int :=
  (List.range ndim).foldl
    (fun (fin : Int) (ii : Nat) => if (ii : Int) ∈ red ∧ (ii : Int) < axis ∧ keep = false then fin - 1 else fin) axis

/-- mpiarray.py:2029-2030: the set of axes. -/
def axisSet (ndim : Nat) (l : List Int) : List Int := l.map fun ax => if 0 ≤ ax then ax else ndim + ax

/-- mpiarray.py:2013-2047 `_array_ufunc_reduce`. Without the `axis` keyword the call of this function is
a `TypeError`. -/
def inferReduce (A : MArr α) (axis : AxisKw) (keep : Bool) : Except PyErr (Int × Nat × Nat) :=
  match axis with
  | .missing => .error .typeError
  | .none => .ok (0, A.comm.size, A.comm.rank)
  | _ =>
    let red := axisSet A.arr.shape.length (axis.np.getD [])
    if A.axis ∈ red then .error .axisException
    else do
      let glen ← pyGet A.gshape A.axis
      let off ← pyGet A.loff A.axis
      pure (finalAxis A.arr.shape.length A.axis red keep, glen, off)

/-- mpiarray.py:1768-1925 `__array_ufunc__` with `method="reduce"`. -/
def ufuncReduce (u : Red α) (A : MArr α) (axis : AxisKw) (keep : Bool) (out : Option (Out α)) :
    Except PyErr (MArr α) := do
  let (fin, glen, off) ← inferReduce A axis keep
  match out with
  | some o =>
    let O ← checkOut fin glen off A.comm o
    let R ← npReduce u A.arr axis.np keep
    if R.shape = O.arr.shape then pure { O with arr := R } else .error .valueError
  | Option.none =>
    let R ← npReduce u A.arr axis.np keep
    wrapResult R fin glen off A.comm

/-- mpiarray.py:1997-2011 `_array_ufunc_accumulate` and mpiarray.py:1768-1925 with
`method="accumulate"`. Without the `axis` keyword (`none`) it is a `TypeError`. -/
def ufuncAccumulate (acc : List α → α) (A : MArr α) (axis : Option Int) : Except PyErr (MArr α) :=
  match axis with
  | Option.none => .error .typeError
  | some ax =>
    if ax = A.axis then .error .axisException
    else do
      let glen ← pyGet A.gshape A.axis
      let off ← pyGet A.loff A.axis
      let R ← npAccumulate acc A.arr ax
      wrapResult R A.axis glen off A.comm

/-- mpiarray.py:856-885 `allreduce` on process `r`; `parts` are the arrays of all processes. A process
whose array does not have exactly one element raises; otherwise the elements are combined. -/
def allreduce (op : α → α → α) (e : α) (parts : List (MArr α)) (r : Nat) : Except PyErr α :=
  match parts[r]? with
  | Option.none => .error .indexError
  | some A => if A.lshape ≠ [1] then .error .valueError else .ok ((parts.map fun B => B.arr.val [0]).foldr op e)

end Verif.Dist
