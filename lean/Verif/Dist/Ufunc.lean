import Verif.Dist.Model

/-!
# Model of universal functions on distributed arrays

Models `caput/mpiarray.py:1768-1995` (`__array_ufunc__` with `method="__call__"`) on one process, for a
function with one result. `where` arguments are refused at lines 1862-1869 and other methods than
`__call__`, `reduce` and `accumulate` at lines 1853-1858; neither is modelled here.
-/
namespace Verif.Dist

variable {α : Type}

/-- An argument: a scalar, a `numpy` array, a distributed array, or a nested list or other sequence,
which `numpy` turns into an array only later. -/
inductive Arg (α : Type) where
  | num (x : α)
  | arr (A : NArr α)
  | mpi (A : MArr α)
  | seq (A : NArr α)

/-- mpiarray.py:2323-2361 `_mpi_to_ndarray`, and the array `numpy` makes of other arguments. -/
def Arg.loc : Arg α → NArr α
  | .num x => ⟨[], fun _ => x⟩
  | .arr A => A
  | .mpi A => A.arr
  | .seq A => A

/-- The distributed array, if it is one. -/
def Arg.mpi? : Arg α → Option (MArr α)
  | .mpi A => some A
  | _ => none

/-- mpiarray.py:2296-2320 `_get_common_comm`. -/
def commonComm : List (Arg α) → Option Comm → Except PyErr (Option Comm)
  | [], acc => .ok acc
  | .mpi A :: rest, none => commonComm rest (some A.comm)
  | .mpi A :: rest, some c => if c = A.comm then commonComm rest (some c) else .error .valueError
  | _ :: rest, acc => commonComm rest acc

/-- mpiarray.py:2261-2293 `_check_dist_axis`. -/
def checkDist (A : MArr α) (axis : Int) (glen off : Nat) (comm : Option Comm) : Except PyErr Unit :=
  if comm ≠ none ∧ comm ≠ some A.comm then .error .valueError
  else if A.axis ≠ axis then .error .axisException
  else do
    let l ← pyGet A.gshape axis
    if l ≠ glen then .error .axisException
    else
      let o ← pyGet A.loff axis
      if o ≠ off then .error .axisException else pure ()

/-- mpiarray.py:1935: number of axes that counts, `-1` for what is not an array. -/
def Arg.ndim : Arg α → Int
  | .arr A => A.shape.length
  | .mpi A => A.arr.shape.length
  | _ => -1

/-- mpiarray.py:1933-1938: the largest number of axes (`np.argmax` picks the first argument that has
it). -/
def maxNdim (args : List (Arg α)) : Int := (args.map Arg.ndim).foldl max (-1)

/-- mpiarray.py:1960-1993: the check of one argument. An array of exactly the local length only causes a
warning. -/
def checkArg (axis maxDim : Int) (glen off locLen : Nat) : Arg α → Except PyErr Unit
  | .mpi A =>
    match checkDist A (axis - maxDim + A.arr.shape.length) glen off none with
    | .error _ => .error .axisException
    | .ok _ => .ok ()
  | .arr A =>
    let cur := axis - maxDim + A.shape.length
    if 0 ≤ cur then do
      let l ← pyGet A.shape cur
      if l = 1 then pure ()
      else if l = locLen then pure ()
      else .error .axisException
    else .ok ()
  | _ => .ok ()

/-- mpiarray.py:1927-1995 `_array_ufunc_call`: position, global length and local offset of the
distributed axis of the result. -/
def inferCall (args : List (Arg α)) : Except PyErr (Int × Nat × Nat) :=
  match args.findSome? Arg.mpi? with
  | none => .error .typeError
  | some first => do
    let axis := maxNdim args + first.axis - first.arr.shape.length
    let glen ← pyGet first.gshape first.axis
    let off ← pyGet first.loff first.axis
    let locLen ← pyGet first.lshape first.axis
    args.forM (checkArg axis (maxNdim args) glen off locLen)
    pure (axis, glen, off)

/-- The `out` argument: a distributed array or another array. -/
inductive Out (α : Type) where
  | mpi (A : MArr α)
  | other

/-- mpiarray.py:1876-1894: the check of `out`. -/
def checkOut (axis : Int) (glen off : Nat) (c : Comm) : Out α → Except PyErr (MArr α)
  | .other => .error .typeError
  | .mpi O =>
    match checkDist O axis glen off (some c) with
    | .error _ => .error .valueError
    | .ok _ => .ok O

/-- mpiarray.py:1912-1921: a scalar result becomes a vector with one element, then a view is made. -/
def wrapResult (R : NArr α) (axis : Int) (glen off : Nat) (c : Comm) : Except PyErr (MArr α) :=
  viewFrom (if R.shape = [] then ⟨[1], fun _ => R.val []⟩ else R) axis glen off c

/-- mpiarray.py:1768-1925 `__array_ufunc__` with `method="__call__"`. -/
def ufuncCall (f : List α → α) (args : List (Arg α)) (out : Option (Out α)) : Except PyErr (MArr α) := do
  match ← commonComm args none with
  | none => .error .runtimeError
  | some c =>
    let (axis, glen, off) ← inferCall args
    match out with
    | some o =>
      let O ← checkOut axis glen off c o
      let R ← npCallOut f (args.map Arg.loc) O.arr.shape
      pure { O with arr := R }
    | none =>
      let R ← npCall f (args.map Arg.loc)
      wrapResult R axis glen off c

end Verif.Dist
