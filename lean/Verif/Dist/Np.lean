import Verif.Reshape.Spec

/-!
# The parts of `numpy` that distributed arrays are built on

Nothing here is code of the repository. It states what `numpy` does with a plain array: an array is its
shape and a function from multi-indices to elements. Both the model (on the local arrays) and the
specification (on the global array) use it.
-/
namespace Verif.Dist

open Verif.Reshape (InShape)

/-- Exceptions raised. `axisException` is the `AxisException` of `caput/mpiarray.py:2487`, `unsupported`
the `UnsupportedOperation` of line 2495 and `axisError` the one of `numpy`. -/
inductive PyErr where
  | valueError
  | typeError
  | indexError
  | runtimeError
  | axisError
  | axisException
  | unsupported
  deriving DecidableEq, Repr

/-- A plain array. -/
structure NArr (α : Type) where
  shape : List Nat
  val : List Nat → α

/-- Python `l[i]`. -/
def pyGet {β : Type} (l : List β) (i : Int) : Except PyErr β :=
  match (if 0 ≤ i then l[i.toNat]? else if (-i).toNat ≤ l.length then l[l.length - (-i).toNat]? else none)
  with
  | some x => .ok x
  | none => .error .indexError

/-- Python `l[i] = v`. -/
def pySet {β : Type} (l : List β) (i : Int) (v : β) : Except PyErr (List β) :=
  if 0 ≤ i then (if i.toNat < l.length then .ok (l.set i.toNat v) else .error .indexError)
  else if (-i).toNat ≤ l.length then .ok (l.set (l.length - (-i).toNat) v) else .error .indexError

/-- An axis number of an array with `n` axes; negative numbers count from the end. -/
def normAxis (n : Nat) (ax : Int) : Except PyErr Nat :=
  if -(n : Int) ≤ ax ∧ ax < n then .ok (if ax < 0 then ax + n else ax).toNat else .error .axisError

/-- `a` with axis `p[j]` moved to place `j`. -/
def permute {α : Type} (A : NArr α) (p : List Nat) : NArr α :=
  { shape := p.map (A.shape.getD · 0)
    val := fun i => A.val ((List.range A.shape.length).map fun (k : Nat) => i.getD (p.idxOf k) 0) }

/-- `ndarray.transpose`: `none` reverses the axes; a list must name every axis exactly once. -/
def npTranspose {α : Type} (A : NArr α) : Option (List Int) → Except PyErr (NArr α)
  | none => .ok (permute A (List.range A.shape.length).reverse)
  | some l =>
    if l.length ≠ A.shape.length then .error .valueError
    else
      match l.mapM (normAxis A.shape.length) with
      | .error e => .error e
      | .ok p => if p.Nodup then .ok (permute A p) else .error .valueError

/-- One step of broadcasting along one axis: a length of one adapts to any other. -/
def stepDim (acc d : Nat) : Option Nat :=
  if d = 1 then some acc else if acc = 1 then some d else if acc = d then some acc else none

/-- The common length along one axis. -/
def bdim (ds : List Nat) : Option Nat := ds.foldlM stepDim 1

/-- Length of a shape along axis `k` of `n`, when shapes are aligned at the end. -/
def dimAt (n : Nat) (s : List Nat) (k : Nat) : Option Nat :=
  if n - s.length ≤ k then s[k - (n - s.length)]? else none

/-- Largest number of axes. -/
def maxDim (ss : List (List Nat)) : Nat := (ss.map List.length).foldl max 0

/-- The shape that arrays of the given shapes are broadcast to; `none` if they cannot be. -/
def bcast (ss : List (List Nat)) : Option (List Nat) :=
  (List.range (maxDim ss)).mapM fun k => bdim (ss.filterMap fun s => dimAt (maxDim ss) s k)

/-- The element of an array of shape `s` used at index `i` of the result. -/
def bidx (s i : List Nat) : List Nat :=
  List.zipWith (fun d x => if d = 1 then 0 else x) s (i.drop (i.length - s.length))

/-- A universal function with one result, called on arrays. -/
def npCall {α : Type} (f : List α → α) (ops : List (NArr α)) : Except PyErr (NArr α) :=
  match bcast (ops.map (·.shape)) with
  | none => .error .valueError
  | some s => .ok { shape := s, val := fun i => f (ops.map fun x => x.val (bidx x.shape i)) }

/-- The same with an output array of shape `out`: the arguments are broadcast to it, but it is not
itself broadcast. -/
def npCallOut {α : Type} (f : List α → α) (ops : List (NArr α)) (out : List Nat) :
    Except PyErr (NArr α) :=
  if bcast (ops.map (·.shape) ++ [out]) = some out then
    .ok { shape := out, val := fun i => f (ops.map fun x => x.val (bidx x.shape i)) }
  else .error .valueError

end Verif.Dist
