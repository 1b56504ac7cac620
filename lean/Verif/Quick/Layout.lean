import Verif.Quick.Model

/-!
# Model of what `quantile` asks of the memory of its arrays

Models `caput/algorithms/median/weighted.pyx:162-172` (the types of the arguments of `_quickselect`) and `200-283` (`quantile`) for arrays
with one or two axes that may be views of others: every element has a place in memory, given by the place of the first and the distances
(`strides`) along the axes. `A.reshape(-1, n)` of such an array is a view with the same distances. The arguments
`data_t[:, ::1]` take only arrays that may be written and whose elements follow each other row by row; everything else is a `ValueError`.
-/
namespace Verif.Quick
open Verif.Median (Item)

/-- An array of `rows` rows of `n` elements in memory (one row for an array with one axis). -/
structure View where
  rows : Nat
  n : Nat
  first : Int
  s0 : Int
  s1 : Int
  writable : Bool
  mem : Int → Rat

/-- The element `i, j`. -/
def View.at (v : View) (i j : Nat) : Rat := v.mem (v.first + i * v.s0 + j * v.s1)

/-- `flags.c_contiguous` of numpy: axes of length one do not count, and an array without elements is contiguous. -/
def View.contiguous (v : View) : Bool :=
  v.rows = 0 || v.n = 0 || ((v.n = 1 || v.s1 = 1) && (v.rows = 1 || v.s0 = v.n))

/-- What Cython takes as `data_t[:, ::1]`. -/
def View.accepted (v : View) : Bool := v.writable && v.contiguous

/-- The rows of data and weights. -/
def View.items (A W : View) : List (List Item) :=
  (List.range A.rows).map fun i => (List.range A.n).map fun j => ⟨A.at i j, W.at i j⟩

/-- weighted.pyx:200-283 `quantile`, for arrays with one or two axes. The arguments of `_quickselect` are taken after the types have been looked at. -/
def quantileView (A W : View) (ta tw : DType) (q : Rat) (method : String) : Res (List Rat) :=
  match checkMethod method with
  | none => .valueError
  | some _ =>
    if ¬ (A.rows = W.rows ∧ A.n = W.n) then .valueError
    else if q < 0 ∨ q > 1 then .valueError
    else if A.n = 0 then .valueError
    else if ta = .other ∨ tw = .other then .typeError
    else if A.accepted && W.accepted then quantile (A.items W) A.n true ta tw q method
    else .valueError

end Verif.Quick
