import Verif.Median.Model

/-!
# Model of the weighted quantile

Models `_quickselect_weight`, `_max_non_zero`, `_min_non_zero`, `_quickselect` and `quantile` of
`caput/algorithms/median/weighted.pyx`.

Simplifications. Data and weights are rationals, sums of weights are exact (rounding, NaN and infinities are in
`Verif.Quick.Float`). The two scratch arrays
are one list of pairs (`Item`), since they are always changed together. An access outside of the
array gives `none`, and so does a loop that runs out of fuel (the theorems show that neither
happens). `cast` is the conversion of the mean to the data type.
-/
namespace Verif.Quick
open Verif.Median (Item)

/-- `while A[ii] < pivot: weights_left += W[ii]; ii += 1`. weighted.pyx:66-68. -/
def scanL (a : List Item) (p : Rat) (ii : Nat) (wl : Rat) : Option (Nat × Rat) :=
  if h : ii < a.length then
    if a[ii].v < p then scanL a p (ii + 1) (wl + a[ii].w) else some (ii, wl)
  else none
termination_by a.length - ii

/-- `while A[jj] > pivot: jj -= 1`; index -1 is outside. weighted.pyx:72-73. -/
def scanR (a : List Item) (p : Rat) : Nat → Option Nat
  | 0 => if h : 0 < a.length then (if p < a[0].v then none else some 0) else none
  | jj + 1 =>
    if h : jj + 1 < a.length then (if p < a[jj + 1].v then scanR a p jj else some (jj + 1)) else none

/-- Swap two elements. weighted.pyx:87-88. -/
def swap (a : List Item) (x y : Nat) : Option (List Item) :=
  if h : x < a.length ∧ y < a.length then some ((a.set x (a[y]'h.2)).set y (a[x]'h.1)) else none

/-- The weight at an index. -/
def weightAt (a : List Item) (k : Nat) : Option Rat := (a[k]?).map Item.w

/-- What the inner loop does when the pointers have met. weighted.pyx:76-83. -/
def meet (a : List Item) (ii jj : Nat) (wl : Rat) : Option (List Item × Nat × Rat) :=
  if ii = jj then do
    let w ← weightAt a ii
    some (a, jj, wl + w)
  else some (a, jj, wl)

/-- The inner loop: Hoare partition with the weight of the left part. weighted.pyx:61-93. -/
def hoare (p : Rat) : Nat → List Item → Nat → Nat → Rat → Option (List Item × Nat × Rat)
  | 0, _, _, _, _ => none
  | fuel + 1, a, ii, jj, wl => do
    let l ← scanL a p ii wl
    let jj' ← scanR a p jj
    if jj' ≤ l.1 then meet a l.1 jj' l.2
    else
      let a' ← swap a l.1 jj'
      let w ← weightAt a' l.1
      hoare p fuel a' (l.1 + 1) (jj' - 1) (l.2 + w)

/-- One round of `_max_non_zero`. weighted.pyx:135-139. -/
def maxStep (a : List Item) (cur ii : Nat) : Option Nat := do
  let c ← a[cur]?
  let x ← a[ii]?
  if decide (c.w > 0) = decide (x.w > 0) then
    some (if x.v > c.v then ii else cur)
  else some (if x.w > 0 then ii else cur)

/-- `_max_non_zero` on the indices `i .. j`. weighted.pyx:128-141. -/
def maxNonZero (a : List Item) (i j : Nat) : Option Nat :=
  (List.range' (i + 1) (j - i)).foldlM (maxStep a) i

/-- One round of `_min_non_zero`. weighted.pyx:153-157. -/
def minStep (a : List Item) (cur ii : Nat) : Option Nat := do
  let c ← a[cur]?
  let x ← a[ii]?
  if decide (c.w > 0) = decide (x.w > 0) then
    some (if x.v < c.v then ii else cur)
  else some (if x.w > 0 then ii else cur)

/-- `_min_non_zero`. weighted.pyx:146-159. -/
def minNonZero (a : List Item) (i j : Nat) : Option Nat :=
  (List.range' (i + 1) (j - i)).foldlM (minStep a) i

/-- The value returned on a boundary between the elements `x` and `y`. weighted.pyx:105-110. -/
def boundaryValue (cast : Rat → Rat) (method : Char) (x y : Item) : Rat :=
  if (y.w = 0 ∧ x.w > 0) ∨ method = 'l' then x.v
  else if (x.w = 0 ∧ y.w > 0) ∨ method = 'h' then y.v
  else cast ((x.v + y.v) / 2)

/-- The exact hit `qs == weights_left`. weighted.pyx:100-110. -/
def boundary (cast : Rat → Rat) (method : Char) (a : List Item) (jj : Nat) : Option Rat := do
  let i ← maxNonZero a 0 jj
  let j ← minNonZero a (jj + 1) (a.length - 1)
  let y ← a[j]?
  let x ← a[i]?
  some (boundaryValue cast method x y)

/-- `return A[i]` -/
def valueAt (a : List Item) (i : Nat) : Option Rat := (a[i]?).map Item.v

/-- `_quickselect_weight`. weighted.pyx:37-123. -/
def select (cast : Rat → Rat) (method : Char) : Nat → List Item → Nat → Nat → Rat → Option Rat
  | 0, _, _, _, _ => none
  | fuel + 1, a, i, j, qs => do
    let p ← valueAt a ((i + j) / 2)
    let r ← hoare p (a.length + 1) a i j 0
    if qs = r.2.2 then boundary cast method r.1 r.2.1
    else if qs ≤ r.2.2 then
      if i = r.2.1 then valueAt r.1 i else select cast method fuel r.1 i r.2.1 qs
    else
      if r.2.1 + 1 = j then valueAt r.1 j
      else select cast method fuel r.1 (r.2.1 + 1) j (qs - r.2.2)

/-- Sum of the weights. -/
def total (a : List Item) : Rat := (a.map Item.w).sum

/-- Equal weights. weighted.pyx:189-192. -/
def uniform (a : List Item) : List Item := a.map fun x => ⟨x.v, 1⟩

/-- One row of `_quickselect` (at least one element). weighted.pyx:180-197. -/
def quantileRow (cast : Rat → Rat) (method : Char) (q : Rat) (row : List Item) : Option Rat :=
  let a := if total row = 0 then uniform row else row
  select cast method (a.length + 1) a 0 (a.length - 1) (total a * q)

/-- How `quantile` ends. `undefined` is an access outside of the arrays. -/
inductive Res (α : Type) where
  | ok (a : α)
  | valueError
  | typeError
  | undefined
deriving DecidableEq, Repr

/-- Element types the function distinguishes. -/
inductive DType where
  | intc | long | single | double | other
deriving DecidableEq, Repr

/-- `_check_method`. weighted.pyx:324-331. -/
def checkMethod (s : String) : Option Char :=
  if s = "split" then some 's' else if s = "lower" then some 'l'
  else if s = "higher" then some 'h' else none

/-- The sum of two integers of `bits` bits: it wraps around (in C this is left open; it is what compilers make of it), and the half
of it rounds down. `x` is the exact mean. -/
def halfSum (bits : Nat) (x : Rat) : Rat := (((2 * x).floor.bmod (2 ^ bits) / 2 : Int) : Rat)

/-- The mean `(A[i] + A[j]) / 2` as `data_t`: `/` of integers rounds down (language level 2, `cdivision` off),
floats keep the value (for their rounding see `Verif.Quick.Float`). An `int` has 32 bits and a `long` 64. weighted.pyx:2, 110. -/
def castTo : DType → Rat → Rat
  | .intc, x => halfSum 32 x
  | .long, x => halfSum 64 x
  | _, x => x

def collect {α : Type} : List (Option α) → Res (List α)
  | [] => .ok []
  | none :: _ => .undefined
  | some x :: xs => match collect xs with
    | .ok ys => .ok (x :: ys)
    | e => e

/-- `quantile` on arrays reshaped to rows of length `n`; `shapesEqual` is `A.shape == W.shape`. An
empty last axis makes `reshape(-1, 0)` fail. weighted.pyx:200-283. -/
def quantile (rows : List (List Item)) (n : Nat) (shapesEqual : Bool) (ta tw : DType) (q : Rat)
    (method : String) : Res (List Rat) :=
  match checkMethod method with
  | none => .valueError
  | some m =>
    if shapesEqual = false then .valueError
    else if q < 0 ∨ q > 1 then .valueError
    else if n = 0 then .valueError
    else if ta = .other ∨ tw = .other then .typeError
    else collect (rows.map (quantileRow (castTo ta) m q))

end Verif.Quick
