import Verif.Quick.Model

/-!
# Model of the weighted quantile with the arithmetic of the machine

The same functions of `caput/algorithms/median/weighted.pyx` as in `Verif.Quick.Model`, with all
arithmetic and all comparisons of data and weights taken as parameters (`Ops`). With them anything a
floating point unit does is covered: rounding, infinities, NaN (which compares false with everything).
`Verif.Quick.Model` is the case of exact numbers (`exact_row` in `FloatLemmas`).

Simplification: indices are natural numbers (in the code they are C ints, rows have fewer than 2^31 elements).
-/
namespace Verif.Quick
open Verif.Median (Item)

/-- Elements `ι` with data `α` and weights `ω`; sums of weights are doubles `δ`. -/
structure Ops (ι α ω δ : Type) where
  val : ι → α
  wt : ι → ω
  /-- the element with weight one -/
  unit : ι → ι
  /-- `<` on the data -/
  lt : α → α → Bool
  /-- `<data_t>((x + y) / 2)` -/
  mean : α → α → α
  /-- `w > 0` -/
  pos : ω → Bool
  /-- `w == 0` -/
  isZero : ω → Bool
  zero : δ
  ofNat : Nat → δ
  add : δ → ω → δ
  sub : δ → δ → δ
  mul : δ → δ → δ
  eq : δ → δ → Bool
  le : δ → δ → Bool

variable {ι α ω δ : Type}

/-- `while A[ii] < pivot: weights_left += W[ii]; ii += 1`. weighted.pyx:66-68. -/
def scanLF (O : Ops ι α ω δ) (a : List ι) (p : α) (ii : Nat) (wl : δ) : Option (Nat × δ) :=
  if h : ii < a.length then
    if O.lt (O.val a[ii]) p then scanLF O a p (ii + 1) (O.add wl (O.wt a[ii])) else some (ii, wl)
  else none
termination_by a.length - ii

/-- `while A[jj] > pivot: jj -= 1`; index -1 is outside. weighted.pyx:72-73. -/
def scanRF (O : Ops ι α ω δ) (a : List ι) (p : α) : Nat → Option Nat
  | 0 => if h : 0 < a.length then (if O.lt p (O.val a[0]) then none else some 0) else none
  | jj + 1 =>
    if h : jj + 1 < a.length then (if O.lt p (O.val a[jj + 1]) then scanRF O a p jj else some (jj + 1)) else none

/-- Swap two elements. weighted.pyx:87-88. -/
def swapF (a : List ι) (x y : Nat) : Option (List ι) :=
  if h : x < a.length ∧ y < a.length then some ((a.set x (a[y]'h.2)).set y (a[x]'h.1)) else none

/-- What the inner loop does when the pointers have met. weighted.pyx:76-83. -/
def meetF (O : Ops ι α ω δ) (a : List ι) (ii jj : Nat) (wl : δ) : Option (List ι × Nat × δ) :=
  if ii = jj then do
    let x ← a[ii]?
    some (a, jj, O.add wl (O.wt x))
  else some (a, jj, wl)

/-- The inner loop. weighted.pyx:61-93. -/
def hoareF (O : Ops ι α ω δ) (p : α) : Nat → List ι → Nat → Nat → δ → Option (List ι × Nat × δ)
  | 0, _, _, _, _ => none
  | fuel + 1, a, ii, jj, wl => do
    let l ← scanLF O a p ii wl
    let jj' ← scanRF O a p jj
    if jj' ≤ l.1 then meetF O a l.1 jj' l.2
    else
      let a' ← swapF a l.1 jj'
      let x ← a'[l.1]?
      hoareF O p fuel a' (l.1 + 1) (jj' - 1) (O.add l.2 (O.wt x))

/-- One round of `_max_non_zero`. weighted.pyx:135-139. -/
def maxStepF (O : Ops ι α ω δ) (a : List ι) (cur ii : Nat) : Option Nat := do
  let c ← a[cur]?
  let x ← a[ii]?
  if O.pos (O.wt c) = O.pos (O.wt x) then
    some (if O.lt (O.val c) (O.val x) then ii else cur)
  else some (if O.pos (O.wt x) then ii else cur)

/-- `_max_non_zero`. weighted.pyx:128-141. -/
def maxNonZeroF (O : Ops ι α ω δ) (a : List ι) (i j : Nat) : Option Nat :=
  (List.range' (i + 1) (j - i)).foldlM (maxStepF O a) i

/-- One round of `_min_non_zero`. weighted.pyx:153-157. -/
def minStepF (O : Ops ι α ω δ) (a : List ι) (cur ii : Nat) : Option Nat := do
  let c ← a[cur]?
  let x ← a[ii]?
  if O.pos (O.wt c) = O.pos (O.wt x) then
    some (if O.lt (O.val x) (O.val c) then ii else cur)
  else some (if O.pos (O.wt x) then ii else cur)

/-- `_min_non_zero`. weighted.pyx:146-159. -/
def minNonZeroF (O : Ops ι α ω δ) (a : List ι) (i j : Nat) : Option Nat :=
  (List.range' (i + 1) (j - i)).foldlM (minStepF O a) i

/-- The value returned on a boundary between the elements `x` and `y`. weighted.pyx:105-110. -/
def boundaryValueF (O : Ops ι α ω δ) (method : Char) (x y : ι) : α :=
  if (O.isZero (O.wt y) ∧ O.pos (O.wt x)) ∨ method = 'l' then O.val x
  else if (O.isZero (O.wt x) ∧ O.pos (O.wt y)) ∨ method = 'h' then O.val y
  else O.mean (O.val x) (O.val y)

/-- The hit `qs == weights_left`. weighted.pyx:100-110. -/
def boundaryF (O : Ops ι α ω δ) (method : Char) (a : List ι) (jj : Nat) : Option α := do
  let i ← maxNonZeroF O a 0 jj
  let j ← minNonZeroF O a (jj + 1) (a.length - 1)
  let y ← a[j]?
  let x ← a[i]?
  some (boundaryValueF O method x y)

/-- `_quickselect_weight`. weighted.pyx:37-123. -/
def selectF (O : Ops ι α ω δ) (method : Char) : Nat → List ι → Nat → Nat → δ → Option α
  | 0, _, _, _, _ => none
  | fuel + 1, a, i, j, qs => do
    let x ← a[(i + j) / 2]?
    let r ← hoareF O (O.val x) (a.length + 1) a i j O.zero
    if O.eq qs r.2.2 then boundaryF O method r.1 r.2.1
    else if O.le qs r.2.2 then
      if i = r.2.1 then (r.1[i]?).map O.val else selectF O method fuel r.1 i r.2.1 qs
    else
      if r.2.1 + 1 = j then (r.1[j]?).map O.val
      else selectF O method fuel r.1 (r.2.1 + 1) j (O.sub qs r.2.2)

/-- Sum of the weights, from the left. weighted.pyx:180-185. -/
def totalF (O : Ops ι α ω δ) (a : List ι) : δ := a.foldl (fun s x => O.add s (O.wt x)) O.zero

/-- One row of `_quickselect` (at least one element). weighted.pyx:180-197. -/
def quantileRowF (O : Ops ι α ω δ) (method : Char) (q : δ) (row : List ι) : Option α :=
  if O.eq (totalF O row) O.zero then
    selectF O method (row.length + 1) (row.map O.unit) 0 (row.length - 1) (O.mul (O.ofNat row.length) q)
  else selectF O method (row.length + 1) row 0 (row.length - 1) (O.mul (totalF O row) q)

/-- Numbers without NaN and infinities, with any rounding of sums, differences, products and means. -/
structure Arith where
  add : Rat → Rat → Rat
  sub : Rat → Rat → Rat
  mul : Rat → Rat → Rat
  mean : Rat → Rat → Rat

def ratOps (A : Arith) : Ops Item Rat Rat Rat where
  val := Item.v
  wt := Item.w
  unit x := ⟨x.v, 1⟩
  lt x y := decide (x < y)
  mean := A.mean
  pos w := decide (0 < w)
  isZero w := decide (w = 0)
  zero := 0
  ofNat n := n
  add := A.add
  sub := A.sub
  mul := A.mul
  eq x y := decide (x = y)
  le x y := decide (x ≤ y)

/-- Exact arithmetic. -/
def exactArith (cast : Rat → Rat) : Arith where
  add := (· + ·)
  sub := (· - ·)
  mul := (· * ·)
  mean x y := cast ((x + y) / 2)

end Verif.Quick
