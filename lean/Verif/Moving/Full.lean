import Verif.Moving.Model

/-!
# Model of the moving weighted median in two dimensions, for any size

Models the branch of `moving_weighted_median` for 2D data and `_mwm_2D` (`caput/algorithms/median/weighted.pyx:334-362`, `:414-511`)
with all values of `size`. The machine integers of the code have no bounds here. Simplifications are those of `Verif.Moving`
(Model.lean). Not modelled: sizes that are neither numbers nor sequences of numbers.
-/
namespace Verif.Moving
open Verif.Median

/-- The argument `size`. -/
inductive SizeArg where
  | int (n : Int)
  | tuple (l : List Int)
  | list (l : List Int)
deriving DecidableEq, Repr

/-- `upper_limit`. weighted.pyx:466-468. -/
def colLoI (rx : Int) (col : Nat) : Int := if (col : Int) - rx < 0 then 0 else col - rx

/-- `lower_limit`. weighted.pyx:469-471. -/
def colHiI (nx : Nat) (rx : Int) (col : Nat) : Int := if (col : Int) + rx + 1 > nx then nx else col + rx + 1

/-- The loop `for x in range(upper_limit, lower_limit)` that reads `[y, x]`. There are no bounds checks. -/
def enterRow (add : Rat → Rat → Rat) (g : Grid Item) (lo hi y : Int) (s : State) : Except Err State :=
  if hi ≤ lo then .ok s
  else if 0 ≤ lo ∧ hi ≤ g.nx ∧ 0 ≤ y ∧ y < g.ny then enterAll add s (seg g lo.toNat hi.toNat y.toNat)
  else .error .outOfBounds

/-- weighted.pyx:489-501. -/
def dropRowI (add : Rat → Rat → Rat) (lo hi ry : Int) (row : Nat) (s : State) : Except Err State :=
  if (row : Int) - ry - 1 ≥ 0 then leaveN add (hi - lo).toNat s else .ok s

/-- weighted.pyx:502-509. -/
def addRowI (add : Rat → Rat → Rat) (g : Grid Item) (lo hi ry : Int) (row : Nat) (s : State) : Except Err State :=
  if (row : Int) + ry < g.ny then enterRow add g lo hi (row + ry) s else .ok s

/-- The loop over the rows of one column, from `row` for `k` rounds. weighted.pyx:485-510. -/
def loop2I (add : Rat → Rat → Rat) (g : Grid Item) (lo hi ry : Int) (method : Char) : Nat → Nat → State → Except Err (List Out)
  | 0, _, _ => .ok []
  | k + 1, row, s =>
    match dropRowI add lo hi ry row s with
    | .error e => .error e
    | .ok s1 =>
      match addRowI add g lo hi ry row s1 with
      | .error e => .error e
      | .ok s2 =>
        match median add s2.tree method with
        | .error e => .error e
        | .ok m =>
          match loop2I add g lo hi ry method k (row + 1) s2 with
          | .error e => .error e
          | .ok rest => .ok (m :: rest)

/-- The first rows of the window. weighted.pyx:474-480. -/
def firstRows (add : Rat → Rat → Rat) (g : Grid Item) (lo hi : Int) : List Nat → State → Except Err State
  | [], s => .ok s
  | y :: ys, s =>
    match enterRow add g lo hi y s with
    | .error e => .error e
    | .ok s' => firstRows add g lo hi ys s'

/-- One column of the output. weighted.pyx:459-510. -/
def mwmColI (add : Rat → Rat → Rat) (g : Grid Item) (ry rx : Int) (method : Char) (col : Nat) : Except Err (List Out) :=
  let lo := colLoI rx col
  let hi := colHiI g.nx rx col
  match firstRows add g lo hi (List.range (min (ry + 1) g.ny).toNat) State.empty with
  | .error e => .error e
  | .ok s =>
    match median add s.tree method with
    | .error e => .error e
    | .ok m =>
      if g.ny = 0 then .error .outOfBounds
      else
        match loop2I add g lo hi ry method (g.ny - 1) 1 s with
        | .error e => .error e
        | .ok rest => .ok (m :: rest)

/-- `_mwm_2D`. weighted.pyx:415-512. Division of integers rounds down (the module has Python's division). -/
def mwm2DI (add : Rat → Rat → Rat) (g : Grid Item) (sy sx : Int) (method : Char) : Except Err (Grid (Option Out)) :=
  match (List.range g.nx).mapM (mwmColI add g (sy / 2) (sx / 2) method) with
  | .error e => .error e
  | .ok cols => .ok ⟨g.ny, g.nx, fun i j => (cols[j]?).bind (·[i]?)⟩

/-- weighted.pyx:354-362 for a sequence. `_mwm_2D` takes a tuple only; if the array is transposed the sizes are made one.
Any tuple is taken (the `2` in the declaration `tuple[int, 2]` has no effect), and the first two of its sizes are used. -/
def movingSeq (add : Rat → Rat → Rat) (g : Grid Item) (isTuple : Bool) (l : List Int) (method : Char) : Except Err (Grid (Option Out)) :=
  if l.any fun n => decide (n % 2 = 0) then .error .valueError
  else
    match l with
    | sy :: sx :: _ =>
      if sy < sx then
        match l.reverse with
        | a :: b :: _ =>
          match mwm2DI add g.T a b method with
          | .error e => .error e
          | .ok r => .ok r.T
        | _ => .error .indexError
      else if isTuple then mwm2DI add g sy sx method
      else .error .typeError
    | _ => .error .indexError

/-- `moving_weighted_median` for 2D data and a valid method. weighted.pyx:334-362. `any` does not take a number. -/
def moving2D (add : Rat → Rat → Rat) (g : Grid Item) (size : SizeArg) (method : Char) : Except Err (Grid (Option Out)) :=
  match size with
  | .int n =>
    if n = 0 then .error .valueError
    else if n = 1 then .ok ⟨g.ny, g.nx, fun i j => some (whereWeight (g.get i j))⟩
    else .error .typeError
  | .tuple l => movingSeq add g true l method
  | .list l => movingSeq add g false l method

end Verif.Moving
