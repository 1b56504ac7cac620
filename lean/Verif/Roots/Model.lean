import Mathlib.Data.Rat.Floor

/-!
# Model of the root search of the observer

Models `caput/astro/observer.py:866-956` (`_fixup_interval_and_step`, `_solve_all`). Times and values are rational
numbers and the grid is computed exactly. The product whose sign is tested is a parameter `mul`, since it may
underflow; `brentq` is a parameter, with its documented behaviour as hypothesis where it is needed. Times in
`_fixup_interval_and_step` are seconds; the conversion to days is division by 86400 here (skyfield also counts leap
seconds).
-/
namespace Verif.Roots

/-- observer.py:927: the number of points of the grid, `int(np.ceil((x1 - x0) / dx))`. -/
def gridCount (x0 x1 dx : ℚ) : ℤ := ⌈(x1 - x0) / dx⌉

/-- `np.linspace(x0, x1, n, endpoint=True)`. -/
def linspace (x0 x1 : ℚ) (n : Nat) : List ℚ :=
  (List.range n).map fun (i : Nat) => if n = 1 then x0 else x0 + i * ((x1 - x0) / (n - 1 : Nat))

/-- Exceptions. -/
inductive RErr where
  | valueError
  | zeroDivision
  deriving DecidableEq

/-- observer.py:927: the grid. `np.linspace` refuses negative counts. -/
def grid (x0 x1 dx : ℚ) : Except RErr (List ℚ) :=
  if dx = 0 then .error .zeroDivision
  else if gridCount x0 x1 dx < 0 then .error .valueError
  else .ok (linspace x0 x1 (gridCount x0 x1 dx).toNat)

/-- observer.py:934-954: one pass of the loop. `brentq a b` is the root, or `none` if it raises because the values
at the ends have the same sign. -/
def visit (mul : ℚ → ℚ → ℚ) (f : ℚ → ℚ) (brentq : ℚ → ℚ → Option ℚ) (skipInc skipDec : Bool) (a b : ℚ) :
    Except RErr (Option (ℚ × Bool)) :=
  if mul (f a) (f b) > 0 then .ok none
  else if skipInc && decide (f a < f b) then .ok none
  else if skipDec && !decide (f a < f b) then .ok none
  else
    match brentq a b with
    | none => .error .valueError
    | some r => .ok (some (r, decide (f a < f b)))

/-- observer.py:933-956: the loop over neighbouring points. -/
def search (mul : ℚ → ℚ → ℚ) (f : ℚ → ℚ) (brentq : ℚ → ℚ → Option ℚ) (skipInc skipDec : Bool) :
    List ℚ → Except RErr (List (ℚ × Bool))
  | a :: b :: rest =>
    match visit mul f brentq skipInc skipDec a b with
    | .error e => .error e
    | .ok none => search mul f brentq skipInc skipDec (b :: rest)
    | .ok (some r) =>
      match search mul f brentq skipInc skipDec (b :: rest) with
      | .error e => .error e
      | .ok rs => .ok (r :: rs)
  | _ => .ok []

/-- observer.py:897-956 `_solve_all`. -/
def solveAll (mul : ℚ → ℚ → ℚ) (f : ℚ → ℚ) (brentq : ℚ → ℚ → Option ℚ) (skipInc skipDec : Bool)
    (x0 x1 dx : ℚ) : Except RErr (List (ℚ × Bool)) :=
  match grid x0 x1 dx with
  | .error e => .error e
  | .ok g => search mul f brentq skipInc skipDec g

/-- observer.py:866-894 `_fixup_interval_and_step`: the interval and the step in days. `day` is the length of the
default interval in seconds. -/
def fixup (day t0 : ℚ) (t1 step : Option ℚ) : Except RErr (ℚ × ℚ × ℚ) :=
  match (match t1 with
    | none => Except.ok (t0 + day)
    | some t => if t ≤ t0 then .error RErr.valueError else .ok t) with
  | .error e => .error e
  | .ok t =>
    match step with
    | none => .ok (t0 / 86400, t / 86400, if t - t0 ≥ 86400 then 1 / 5 else (t - t0) / (5 * 86400))
    | some s => if s * 24 * 3600 ≥ t - t0 then .error .valueError else .ok (t0 / 86400, t / 86400, s)

end Verif.Roots
