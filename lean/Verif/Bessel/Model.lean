import Mathlib.Analysis.SpecialFunctions.Arcosh
import Mathlib.Analysis.SpecialFunctions.Trigonometric.Inverse

/-!
# Model of the spherical Bessel functions

Models `caput/astro/coordinates/bessel.py` (all functions).

Floating point numbers are taken for real numbers: there is no rounding, overflow or underflow. `nan` is `none`. Orders are
natural numbers. Arrays have one axis. `scipy.special.spherical_jn` is a parameter `sp`.
-/
namespace Verif.Bessel

open Real

noncomputable section

inductive Err where
  | valueError
  | indexError
  | typeError
  | zeroDivision
  deriving DecidableEq, Repr

/-- bessel.py:99-118 `_jl_approx_lowz`. -/
def lowz (l : ℕ) (z : ℝ) : ℝ :=
  let nu : ℝ := l + 0.5
  let nutanha := √(nu * nu - z * z)
  let arg := nutanha - nu * arcosh (nu / z)
  exp arg * (1 + 1 / (8 * nutanha) - 5 * nu ^ 2 / (24 * nutanha ^ 3) + 9 / (128 * nutanha ^ 2)
    - 231 * nu ^ 2 / (576 * nutanha ^ 4)) / (2 * √(z * nutanha))

/-- bessel.py:121-134 `_jl_approx_highz`. -/
def highz (l : ℕ) (z : ℝ) : ℝ :=
  let nu : ℝ := l + 0.5
  let sinb := √(1 - nu * nu / (z * z))
  let cotb := nu / (z * sinb)
  let arg := z * sinb - nu * (π / 2 - arcsin (nu / z)) - π / 4
  (cos arg * (1 - 9 * cotb ^ 2 / (128 * nu ^ 2)) + sin arg * (cotb / (8 * nu))) / (z * √sinb)

/-- bessel.py:37 `zca`. -/
def isZero (l : ℕ) (z : ℝ) : Prop := z = 0 ∧ l > 0

/-- bessel.py:39-41 `lca`. -/
def isLow (l : ℕ) (z : ℝ) : Prop := ((l > 20 ∧ z < l / 5) ∨ z < l * 1e-6) ∧ z > 0

/-- bessel.py:43 `hca`. -/
def isHigh (l : ℕ) (z : ℝ) : Prop := l > 20 ∧ z > 10 * l

open Classical in
/-- bessel.py:45-53: one element of `jla`. The assignment that comes last counts. -/
def jlAt (sp : ℕ → ℝ → ℝ) (l : ℕ) (z : ℝ) : ℝ :=
  if ¬ ((isLow l z ∨ isHigh l z) ∨ isZero l z) then sp l z
  else if isHigh l z then highz l z
  else if isLow l z then lowz l z
  else 0

/-- An argument: a number, a list (or tuple) of numbers, or an array. -/
inductive Arg (α : Type) where
  | num (x : α)
  | list (xs : List α)
  | array (xs : List α)

/-- `np.atleast_1d`. -/
def Arg.vals {α : Type} : Arg α → List α
  | .num x => [x]
  | .list xs => xs
  | .array xs => xs

def Arg.isArray {α : Type} : Arg α → Bool
  | .array _ => true
  | _ => false

def Arg.isList {α : Type} : Arg α → Bool
  | .list _ => true
  | _ => false

/-- Arithmetic with a number, on numbers and arrays. -/
def Arg.map {α β : Type} (f : α → β) : Arg α → Arg β
  | .num x => .num (f x)
  | .list xs => .list (xs.map f)
  | .array xs => .array (xs.map f)

/-- `np.broadcast_arrays` for arrays with one axis. -/
def broadcast {α β : Type} (a : List α) (b : List β) : Except Err (List (α × β)) :=
  if a.length = b.length then .ok (a.zip b)
  else
    match a, b with
    | [x], _ => .ok (b.map fun y => (x, y))
    | _, [y] => .ok (a.map fun x => (x, y))
    | _, _ => .error .valueError

/-- What the functions return. -/
inductive Res (α : Type) where
  | num (x : α)
  | array (xs : List α)

/-- bessel.py:15-57 `jl`. -/
def jl (sp : ℕ → ℝ → ℝ) (l : Arg ℕ) (z : Arg ℝ) : Except Err (Res ℝ) :=
  match broadcast l.vals z.vals with
  | .error e => .error e
  | .ok ps =>
    let jla := ps.map fun p => jlAt sp p.1 p.2
    if l.isArray || z.isArray then .ok (.array jla)
    else
      match jla with
      | [] => .error .indexError
      | j :: _ => .ok (.num j)

/-- bessel.py:76: one element of the result; `l / z` is infinite or `nan` for zero, and then so is the product with `jl0`, which is zero unless `l`
is. -/
def jldAt (sp : ℕ → ℝ → ℝ) (l : ℕ) (z : ℝ) : Option ℝ :=
  let jl0 := jlAt sp l z
  let jl1 := jlAt sp (l + 1) z
  if z = 0 then none else some (-jl1 + (l / z) * jl0)

/-- bessel.py:96: one element of the result; for zero there is `0 / 0`, or an infinite value times `jl1`, which is zero. -/
def jld2At (sp : ℕ → ℝ → ℝ) (l : ℕ) (z : ℝ) : Option ℝ :=
  let jl0 := jlAt sp l z
  let jl1 := jlAt sp (l + 1) z
  let jl2 := jlAt sp (l + 2) z
  if z = 0 then none else some (jl2 - (2 * l / z) * jl1 + (((l : ℝ) ^ 2 - 1) / z ^ 2) * jl0)

/-- The arithmetic of bessel.py:76 and 96 on whole arguments, with `f` for one element. Adding a number to a list and dividing by a list raise
`TypeError`; dividing numbers of Python by zero raises `ZeroDivisionError`. -/
def combine (sp : ℕ → ℝ → ℝ) (f : ℕ → ℝ → Option ℝ) (l : Arg ℕ) (z : Arg ℝ) : Except Err (Res (Option ℝ)) :=
  match jl sp l z with
  | .error e => .error e
  | .ok _ =>
    if l.isList || z.isList then .error .typeError
    else
      match broadcast l.vals z.vals with
      | .error e => .error e
      | .ok ps =>
        let out := ps.map fun p => f p.1 p.2
        if l.isArray || z.isArray then .ok (.array out)
        else
          match out with
          | [] => .error .indexError
          | some d :: _ => .ok (.num (some d))
          | none :: _ => .error .zeroDivision

/-- bessel.py:60-76 `jl_d`. -/
def jld (sp : ℕ → ℝ → ℝ) : Arg ℕ → Arg ℝ → Except Err (Res (Option ℝ)) := combine sp (jldAt sp)

/-- bessel.py:79-96 `jl_d2`. -/
def jld2 (sp : ℕ → ℝ → ℝ) : Arg ℕ → Arg ℝ → Except Err (Res (Option ℝ)) := combine sp (jld2At sp)

end

end Verif.Bessel
