import Mathlib.Data.Int.Log
import Mathlib.Data.Rat.Floor

/-!
# Model of `invert_no_zero`, one element

Models `caput/algorithms/_invert_no_zero/_invert_no_zero.pyx:26-44`. Finite floating point numbers are
rational numbers; arithmetic is IEEE 754, rounded to nearest with ties to even (the compiler flags in `setup.py`
keep it so), and overflow gives infinity. Infinities and NaN as input are not modelled, nor are signed zeros.

A complex quotient is taken to be the exact one with each part rounded; the C library may be less precise.
-/
namespace Verif.Invert

/-- A binary floating point format: precision, exponent of the smallest positive number, exponent of the last bit
of the largest numbers. -/
structure Fmt where
  p : Nat
  emin : Int
  emax : Int

/-- C's `double`. -/
def dbl : Fmt := ⟨53, -1074, 971⟩

/-- C's `float`. -/
def flt : Fmt := ⟨24, -149, 104⟩

/-- The largest number, `DBL_MAX` or `FLT_MAX`. -/
def Fmt.max (f : Fmt) : ℚ := (2 ^ f.p - 1) * 2 ^ f.emax

/-- Round to an integer, ties to even. -/
def roundEven (m : ℚ) : ℤ :=
  if m - ⌊m⌋ < 1 / 2 then ⌊m⌋
  else if 1 / 2 < m - ⌊m⌋ then ⌊m⌋ + 1
  else if ⌊m⌋ % 2 = 0 then ⌊m⌋ else ⌊m⌋ + 1

/-- The place of the last bit of numbers near `q`. -/
def Fmt.unit (f : Fmt) (q : ℚ) : ℤ := Max.max (Int.log 2 |q| - (f.p - 1)) f.emin

/-- Rounding with unbounded exponents. -/
def Fmt.round (f : Fmt) (q : ℚ) : ℚ := if q = 0 then 0 else roundEven (q / 2 ^ f.unit q) * 2 ^ f.unit q

/-- The result of an operation on finite numbers, if not NaN. -/
inductive Res where
  | fin (x : ℚ)
  | inf
  deriving DecidableEq

/-- Rounding. -/
def Fmt.toFmt (f : Fmt) (q : ℚ) : Res := if |f.round q| ≤ f.max then .fin (f.round q) else .inf

/-- Conversion of a double to another format. -/
def Fmt.cast (f : Fmt) : Res → Res
  | .fin x => f.toFmt x
  | .inf => .inf

/-- _invert_no_zero.pyx:31-34 `thresh`, a double in all cases; the quotient does not overflow. -/
def thresh (f : Fmt) : ℚ := dbl.round (1 / f.max)

/-- _invert_no_zero.pyx:41-44: real numbers. The division is one of doubles. -/
def invReal (f : Fmt) (x : ℚ) : Res := if |x| < thresh f then .fin 0 else f.cast (dbl.toFmt (1 / x))

/-- _invert_no_zero.pyx:36-39: complex numbers, real and imaginary part. -/
def invComplex (f : Fmt) (a b : ℚ) : Res × Res :=
  if |a| < thresh f ∧ |b| < thresh f then (.fin 0, .fin 0)
  else (f.cast (dbl.toFmt (a / (a ^ 2 + b ^ 2))), f.cast (dbl.toFmt (-b / (a ^ 2 + b ^ 2))))

end Verif.Invert
