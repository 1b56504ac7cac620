import Verif.Median.Model
import Mathlib.Data.Rat.Floor

/-!
# Addition of doubles

IEEE 754 binary64 addition, round to nearest, ties to even, for results that do not overflow.
-/
namespace Verif.Median

/-- Floor of the binary logarithm of a positive rational. -/
def ilog2 (a : Rat) : Int :=
  let e : Int := (Nat.log2 a.num.toNat : Int) - (Nat.log2 a.den : Int)
  if (2 : Rat) ^ e ≤ a then e else e - 1

/-- Round a non-negative rational to an integer, ties to even. -/
def roundEven (m : Rat) : Int :=
  let k := m.floor
  if m - k < 1 / 2 then k
  else if 1 / 2 < m - k then k + 1
  else if k % 2 = 0 then k else k + 1

/-- The double nearest to a rational (overflow to infinity is left out). -/
def roundDouble (q : Rat) : Rat :=
  if q = 0 then 0
  else
    let a := if q < 0 then -q else q
    let ulp : Rat := 2 ^ (max (ilog2 a - 52) (-1074))
    let r := (roundEven (a / ulp) : Rat) * ulp
    if q < 0 then -r else r

/-- Addition of doubles as the machine does it. -/
def addDouble (a b : Rat) : Rat := roundDouble (a + b)

/-- `0.1` as a double. -/
example : roundDouble (1 / 10) = 3602879701896397 / 2 ^ 55 := by decide +kernel

/-- `0.1 + 0.2` is not `0.3`. -/
example : addDouble (roundDouble (1 / 10)) (roundDouble (2 / 10)) ≠ roundDouble (3 / 10) := by
  decide +kernel

end Verif.Median
