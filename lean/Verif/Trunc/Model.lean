import Mathlib.Data.Rat.Floor

/-!
# Model of bit truncation

Models `caput/util/truncate.hpp` (the C++ kernels) and `caput/util/truncate.pyx` (the array
functions). C integers are bit vectors with wrap-around arithmetic; signed overflow, shifts by a
negative amount and out of range float-to-integer conversions, which C leaves undefined, are given
the behaviour of x86-64 (wrap-around; shift count taken modulo the width; the most negative
integer). The 32 and 64 bit kernels have the same text with different constants, so they are
instances of one definition.
-/
namespace Verif.Trunc

variable {w : Nat}

/-- truncate.hpp:53-57 / 90-95 (and 123-127 / 137-142): `x |= x >> s` for each listed shift, with the
arithmetic right shift of a signed integer. -/
def smear (shifts : List Nat) (x : BitVec w) : BitVec w :=
  shifts.foldl (fun y s => y ||| y.sshiftRight s) x

/-- truncate.hpp:49-77 `bit_truncate` and 86-115 `bit_truncate_64`. -/
def bitTruncate (shifts : List Nat) (val err : BitVec w) : BitVec w :=
  let gran := smear shifts err + 1
  let bitmask := gran - 1
  let tie : BitVec w := if (val &&& bitmask) <<< 1 = gran then 1 else 0
  let valT := (val - gran.sshiftRight 1) ||| bitmask
  let valT := valT + 1
  let valT := valT - (if err = 0 then 1 else 0)
  valT - (valT &&& (tie * gran))

/-- The shifts of the 32 bit kernel. -/
def shifts32 : List Nat := [1, 2, 4, 8, 16]

/-- The shifts of the 64 bit kernel. -/
def shifts64 : List Nat := [1, 2, 4, 8, 16, 32]

/-- truncate.hpp:49-77; `bit_truncate_int` of truncate.pyx:40-49. -/
def bitTruncate32 (val err : BitVec 32) : BitVec 32 := bitTruncate shifts32 val err

/-- truncate.hpp:86-115; `bit_truncate_long` of truncate.pyx:52-61. -/
def bitTruncate64 (val err : BitVec 64) : BitVec 64 := bitTruncate shifts64 val err

/-- `__builtin_popcount(l)`. -/
def popcount (x : BitVec w) : Nat := ((List.range w).filter (x.getLsbD ·)).length

/-- truncate.hpp:122-129 `count_zeros` and 136-144 `count_zeros_64`. -/
def countZeros (shifts : List Nat) (x : BitVec w) : Nat := popcount (~~~ smear shifts x)

/-- A floating point number: finite, infinite (with sign) or not a number. -/
inductive FVal where
  | fin (r : ℚ)
  | inf (neg : Bool)
  | nan
  deriving DecidableEq

/-- A binary format: total width, mantissa bits, width of the integer type taken by `fast_pow`, and
the shifts of the integer kernel of that width. -/
structure Fmt where
  w : Nat
  p : Nat
  iw : Nat
  shifts : List Nat

/-- `float`. -/
def f32 : Fmt := ⟨32, 23, 8, shifts32⟩

/-- `double`. -/
def f64 : Fmt := ⟨64, 52, 16, shifts64⟩

namespace Fmt
variable (F : Fmt)

/-- Number of exponent bits (8, 11). -/
def eb : Nat := F.w - 1 - F.p

/-- Exponent bias (127, 1023). -/
def bias : Nat := 2 ^ (F.eb - 1) - 1

/-- Value of a bit pattern (IEEE 754). -/
def decode (b : BitVec F.w) : FVal :=
  let e := b.toNat / 2 ^ F.p % 2 ^ F.eb
  let m := b.toNat % 2 ^ F.p
  let sgn : ℚ := if b.msb then -1 else 1
  if e = 2 ^ F.eb - 1 then (if m = 0 then .inf b.msb else .nan)
  else if e = 0 then .fin (sgn * (m * (2 : ℚ) ^ (1 - F.bias - F.p : ℤ)))
  else .fin (sgn * ((2 ^ F.p + m : ℕ) * (2 : ℚ) ^ (e - F.bias - F.p : ℤ)))

/-- truncate.hpp:156-163 `fast_pow(int8_t e)` and 175-182 `fast_pow_double(int16_t e)`: the argument
is converted to the narrow integer type (wrapping), the sum to the unsigned type, shifted into the
exponent field and reinterpreted. -/
def fastPow (e : Int) : FVal :=
  F.decode (BitVec.ofInt F.w (F.bias + e.bmod (2 ^ F.iw)) <<< F.p)

/-- `err * x` for a finite non-negative or negative `err`. Products of a float with a power of two
are exact except for underflow and overflow; those do not change the integer obtained from the
product by `toInt` below, so the exact product is used. -/
def mul (err : ℚ) : FVal → FVal
  | .fin r => .fin (err * r)
  | .inf s => if err = 0 then .nan else .inf (s != decide (err < 0))
  | .nan => .nan

/-- Truncation of a rational towards zero. -/
def trunc (r : ℚ) : Int := if 0 ≤ r then ⌊r⌋ else ⌈r⌉

/-- The cast `(int32_t)x` / `(int64_t)x`; the most negative integer when the value does not fit. -/
def toInt : FVal → BitVec F.w
  | .fin r =>
    if -2 ^ (F.w - 1) ≤ trunc r ∧ trunc r < 2 ^ (F.w - 1) then BitVec.ofInt F.w (trunc r)
    else BitVec.intMin F.w
  | .inf _ => BitVec.intMin F.w
  | .nan => BitVec.intMin F.w

/-- `x << n` where `n` may be negative: the shift count is taken modulo the width. -/
def shl (x : BitVec F.w) (n : Int) : BitVec F.w := x <<< (n % F.w).toNat

/-- truncate.hpp:206-209 / 256-259: the tolerance in units of the last place of the mantissa. `pow` is
the exponent field of the value. -/
def intErr (pow : Nat) (err : ℚ) : BitVec F.w :=
  let i := F.toInt (mul err (F.fastPow (F.bias + F.p - pow)))
  if i &&& BitVec.ofNat F.w (3 * 2 ^ (F.w - 2)) ≠ 0 then BitVec.ofNat F.w (2 ^ (F.w - 2) - 1) else i

/-- The exponent field of the value, truncate.hpp:198-200 / 246-248. -/
def expField (b : BitVec F.w) : Nat := (b.sshiftRight F.p &&& BitVec.ofNat F.w (2 ^ F.eb - 1)).toNat

/-- truncate.hpp:194-228 `_bit_truncate_float` and 240-281 `_bit_truncate_double` on the bit pattern
of the value; `ie` is the tolerance in units of the last place of the mantissa. -/
def truncWith (b : BitVec F.w) (ie : BitVec F.w) : BitVec F.w :=
  let valPre := b.sshiftRight F.p
  let valPow := valPre &&& BitVec.ofNat F.w (2 ^ F.eb - 1)
  let valS := valPre.sshiftRight F.eb
  let valMan := (b &&& BitVec.ofNat F.w (2 ^ F.p - 1)) + BitVec.ofNat F.w (2 ^ F.p)
  let trMan := bitTruncate F.shifts valMan ie
  let zCount : Nat := countZeros F.shifts trMan
  let valPow := valPow - BitVec.ofInt F.w (zCount - F.eb : Int)
  let trMan := F.shl trMan (zCount - F.eb : Int) &&& BitVec.ofNat F.w (2 ^ F.p - 1)
  let valPow := if zCount ≠ F.w then valPow else 0
  trMan ||| ((valPow ||| (valS <<< F.eb)) <<< F.p)

/-- truncate.hpp:194-281, for a tolerance that is a rational number (every finite float is one). -/
def bitTruncateFloat (b : BitVec F.w) (err : ℚ) : BitVec F.w := F.truncWith b (F.intErr (F.expField b) err)

/-- `err * x` for any `err`. -/
def mulV : FVal → FVal → FVal
  | .fin r, x => mul r x
  | .inf s, .fin r => if r = 0 then .nan else .inf (s != decide (r < 0))
  | .inf s, .inf t => .inf (s != t)
  | .inf _, .nan => .nan
  | .nan, _ => .nan

/-- truncate.hpp:206-209 / 256-259 for any tolerance. -/
def intErrV (pow : Nat) (err : FVal) : BitVec F.w :=
  let i := F.toInt (mulV err (F.fastPow (F.bias + F.p - pow)))
  if i &&& BitVec.ofNat F.w (3 * 2 ^ (F.w - 2)) ≠ 0 then BitVec.ofNat F.w (2 ^ (F.w - 2) - 1) else i

/-- truncate.hpp:194-281 for any tolerance, also one that is infinite or not a number. -/
def bitTruncateV (b : BitVec F.w) (err : FVal) : BitVec F.w := F.truncWith b (F.intErrV (F.expField b) err)

end Fmt
end Verif.Trunc
