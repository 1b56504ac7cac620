import Verif.Trunc.Model

/-!
# Model of the array truncation functions (`caput/util/truncate.pyx`)

The kernels run over every element independently (`prange`), so an array is a list and the loop is a
map. The tolerance of an element is computed in floating point; the rounding of that computation is
a parameter (`rnd`, `isq`, `cabs`) about which the theorems assume only what they state. Elements
that are infinite or not a number are outside the model (`none`).
-/
namespace Verif.Trunc

/-- Errors raised by the array functions. -/
inductive TErr where
  | valueError
  | runtimeError
  deriving DecidableEq

/-- Element types told apart by the dispatch. -/
inductive DType where
  | float32
  | float64
  | other
  deriving DecidableEq

namespace Fmt
variable (F : Fmt)


/-- The number represented, when finite. -/
def finite? (b : BitVec F.w) : Option ℚ :=
  match F.decode b with
  | .fin v => some v
  | _ => none

/-- truncate.pyx:146-166: `val[i] = _bit_truncate(val[i], fabs(prec * val[i]))`. -/
def relElem (rnd : ℚ → ℚ) (prec : ℚ) (b : BitVec F.w) : Option (BitVec F.w) :=
  (F.finite? b).map fun v => F.bitTruncateFloat b |rnd (prec * v)|

/-- truncate.pyx:146-166 `_bit_truncate_relative_float/_double`. -/
def relArr (rnd : ℚ → ℚ) (prec : ℚ) (vals : List (BitVec F.w)) : List (Option (BitVec F.w)) :=
  vals.map (F.relElem rnd prec)

/-- truncate.pyx:102-106 / 126-130: tolerance `1.0 / inv_var ** 0.5` for a weight that is not zero
(`isq` computes it), else `fallback * val` without absolute value. -/
def weightTol (rnd isq : ℚ → ℚ) (fallback v wt : ℚ) : ℚ :=
  if wt ≠ 0 then isq wt else rnd (fallback * v)

/-- One element of truncate.pyx:88-131. -/
def weightElem (rnd isq : ℚ → ℚ) (fallback : ℚ) (b : BitVec F.w) (wt : ℚ) : Option (BitVec F.w) :=
  (F.finite? b).map fun v => F.bitTruncateFloat b (weightTol rnd isq fallback v wt)

/-- truncate.pyx:88-131 `_bit_truncate_weights_float/_double`: the lengths must agree. -/
def weightArr (rnd isq : ℚ → ℚ) (fallback : ℚ) (vals : List (BitVec F.w)) (wts : List ℚ) :
    Except TErr (List (Option (BitVec F.w))) :=
  if wts.length ≠ vals.length then .error .valueError
  else .ok (List.zipWith (F.weightElem rnd isq fallback) vals wts)

end Fmt

/-- truncate.pyx:78-86: which kernel `bit_truncate_weights` runs. -/
def weightsDispatch : DType → DType → Except TErr Fmt
  | .float32, .float32 => .ok f32
  | .float64, .float64 => .ok f64
  | _, _ => .error .runtimeError

/-- truncate.pyx:134-142: which kernel `bit_truncate_relative` runs. -/
def relativeDispatch : DType → Except TErr Fmt
  | .float32 => .ok f32
  | .float64 => .ok f64
  | .other => .error .runtimeError

/-- truncate.pyx:184-192: largest `abs2` of the row, starting from zero. -/
def rowMax2 (row : List (ℚ × ℚ)) : ℚ :=
  row.foldl (fun acc z => if z.1 * z.1 + z.2 * z.2 > acc then z.1 * z.1 + z.2 * z.2 else acc) 0

/-- truncate.pyx:198 the tolerance of an element; `sqrt` computes both `cabs` and `max_abs ** 0.5`. -/
def complexTol (rnd sqrt : ℚ → ℚ) (prec precMax maxAbs : ℚ) (z : ℚ × ℚ) : ℚ :=
  rnd (max (sqrt (z.1 * z.1 + z.2 * z.2) * prec) (precMax * maxAbs))

/-- truncate.pyx:200-203: both parts are cast to `float` and truncated with the same tolerance. -/
def complexElem (cast : ℚ → BitVec 32) (err : ℚ) (z : ℚ × ℚ) : BitVec 32 × BitVec 32 :=
  (f32.bitTruncateFloat (cast z.1) err, f32.bitTruncateFloat (cast z.2) err)

/-- truncate.pyx:169-205 `bit_truncate_max_complex`, one row (rows are independent). -/
def complexRow (rnd sqrt : ℚ → ℚ) (cast : ℚ → BitVec 32) (prec precMax : ℚ) (row : List (ℚ × ℚ)) :
    List (BitVec 32 × BitVec 32) :=
  let maxAbs := sqrt (rowMax2 row)
  row.map fun z => complexElem cast (complexTol rnd sqrt prec precMax maxAbs z) z

end Verif.Trunc
