import Verif.Shorten.Model
import Mathlib.Data.List.Forall2
import Mathlib.Algebra.Order.Group.Unbundled.Abs

/-!
# What the truncation of datasets should do
-/
namespace Verif.Shorten

/-- The entry of `i` for the axis `a`. -/
def along (axes : List Str) (i : List Nat) (a : Str) : Option Nat := i[axes.idxOf a]?

/-- `j` consists of the entries of `i` for the axes. -/
def Restricts (daxes waxes : List Str) (i j : List Nat) : Prop := j.map some = waxes.map (along daxes i)

def InShape (i s : List Nat) : Prop := List.Forall₂ (· < ·) i s

/-- The range of the numbers of a type: all are below the first, and from the second on they have full precision. -/
def top : Kind → ℚ
  | .f32 => 2 ^ 128
  | _ => 2 ^ 1024

def tiny : Kind → ℚ
  | .f32 => (2 : ℚ) ^ (-126 : ℤ)
  | _ => (2 : ℚ) ^ (-1022 : ℤ)

/-- The arithmetic is correct but for a relative error `δ`. -/
structure Arith.Close (A : Arith) (δ : ℚ) : Prop where
  small : 0 ≤ δ
  above : ∀ k x, |A.rnd k x| ≤ (1 + δ) * |x|
  sign : ∀ k x, 0 ≤ x → 0 ≤ A.rnd k x
  below : ∀ k x, tiny k ≤ x → x ≤ top k / 2 → x ≤ (1 + δ) * A.rnd k x
  isq : ∀ k x, 0 < x → 0 ≤ A.isq k x ∧ A.isq k x ^ 2 * x ≤ (1 + δ) ^ 2

/-- `v` is a number of the type. -/
def Holds : Kind → ℚ → Prop
  | .f32, v => ∃ b, Verif.Trunc.f32.decode b = .fin v
  | .f64, v => ∃ b, Verif.Trunc.f64.decode b = .fin v
  | .other, _ => False

/-- The numbers for which C13 holds: not in one small interval next to zero where the code is wrong. -/
def Sound : Kind → ℚ → Prop
  | .f32, v => ¬ ((2 : ℚ) ^ (-105 : ℤ) ≤ |v| ∧ |v| < (2 : ℚ) ^ (-104 : ℤ))
  | _, v => ¬ ((2 : ℚ) ^ (-972 : ℤ) ≤ |v| ∧ |v| < (2 : ℚ) ^ (-971 : ℤ))

/-- `v` is a number of the type for which C13 holds, and it can change by `e` without leaving the type. -/
def Room (k : Kind) (v e : ℚ) : Prop := Holds k v ∧ Sound k v ∧ |v| + e < top k

/-- `y` is `x` with other values: axes, shape and type are the same, and a real dataset has no imaginary part to change. -/
def SameForm (x y : Dset) : Prop :=
  y.axes = x.axes ∧ y.shape = x.shape ∧ y.kind = x.kind ∧ y.cplx = x.cplx ∧ (x.cplx = false → y.im = x.im)

/-- The value is within the fixed precision (with relative error `δ`), if there is room for that. -/
def WithinFixed (k : Kind) (δ p r v : ℚ) : Prop := Room k v ((1 + δ) * (p * |v|)) → |r - v| ≤ (1 + δ) * (p * |v|)

/-- The square of the error is at most three times the increase of the variance allowed, `inc / w` (with relative error
`(1 + δ) ^ 3`), if there is room for such an error `e` and the quotient is in the range of the type. Without a weight, the
fixed precision holds (for values that are not negative). -/
def WithinVariance (k : Kind) (δ p inc w r v : ℚ) : Prop :=
  (0 < w → tiny k ≤ w / (inc * 3) → w / (inc * 3) ≤ top k / 2 →
    (∃ e, 0 ≤ e ∧ 3 * inc * (1 + δ) ^ 3 ≤ e ^ 2 * w ∧ Room k v e) → (r - v) ^ 2 * w ≤ 3 * inc * (1 + δ) ^ 3) ∧
  (w = 0 → 0 ≤ v → Room k v ((1 + δ) * (p * v)) → |r - v| ≤ (1 + δ) * (p * v))

end Verif.Shorten
