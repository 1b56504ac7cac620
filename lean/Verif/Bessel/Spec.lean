import Mathlib.Analysis.SpecialFunctions.Trigonometric.Basic
import Mathlib.Analysis.Complex.Trigonometric

/-!
# Specification: spherical Bessel functions

The functions `sin z / z`, `sin z / z² - cos z / z`, and from two of them the next by
`j (l + 2) = (2 l + 3) / z * j (l + 1) - j l`; at zero, where these are not defined, by continuity.
-/
namespace Verif.Bessel

/-- `j l` is the spherical Bessel function of order `l`, for every `l`. -/
structure IsSphericalBessel (j : ℕ → ℝ → ℝ) : Prop where
  cont : ∀ l, Continuous (j l)
  zero : ∀ z, z ≠ 0 → j 0 z = Real.sin z / z
  one : ∀ z, z ≠ 0 → j 1 z = Real.sin z / z ^ 2 - Real.cos z / z
  step : ∀ l z, z ≠ 0 → j (l + 2) z = (2 * l + 3) / z * j (l + 1) z - j l z

/-- Arguments for which no approximation is meant to be used: negative, zero, or, for orders up to twenty, not less than a
millionth of the order, and for higher ones between a fifth of the order and ten times the order. -/
def Plain (l : ℕ) (z : ℝ) : Prop :=
  z ≤ 0 ∨ ((l : ℝ) / 1000000 ≤ z ∧ (20 < l → (l : ℝ) / 5 ≤ z ∧ z ≤ 10 * l))

/-- The asymptotic expansion of Gradshteyn and Ryzhik 8.452 for `l + 1/2 = z cosh α`, as far as it is meant to be used. -/
noncomputable def debyeLow (l : ℕ) (z α : ℝ) : ℝ :=
  Real.exp ((l + 1 / 2) * (Real.tanh α - α)) / (2 * √(z * ((l + 1 / 2) * Real.tanh α))) *
    (1 + (1 / 8 / Real.tanh α - 5 / 24 / Real.tanh α ^ 3) / (l + 1 / 2) +
      (9 / 128 / Real.tanh α ^ 2 - 231 / 576 / Real.tanh α ^ 4) / (l + 1 / 2) ^ 2)

/-- The asymptotic expansion of Gradshteyn and Ryzhik 8.453 for `l + 1/2 = z cos β`, as far as it is meant to be used. -/
noncomputable def debyeHigh (l : ℕ) (z β : ℝ) : ℝ :=
  (Real.cos ((l + 1 / 2) * (Real.tan β - β) - Real.pi / 4) * (1 - 9 / 128 / Real.tan β ^ 2 / (l + 1 / 2) ^ 2) +
    Real.sin ((l + 1 / 2) * (Real.tan β - β) - Real.pi / 4) * (1 / 8 / Real.tan β / (l + 1 / 2))) /
    (z * √(Real.sin β))

end Verif.Bessel
