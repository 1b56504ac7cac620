import Mathlib.Data.Rat.Floor
import Mathlib.Algebra.Order.Field.Rat
import Mathlib.Tactic.IntervalCases

/-!
# Specifications for truncation (independent of the model)
-/
namespace Verif.Trunc

/-- `g` is the smallest power of two greater than `err`. -/
def Granularity (err g : Int) : Prop :=
  (∃ k : Nat, g = 2 ^ k) ∧ err < g ∧ ∀ k : Nat, err < 2 ^ k → g ≤ 2 ^ k

/-- `r` is a multiple of `g` nearest to `v`, and the even multiple in case of a tie. -/
def RoundsTo (g v r : Int) : Prop :=
  g ∣ r ∧ 2 * |r - v| ≤ g ∧ (2 * |r - v| = g → 2 ∣ r / g)

example : Granularity 5 8 := by
  refine ⟨⟨3, rfl⟩, by decide, ?_⟩
  intro k hk
  by_contra h
  have : k < 3 := by
    by_contra h3
    exact h (by calc (8 : Int) = 2 ^ 3 := rfl
                  _ ≤ 2 ^ k := pow_le_pow_right₀ (by decide) (by omega))
  interval_cases k <;> simp_all

example : RoundsTo 8 13 16 := ⟨⟨2, rfl⟩, by decide, by decide⟩
end Verif.Trunc
