/-!
# Specifications for splitting (independent of the model)
-/
namespace Verif.Split

/-- The half-open ranges `[start r, stop r)`, `r < m`, tile `[0, n)` in rank order: the first starts
at 0, each next one starts where the previous one stops, and the last stops at `n`. -/
structure Tiles (n m : Nat) (start stop : Nat → Nat) : Prop where
  first : start 0 = 0
  meets : ∀ r, r + 1 < m → start (r + 1) = stop r
  ordered : ∀ r, r < m → start r ≤ stop r
  last : ∀ r, r + 1 = m → stop r = n

/-- Every index of `[0, n)` belongs to exactly one of the `m` ranges. -/
def OwnedOnce (n m : Nat) (start stop : Nat → Nat) : Prop :=
  ∀ g, g < n → ∃ r, (r < m ∧ start r ≤ g ∧ g < stop r) ∧
    ∀ r', r' < m → start r' ≤ g → g < stop r' → r' = r

/-- Lengths are non-increasing in the rank and differ by at most one. -/
def Balanced (m : Nat) (num : Nat → Nat) : Prop :=
  ∀ i j, i ≤ j → j < m → num j ≤ num i ∧ num i ≤ num j + 1

end Verif.Split
