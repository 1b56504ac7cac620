import Verif.Quick.Model

/-!
# Specification for C19
-/
namespace Verif.Quick
open Verif.Median (Item)

/-- Weight strictly below a value. -/
def below (xs : List Item) (v : Rat) : Rat := ((xs.filter fun x => decide (x.v < v)).map Item.w).sum

/-- Weight at or below a value. -/
def atOrBelow (xs : List Item) (v : Rat) : Rat :=
  ((xs.filter fun x => decide (x.v ≤ v)).map Item.w).sum

/-- `v` is the value of an element with at most the weight `Q` strictly below it and at least `Q` at
or below it. -/
def IsQuantile (xs : List Item) (Q v : Rat) : Prop :=
  (∃ x ∈ xs, x.v = v) ∧ below xs v ≤ Q ∧ Q ≤ atOrBelow xs v

/-- What a method takes of two neighbours. -/
def pick (method : Char) (a b : Rat) : Rat :=
  if method = 'l' then a else if method = 'h' then b else (a + b) / 2

/-- The weighted quantile at the weight `Q` inside the total: the element of positive weight at which
the cumulative weight passes `Q`, or what the method takes of the two neighbouring values of positive
weight when the cumulative weight reaches `Q` exactly between them. -/
def QuantileSpec (xs : List Item) (Q : Rat) (method : Char) (r : Rat) : Prop :=
  (∃ x ∈ xs, 0 < x.w ∧ below xs x.v < Q ∧ Q < atOrBelow xs x.v ∧ r = x.v) ∨
  (∃ a ∈ xs, ∃ b ∈ xs, 0 < a.w ∧ 0 < b.w ∧ a.v < b.v ∧ atOrBelow xs a.v = Q ∧ below xs b.v = Q ∧
    r = pick method a.v b.v)

example : below [⟨1, 1⟩, ⟨2, 3⟩, ⟨2, 1⟩, ⟨5, 1⟩] 2 = 1 ∧
    atOrBelow [⟨1, 1⟩, ⟨2, 3⟩, ⟨2, 1⟩, ⟨5, 1⟩] 2 = 5 := by decide +kernel

end Verif.Quick
