import Verif.Moving.Model
import Verif.Median.Spec

/-!
# Specification for C17 and C18
-/
namespace Verif.Moving
open Verif.Median

/-- The items of non-zero weight at the indices at most `rad` away from `i`, inside the array. -/
def window (data : List Item) (rad i : Nat) : List Item :=
  (((List.range data.length).filter fun j => decide (i ≤ j + rad ∧ j ≤ i + rad)).filterMap
    fun j => data[j]?).filter fun x => decide (x.w ≠ 0)

/-- The items of non-zero weight in the rectangle of half sizes `ry`, `rx` around `(i, j)`. -/
def window2 (g : Grid Item) (ry rx i j : Nat) : List Item :=
  ((((List.range g.ny).filter fun y => decide (i ≤ y + ry ∧ y ≤ i + ry)).flatMap fun y =>
    (((List.range g.nx).filter fun x => decide (j ≤ x + rx ∧ x ≤ j + rx)).map fun x =>
      g.get y x))).filter fun x => decide (x.w ≠ 0)

/-- `m` is the weighted median (method `split`) of a bag of items: of their sorted list. -/
def BagMedian (bag : List Item) (m : Rat) : Prop :=
  ∃ s, s.Perm bag ∧ s.Pairwise Item.le ∧ IsSplitMedian s m

def BagHigher (bag : List Item) (m : Rat) : Prop :=
  ∃ s, s.Perm bag ∧ s.Pairwise Item.le ∧ IsHigherMedian s m

def BagLower (bag : List Item) (m : Rat) : Prop :=
  ∃ s, s.Perm bag ∧ s.Pairwise Item.le ∧ IsLowerMedian s m

def BagTie (bag : List Item) : Prop := ∃ s, s.Perm bag ∧ s.Pairwise Item.le ∧ Tie s

/-- What an output sample has to be: NaN for an empty bag, the median otherwise. -/
def Good (bag : List Item) (o : Out) : Prop :=
  if bag = [] then o = .nan else ∃ m, o = .val m ∧ BagMedian bag m

/-- The same, with the mean of two values as it is computed. -/
def BagMedianWith (mean : Rat → Rat → Rat) (bag : List Item) (m : Rat) : Prop :=
  ∃ s, s.Perm bag ∧ s.Pairwise Item.le ∧ IsSplitMedianWith mean s m

def GoodWith (mean : Rat → Rat → Rat) (bag : List Item) (o : Out) : Prop :=
  if bag = [] then o = .nan else ∃ m, o = .val m ∧ BagMedianWith mean bag m

/-- The window around the last of three samples. -/
example : window [⟨5, 1⟩, ⟨7, 0⟩, ⟨9, 2⟩] 1 2 = [⟨9, 2⟩] := by decide +kernel

end Verif.Moving
