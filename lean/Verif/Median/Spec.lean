import Verif.Median.Model

/-!
# Specification for C15 and C16

What a user of the tree sees is its list of items in order; the specifications below speak about
that list, about heights and about a plain list that is changed by the same operations.
-/
namespace Verif.Median

/-- The items of a tree in order (what an in-order traversal visits). -/
def items : Tree → List Item
  | .nil => []
  | .node l d _ _ _ _ r => items l ++ d :: items r

/-- The height of a tree: nodes on the longest path down. -/
def height : Tree → Nat
  | .nil => 0
  | .node l _ _ _ _ _ r => max (height l) (height r) + 1

/-- A predicate on left child, data, caches and right child holds at every node. -/
def AllNodes (P : Tree → Nat → Nat → Rat → Rat → Tree → Prop) : Tree → Prop
  | .nil => True
  | .node l _ lh rh lw rw r => P l lh rh lw rw r ∧ AllNodes P l ∧ AllNodes P r

/-- Order of items: by value, ties by weight. -/
def Item.le (a b : Item) : Prop := a.v < b.v ∨ (a.v = b.v ∧ a.w ≤ b.w)

/-- The operations of a user. -/
inductive Op where
  | insert (x : Item)
  | remove (x : Item)
deriving DecidableEq, Repr

/-- Run operations on the tree; collects what the removals return. -/
def runOps (add : Rat → Rat → Rat) : List Op → MTree → Option (MTree × List Bool)
  | [], t => some (t, [])
  | .insert x :: ops, t => do
    let t' ← t.insert add x
    runOps add ops t'
  | .remove x :: ops, t => do
    let p ← t.remove add x
    let q ← runOps add ops p.1
    some (q.1, p.2 :: q.2)

/-- What the operations mean: a plain bag of items (in insertion order); removing takes out one
occurrence and reports whether there was one. -/
def bag : List Op → List Item → List Item × List Bool
  | [], b => (b, [])
  | .insert x :: ops, b => bag ops (b ++ [x])
  | .remove x :: ops, b =>
    let rest := bag ops (b.erase x)
    (rest.1, decide (x ∈ b) :: rest.2)

/-- Total weight of a list of items. -/
def wt (xs : List Item) : Rat := (xs.map Item.w).sum

/-- `m` is the weighted median (method `split`) of a sorted list: the element at which the
cumulative weight crosses half of the total, or the mean of two neighbours when half the total is
reached exactly between them. -/
def IsSplitMedian (xs : List Item) (m : Rat) : Prop :=
  (∃ pre x post, xs = pre ++ x :: post ∧ wt pre < wt xs / 2 ∧ wt xs / 2 < wt pre + x.w ∧ m = x.v) ∨
  (∃ pre x y post, xs = pre ++ x :: y :: post ∧ wt pre + x.w = wt xs / 2 ∧ m = (x.v + y.v) / 2)

/-- The same, with the mean of two neighbours as it is computed. -/
def IsSplitMedianWith (mean : Rat → Rat → Rat) (xs : List Item) (m : Rat) : Prop :=
  (∃ pre x post, xs = pre ++ x :: post ∧ wt pre < wt xs / 2 ∧ wt xs / 2 < wt pre + x.w ∧ m = x.v) ∨
  (∃ pre x y post, xs = pre ++ x :: y :: post ∧ wt pre + x.w = wt xs / 2 ∧ m = mean x.v y.v)

/-- Method `lower`: the same, with the lower of the two neighbours. -/
def IsLowerMedian (xs : List Item) (m : Rat) : Prop :=
  (∃ pre x post, xs = pre ++ x :: post ∧ wt pre < wt xs / 2 ∧ wt xs / 2 < wt pre + x.w ∧ m = x.v) ∨
  (∃ pre x y post, xs = pre ++ x :: y :: post ∧ wt pre + x.w = wt xs / 2 ∧ m = x.v)

/-- Method `higher`: the same, with the upper of the two neighbours. -/
def IsHigherMedian (xs : List Item) (m : Rat) : Prop :=
  (∃ pre x post, xs = pre ++ x :: post ∧ wt pre < wt xs / 2 ∧ wt xs / 2 < wt pre + x.w ∧ m = x.v) ∨
  (∃ pre x y post, xs = pre ++ x :: y :: post ∧ wt pre + x.w = wt xs / 2 ∧ m = y.v)

/-- Half of the total weight is reached exactly between two elements. -/
def Tie (xs : List Item) : Prop :=
  ∃ pre x y post, xs = pre ++ x :: y :: post ∧ wt pre + x.w = wt xs / 2

end Verif.Median
