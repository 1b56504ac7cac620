import Verif.Median.MedLemmas
import Verif.Median.Double

/-!
# Property theorems C15 and C16
-/
namespace Verif.Median

/-- **C15** Any sequence of inserts and removals runs without a null pointer dereference; every
removal reports whether the item was present. Afterwards the tree holds exactly the items inserted
and not removed, in order; at every node the heights of the children differ by at most one and the
cached heights and weights are those of the subtrees; the size is the number of items, and the
height is at most logarithmic in it (Fibonacci bound). Weights are added exactly. -/
theorem C15_tree_invariants (ops : List Op) :
    ∃ t, runOps exact ops MTree.empty = some (t, (bag ops []).2) ∧
      (items t.root).Perm (bag ops []).1 ∧
      (items t.root).Pairwise Item.le ∧
      t.size = (items t.root).length ∧
      AllNodes (fun l lh rh lw rw r =>
        (height l ≤ height r + 1 ∧ height r ≤ height l + 1) ∧
        lh = height l ∧ rh = height r ∧ lw = wt (items l) ∧ rw = wt (items r)) t.root ∧
      Nat.fib (height t.root + 2) ≤ t.size + 1 := by
  obtain ⟨t, e, h⟩ := inv_run (add := exact) ops inv_empty
  have hsz : t.size = (items t.root).length := by rw [h.size, h.perm.length_eq]
  refine ⟨t, e, h.perm, h.sorted, hsz, ?_, ?_⟩
  · have := good_all t.root h.good
    simp only [wsum_exact] at this
    revert this
    generalize t.root = r
    intro this
    induction r with
    | nil => trivial
    | node l d lh rh lw rw r ihl ihr =>
      obtain ⟨⟨a, b, c, d, e, f⟩, hl, hr⟩ := this
      exact ⟨⟨⟨e, f⟩, a, b, c, d⟩, ihl hl, ihr hr⟩
  · rw [hsz]
    exact good_height_fib t.root h.good

/-- Seven inserts and two removals, one of an absent item: both kinds of rotation happen. -/
example : (runOps exact [.insert ⟨5, 1⟩, .insert ⟨3, 1⟩, .insert ⟨4, 2⟩, .insert ⟨9, 1⟩,
    .insert ⟨7, 1⟩, .insert ⟨4, 1⟩, .insert ⟨1, 1⟩, .remove ⟨4, 2⟩, .remove ⟨8, 1⟩]
    MTree.empty).map (fun p => (items p.1.root, p.1.size, p.2)) =
    some ([⟨1, 1⟩, ⟨3, 1⟩, ⟨4, 1⟩, ⟨5, 1⟩, ⟨7, 1⟩, ⟨9, 1⟩], 6, [true, false]) := by
  decide +kernel

/-- **C15** with the additions of the machine, whatever their rounding: the structure is the same,
and a cached weight is always the sum recomputed from scratch over the subtree, so that rounding
errors of removed items do not accumulate. -/
theorem C15_no_drift (add : Rat → Rat → Rat) (ops : List Op) :
    ∃ t, runOps add ops MTree.empty = some (t, (bag ops []).2) ∧
      (items t.root).Perm (bag ops []).1 ∧
      (items t.root).Pairwise Item.le ∧
      AllNodes (fun l lh rh lw rw r =>
        lh = height l ∧ rh = height r ∧ lw = wsum add l ∧ rw = wsum add r ∧
        height l ≤ height r + 1 ∧ height r ≤ height l + 1) t.root := by
  obtain ⟨t, e, h⟩ := inv_run (add := add) ops inv_empty
  exact ⟨t, e, h.perm, h.sorted, good_all t.root h.good⟩

/-- With doubles: after removing a huge weight the cached weight is not disturbed. -/
example : (runOps addDouble [.insert ⟨1, 1⟩, .insert ⟨2, 2 ^ 60⟩, .remove ⟨2, 2 ^ 60⟩,
    .insert ⟨2, 1⟩] MTree.empty).map (fun p => totalWeight addDouble p.1.root) = some 2 := by
  decide +kernel

/-- A tree reached by some operations, holding items of positive weight. -/
def Reached (t : MTree) : Prop :=
  (∃ ops bs, runOps exact ops MTree.empty = some (t, bs)) ∧ ∀ x ∈ items t.root, 0 < x.w

theorem Reached.inv {t : MTree} (h : Reached t) :
    Good exact t.root ∧ Sorted (items t.root) ∧ Pos (items t.root) := by
  obtain ⟨⟨ops, bs, e⟩, hp⟩ := h
  obtain ⟨t', e', h'⟩ := inv_run (add := exact) ops inv_empty
  rw [e] at e'
  obtain ⟨rfl, _⟩ := Prod.mk.inj (Option.some.inj e')
  exact ⟨h'.good, h'.sorted, hp⟩

/-- **C16** method `split`: for every non-empty tree with positive weights the result is the
weighted median of the items in order. -/
theorem C16_split_median (t : MTree) (h : Reached t) (hne : items t.root ≠ []) :
    ∃ m, weightedMedian exact t.root 's' = .value m ∧ IsSplitMedian (items t.root) m :=
  split_good h.inv.1 h.inv.2.2 hne

/-- The specification picks one value: two medians of the same items are equal. -/
theorem C16_spec_unique (xs : List Item) (hp : ∀ x ∈ xs, 0 < x.w) (m m' : Rat)
    (h : IsSplitMedian xs m) (h' : IsSplitMedian xs m') : m = m' := by
  rcases h with ⟨pre, x, post, e, h1, h2, rfl⟩ | ⟨pre, x, y, post, e, h1, rfl⟩ <;>
    rcases h' with ⟨pre', x', post', e', h1', h2', rfl⟩ | ⟨pre', x', y', post', e', h1', rfl⟩
  · rw [cross_unique hp e h1 h2 e' h1' h2']
  · exact absurd h1' (tie_not_cross hp e h1 h2 e')
  · exact absurd h1 (tie_not_cross hp e' h1' h2' e)
  · have := tie_unique hp e h1 e' h1'
    simp only [List.cons.injEq] at this
    obtain ⟨rfl, rfl, _⟩ := this
    rfl

/-- The tree used in the examples: items 1, 2, 3, 4 of weight one, inserted in this order. -/
def four : MTree := ⟨.node (leaf ⟨1, 1⟩) ⟨2, 1⟩ 1 2 1 2
  (.node .nil ⟨3, 1⟩ 0 1 0 1 (leaf ⟨4, 1⟩)), 4⟩

theorem four_reached : Reached four :=
  ⟨⟨[.insert ⟨1, 1⟩, .insert ⟨2, 1⟩, .insert ⟨3, 1⟩, .insert ⟨4, 1⟩], [], by decide +kernel⟩,
    by decide +kernel⟩

/-- The same items, inserted in decreasing order. -/
def fourDown : MTree := ⟨.node (.node (leaf ⟨1, 1⟩) ⟨2, 1⟩ 1 0 1 0 .nil) ⟨3, 1⟩ 2 1 2 1
  (leaf ⟨4, 1⟩), 4⟩

theorem fourDown_reached : Reached fourDown :=
  ⟨⟨[.insert ⟨4, 1⟩, .insert ⟨3, 1⟩, .insert ⟨2, 1⟩, .insert ⟨1, 1⟩], [], by decide +kernel⟩,
    by decide +kernel⟩

/-- Half of the weight lies exactly between 2 and 3. -/
example : weightedMedian exact four.root 's' = .value (5 / 2) := by decide +kernel

/-- **C16** empty tree: the value zero. -/
theorem C16_empty (add : Rat → Rat → Rat) (method : Char) :
    weightedMedian add .nil method = .value 0 := rfl

example : items MTree.empty.root = [] := rfl

/-- **C16** an unknown method is an error on every non-empty tree. -/
theorem C16_unknown_method (t : MTree) (h : Reached t) (hne : items t.root ≠ []) (method : Char)
    (h1 : method ≠ 's') (h2 : method ≠ 'l') (h3 : method ≠ 'h') :
    weightedMedian exact t.root method = .invalidMethod := by
  obtain ⟨g, hs, hp⟩ := h.inv
  obtain ⟨c, hc⟩ := found t.root g hp hne
  have hn : t.root ≠ .nil := by intro e; rw [e] at hne; exact hne rfl
  simp [weightedMedian, if_neg hn, g.tw, wsum_exact, hc.eq, finish, h1, h2, h3]

example : weightedMedian exact four.root 'x' = .invalidMethod := by decide +kernel

/-- **C16** method `higher`, what holds: the result is the value of an item of the tree and is never
below the higher weighted median; it is that median whenever half of the total weight does not fall
exactly between two elements. Missing: the tied case, see `C16_higher_violated`. -/
theorem C16_higher_partial (t : MTree) (h : Reached t) (hne : items t.root ≠ []) :
    ∃ x ∈ items t.root, weightedMedian exact t.root 'h' = .value x.v ∧
      (∃ m, IsHigherMedian (items t.root) m ∧ m ≤ x.v) ∧
      (¬ Tie (items t.root) → IsHigherMedian (items t.root) x.v) :=
  higher_good h.inv.1 h.inv.2.1 h.inv.2.2 hne

/-- **C16** method `lower`, the mirror image. -/
theorem C16_lower_partial (t : MTree) (h : Reached t) (hne : items t.root ≠ []) :
    ∃ x ∈ items t.root, weightedMedian exact t.root 'l' = .value x.v ∧
      (∃ m, IsLowerMedian (items t.root) m ∧ x.v ≤ m) ∧
      (¬ Tie (items t.root) → IsLowerMedian (items t.root) x.v) :=
  lower_good h.inv.1 h.inv.2.1 h.inv.2.2 hne

/-- No tie: three items. -/
example : weightedMedian exact (mk exact (leaf ⟨1, 1⟩) ⟨2, 1⟩ (leaf ⟨3, 1⟩)) 'h' = .value 2 ∧
    weightedMedian exact (mk exact (leaf ⟨1, 1⟩) ⟨2, 1⟩ (leaf ⟨3, 1⟩)) 'l' = .value 2 := by
  decide +kernel

/-- **C16** is violated for `higher`: for the items 1, 2, 3, 4 of equal weight the higher median is
3 and the code returns 4. -/
theorem C16_higher_violated :
    Reached four ∧ IsHigherMedian (items four.root) 3 ∧
      weightedMedian exact four.root 'h' = .value 4 := by
  refine ⟨four_reached, Or.inr ⟨[⟨1, 1⟩], ⟨2, 1⟩, ⟨3, 1⟩, [⟨4, 1⟩], by decide +kernel,
    by decide +kernel, rfl⟩, by decide +kernel⟩

/-- **C16** is violated for `lower`: inserted as 4, 3, 2, 1 the lower median is 2 and the code
returns 1. -/
theorem C16_lower_violated :
    Reached fourDown ∧ IsLowerMedian (items fourDown.root) 2 ∧
      weightedMedian exact fourDown.root 'l' = .value 1 := by
  refine ⟨fourDown_reached, Or.inr ⟨[⟨1, 1⟩], ⟨2, 1⟩, ⟨3, 1⟩, [⟨4, 1⟩], by decide +kernel,
    by decide +kernel, rfl⟩, by decide +kernel⟩

/-- The doubles `0.3`, `0.1` and `0.4`. -/
def d03 : Rat := roundDouble (3 / 10)
def d01 : Rat := roundDouble (1 / 10)
def d04 : Rat := roundDouble (4 / 10)

/-- **C16** is violated with machine arithmetic: inserting the values 1, 2, 3 with the weights 0.3,
0.1 and 0.4 and asking for the median, by any method, dereferences a null pointer. (The sum of all
weights rounds below twice the sum of the first two, and below twice the third.) -/
theorem C16_rounding_crash_violated :
    ∃ t, runOps addDouble [.insert ⟨1, d03⟩, .insert ⟨2, d01⟩, .insert ⟨3, d04⟩] MTree.empty =
        some (t, []) ∧ ∀ method, weightedMedian addDouble t.root method = .crash := by
  have h : ((runOps addDouble [.insert ⟨1, d03⟩, .insert ⟨2, d01⟩, .insert ⟨3, d04⟩]
      MTree.empty).bind fun p => if p.2 = [] ∧ p.1.root ≠ .nil ∧
        descend addDouble (totalWeight addDouble p.1.root / 2) p.1.root [] 0 0 = none
        then some p.1 else none).isSome = true := by decide +kernel
  obtain ⟨t, ht⟩ := Option.isSome_iff_exists.mp h
  obtain ⟨p, hp, hif⟩ := Option.bind_eq_some_iff.mp ht
  split at hif
  · rename_i hc
    obtain ⟨t', bs⟩ := p
    obtain ⟨rfl, hn, hd⟩ := hc
    refine ⟨t', hp, fun method => ?_⟩
    simp [weightedMedian, if_neg hn, hd, finish]
  · exact absurd hif (by simp)

end Verif.Median
