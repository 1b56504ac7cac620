import Verif.Median.Whole
import Verif.Median.Props
import Verif.Quick.FloatDouble

/-!
# C16 with the additions of the machine, for weights whose sums are exact
-/
namespace Verif.Median

/-- A whole multiple of a power of two. -/
def Whole (k : ℤ) (x : Rat) : Prop := ∃ n : ℕ, x = n * (2 : Rat) ^ k

theorem roundEven_int (z : ℤ) : roundEven (z : Rat) = z := by
  have h : (z : Rat).floor = z := Rat.floor_intCast z
  unfold roundEven
  simp only [h, sub_self]
  rw [if_pos (by norm_num)]

/-- A whole multiple of a power of two, with a factor of at most 53 bits, is a double. -/
theorem roundDouble_whole (k : ℤ) (hk : -1074 ≤ k) (n : ℕ) (hn : n < 2 ^ 53) :
    roundDouble (n * (2 : Rat) ^ k) = n * (2 : Rat) ^ k := by
  have h2 : (0 : Rat) < (2 : Rat) ^ k := zpow_pos (by norm_num) _
  by_cases h0 : n = 0
  · subst h0
    simp [roundDouble]
  have hpos : (0 : Rat) < n * (2 : Rat) ^ k := by
    have : (0 : Rat) < n := by exact_mod_cast Nat.pos_of_ne_zero h0
    positivity
  unfold roundDouble
  rw [if_neg (ne_of_gt hpos)]
  simp only
  rw [if_neg (not_lt.2 hpos.le), if_neg (not_lt.2 hpos.le)]
  have hl := Quick.ilog2_le _ hpos
  have hlt : ilog2 (n * (2 : Rat) ^ k) < 53 + k := by
    by_contra hc
    have h1 : (2 : Rat) ^ (53 + k) ≤ 2 ^ ilog2 (n * (2 : Rat) ^ k) := zpow_le_zpow_right₀ (by norm_num) (not_lt.1 hc)
    have h3 : (n : Rat) * 2 ^ k < 2 ^ (53 + k) := by
      rw [zpow_add₀ (by norm_num)]
      have : (n : Rat) < 2 ^ (53 : ℤ) := by
        have h4 : (n : Rat) < ((2 ^ 53 : ℕ) : Rat) := by exact_mod_cast hn
        rw [Nat.cast_pow] at h4
        exact_mod_cast h4
      exact mul_lt_mul_of_pos_right this h2
    linarith
  have hu : max (ilog2 (n * (2 : Rat) ^ k) - 52) (-1074) ≤ k := by omega
  generalize max (ilog2 (n * (2 : Rat) ^ k) - 52) (-1074) = e at hu
  obtain ⟨j, hj⟩ : ∃ j : ℕ, k = e + j := ⟨(k - e).toNat, by omega⟩
  have he : (0 : Rat) < 2 ^ e := zpow_pos (by norm_num) _
  have hq : (n : Rat) * 2 ^ k / 2 ^ e = ((n * 2 ^ j : ℕ) : ℤ) := by
    rw [hj, zpow_add₀ (by norm_num), zpow_natCast]
    push_cast
    field_simp
  rw [hq, roundEven_int, ← hq]
  field_simp

theorem whole_exact (k : ℤ) (hk : -1074 ≤ k) : ExactOn addDouble (Whole k) ((2 ^ 53 - 1) * (2 : Rat) ^ k) := by
  have h2 : (0 : Rat) < (2 : Rat) ^ k := zpow_pos (by norm_num) _
  refine ⟨⟨0, by simp⟩, ?_, ?_, ?_⟩
  · rintro a ⟨n, rfl⟩
    positivity
  · rintro a b ⟨n, rfl⟩ ⟨m, rfl⟩
    exact ⟨n + m, by push_cast; ring⟩
  · rintro a b ⟨n, rfl⟩ ⟨m, rfl⟩ hb
    have e : (n : Rat) * 2 ^ k + m * 2 ^ k = ((n + m : ℕ) : Rat) * 2 ^ k := by push_cast; ring
    rw [e] at hb ⊢
    unfold addDouble
    rw [e]
    refine roundDouble_whole k hk _ ?_
    have := le_of_mul_le_mul_right hb h2
    have h3 : ((n + m : ℕ) : Rat) ≤ ((2 ^ 53 - 1 : ℕ) : Rat) := by
      rw [Nat.cast_sub (by norm_num)]
      push_cast at this ⊢
      linarith
    have h4 : n + m ≤ 2 ^ 53 - 1 := by exact_mod_cast h3
    omega

theorem addDouble_comm (a b : Rat) : addDouble a b = addDouble b a := by
  unfold addDouble
  rw [add_comm]

/-- The weights are positive whole multiples of `2 ^ k`, and their sum is below `2 ^ 51` times that. -/
def Plain (k : ℤ) (xs : List Item) : Prop :=
  (∀ x ∈ xs, 0 < x.w ∧ ∃ n : ℕ, x.w = n * (2 : Rat) ^ k) ∧ wt xs < 2 ^ 51 * (2 : Rat) ^ k

theorem Plain.bound {k : ℤ} {xs : List Item} (h : Plain k xs) : 3 * wt xs ≤ (2 ^ 53 - 1) * (2 : Rat) ^ k := by
  have h2 : (0 : Rat) < (2 : Rat) ^ k := zpow_pos (by norm_num) _
  have := h.2
  nlinarith

theorem split_plain {t : Tree} {k : ℤ} (hk : -1074 ≤ k) (g : Good addDouble t) (h : Plain k (items t)) (hne : items t ≠ []) :
    ∃ m, weightedMedian addDouble t 's' = .value m ∧ IsSplitMedianWith (fun a b => addDouble a b / 2) (items t) m := by
  obtain ⟨m, h1, h2⟩ := split_whole (whole_exact k hk) g (fun x hx => (h.1 x hx).2) (fun x hx => (h.1 x hx).1) hne h.bound
  refine ⟨m, h1, ?_⟩
  rcases h2 with h2 | ⟨pre, x, y, post, e, ht, hm⟩
  · exact .inl h2
  · refine .inr ⟨pre, x, y, post, e, ht, ?_⟩
    rcases hm with hm | hm
    · exact hm
    · rw [hm, addDouble_comm]

/-- A tree made by any operations on the machine. -/
def Made (t : MTree) : Prop := ∃ ops bs, runOps addDouble ops MTree.empty = some (t, bs)

theorem Made.inv {t : MTree} (h : Made t) : Good addDouble t.root ∧ Sorted (items t.root) := by
  obtain ⟨ops, bs, e⟩ := h
  obtain ⟨t', e', h'⟩ := inv_run (add := addDouble) ops inv_empty
  rw [e] at e'
  obtain ⟨rfl, _⟩ := Prod.mk.inj (Option.some.inj e')
  exact ⟨h'.good, h'.sorted⟩

/-- **C16** on the machine, with doubles. Where the weights are whole numbers, or whole multiples of some power of two, and add up to
less than 2^51 of them, nothing is rounded: `split` is the weighted median of the items in order, with the mean of two neighbours as
the machine computes it. -/
theorem C16_whole_split (t : MTree) (h : Made t) (k : ℤ) (hk : -1074 ≤ k) (hp : Plain k (items t.root)) (hne : items t.root ≠ []) :
    ∃ m, weightedMedian addDouble t.root 's' = .value m ∧
      IsSplitMedianWith (fun a b => addDouble a b / 2) (items t.root) m :=
  split_plain hk h.inv.1 hp hne

/-- **C16** on the machine, with such weights: `higher` and `lower`, except for ties (see `C16_higher_violated`). -/
theorem C16_whole_others_partial (t : MTree) (h : Made t) (k : ℤ) (hk : -1074 ≤ k) (hp : Plain k (items t.root)) (hne : items t.root ≠ []) :
    (∃ x ∈ items t.root, weightedMedian addDouble t.root 'h' = .value x.v ∧
      (¬ Tie (items t.root) → IsHigherMedian (items t.root) x.v)) ∧
    (∃ x ∈ items t.root, weightedMedian addDouble t.root 'l' = .value x.v ∧
      (¬ Tie (items t.root) → IsLowerMedian (items t.root) x.v)) := by
  obtain ⟨g, hs⟩ := h.inv
  have ex := whole_exact k hk
  have hkind : Kind (Whole k) (items t.root) := fun x hx => (hp.1 x hx).2
  have hpos : Pos (items t.root) := fun x hx => (hp.1 x hx).1
  have hb := hp.bound
  have ge := good_whole ex t.root g hkind (by have := wt_pos hpos hne; linarith)
  rw [lower_higher_whole ex g hkind hpos hne hb 'h' (by decide), lower_higher_whole ex g hkind hpos hne hb 'l' (by decide)]
  obtain ⟨x, hx, e, _, hm⟩ := higher_good ge hs hpos hne
  obtain ⟨y, hy, e', _, hm'⟩ := lower_good ge hs hpos hne
  exact ⟨⟨x, hx, e, hm⟩, ⟨y, hy, e', hm'⟩⟩

/-- Items of weight one, and of weight three quarters and a quarter. -/
example : Made four ∧ Plain 0 (items four.root) ∧ weightedMedian addDouble four.root 's' = .value (5 / 2) := by
  refine ⟨⟨[.insert ⟨1, 1⟩, .insert ⟨2, 1⟩, .insert ⟨3, 1⟩, .insert ⟨4, 1⟩], [], by decide +kernel⟩,
    ⟨?_, by decide +kernel⟩, by decide +kernel⟩
  intro x hx
  have : x ∈ [(⟨1, 1⟩ : Item), ⟨2, 1⟩, ⟨3, 1⟩, ⟨4, 1⟩] := hx
  have hw : x.w = 1 := by
    simp only [List.mem_cons, List.not_mem_nil, or_false] at this
    rcases this with rfl | rfl | rfl | rfl <;> rfl
  exact ⟨by rw [hw]; norm_num, 1, by rw [hw]; norm_num⟩

end Verif.Median
