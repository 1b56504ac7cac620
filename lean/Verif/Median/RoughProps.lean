import Verif.Median.Rough
import Verif.Median.WholeProps
import Mathlib.Algebra.Order.Ring.Pow
import Mathlib.Tactic.IntervalCases

/-!
# C16 with the additions of the machine, for all weights
-/
namespace Verif.Median

theorem whole_bottom (e : ℤ) (he : -1074 ≤ e) (z : ℤ) (hz : 0 ≤ z) : Whole (-1074) (z * (2 : Rat) ^ e) := by
  obtain ⟨j, rfl⟩ : ∃ j : ℕ, e = -1074 + j := ⟨(e + 1074).toNat, by omega⟩
  obtain ⟨n, rfl⟩ := Int.eq_ofNat_of_zero_le hz
  refine ⟨n * 2 ^ j, ?_⟩
  rw [zpow_add₀ (by norm_num), zpow_natCast]
  push_cast
  ring

theorem roundEven_nonneg (m : Rat) (h : 0 ≤ m) : 0 ≤ roundEven m := by
  have h1 : 0 ≤ m.floor := by
    have : (0 : Int) ≤ ⌊m⌋ := Int.le_floor.2 (by exact_mod_cast h)
    exact this
  unfold roundEven
  simp only
  split
  · exact h1
  · split
    · omega
    · split <;> omega

/-- What rounding does to a multiple of the smallest double: another one, off by at most one part in 2^53. -/
theorem roundDouble_rel (q : Rat) (h : Whole (-1074) q) : Whole (-1074) (roundDouble q) ∧ |roundDouble q - q| ≤ 1 / 2 ^ 53 * q := by
  obtain ⟨n, hn⟩ := h
  by_cases h0 : q = 0
  · rw [h0]
    exact ⟨⟨0, by simp [roundDouble]⟩, by simp [roundDouble]⟩
  have hz : (0 : Rat) < 2 ^ (-1074 : ℤ) := zpow_pos (by norm_num) _
  have hq0 : 0 ≤ q := by rw [hn]; exact mul_nonneg (Nat.cast_nonneg n) hz.le
  have hq : 0 < q := lt_of_le_of_ne hq0 (Ne.symm h0)
  have hl := Quick.ilog2_le q hq
  unfold roundDouble
  rw [if_neg h0]
  simp only
  rw [if_neg (not_lt.2 hq.le), if_neg (not_lt.2 hq.le)]
  have he : -1074 ≤ max (ilog2 q - 52) (-1074) := le_max_right _ _
  have hu : (0 : Rat) < 2 ^ (max (ilog2 q - 52) (-1074)) := zpow_pos (by norm_num) _
  refine ⟨whole_bottom _ he _ (roundEven_nonneg _ (by positivity)), ?_⟩
  rcases max_cases (ilog2 q - 52) (-1074) with ⟨e, _⟩ | ⟨e, _⟩
  · have hr := Quick.roundEven_near (q / 2 ^ (max (ilog2 q - 52) (-1074)))
    have h3 : (2 : Rat) ^ (max (ilog2 q - 52) (-1074)) / 2 ≤ 1 / 2 ^ 53 * q := by
      rw [e, zpow_sub₀ (by norm_num)]
      have : (2 : Rat) ^ (52 : Int) = 2 ^ 52 := by norm_cast
      rw [this, div_div, ← pow_succ, div_mul_eq_mul_div, one_mul]
      exact div_le_div_of_nonneg_right hl (by positivity)
    generalize (2 : Rat) ^ (max (ilog2 q - 52) (-1074)) = v at *
    have : (roundEven (q / v) : Rat) * v - q = ((roundEven (q / v) : Rat) - q / v) * v := by field_simp
    rw [this, abs_mul, abs_of_pos hu]
    calc |(roundEven (q / v) : Rat) - q / v| * v ≤ 1 / 2 * v := mul_le_mul_of_nonneg_right hr hu.le
      _ = v / 2 := by ring
      _ ≤ _ := h3
  · rw [e]
    have hd : q / 2 ^ (-1074 : ℤ) = ((n : ℤ) : Rat) := by
      rw [hn]
      push_cast
      field_simp
    rw [hd, roundEven_int]
    have : ((n : ℤ) : Rat) * 2 ^ (-1074 : ℤ) - q = 0 := by rw [hn]; push_cast; ring
    rw [this, abs_zero]
    positivity

/-- Additions of doubles that are not negative. -/
theorem double_rel : RelOn addDouble (Whole (-1074)) (1 / 2 ^ 53) := by
  have hadd : ∀ a b, Whole (-1074) a → Whole (-1074) b → Whole (-1074) (a + b) := by
    rintro a b ⟨n, rfl⟩ ⟨m, rfl⟩
    exact ⟨n + m, by push_cast; ring⟩
  refine ⟨by positivity, by norm_num, ⟨0, by simp⟩, ?_, fun a b ha hb => (roundDouble_rel _ (hadd a b ha hb)).1, fun a b ha hb => (roundDouble_rel _ (hadd a b ha hb)).2⟩
  rintro a ⟨n, rfl⟩
  have : (0 : Rat) < (2 : Rat) ^ (-1074 : ℤ) := zpow_pos (by norm_num) _
  exact mul_nonneg (Nat.cast_nonneg n) this.le

/-- A difference of one part in 2^45 is enough for 180 roundings. -/
theorem far_of (K : Nat) (hK : K ≤ 180) (W X : Rat) (hW : 0 < W) (hX : 0 ≤ X) (h : W / 2 ^ 45 ≤ |X - W / 2|) : Far (1 / 2 ^ 53) K W X := by
  have hp0 : (0 : Rat) < (1 - 1 / 2 ^ 53) ^ K := by
    have : (0 : Rat) < 1 - 1 / 2 ^ 53 := by norm_num
    positivity
  have hb : (1 : Rat) - 180 / 2 ^ 53 ≤ (1 - 1 / 2 ^ 53) ^ K := by
    have h1 := one_add_mul_le_pow (a := (-(1 / 2 ^ 53) : Rat)) (by norm_num) K
    have hk : (K : Rat) ≤ 180 := by exact_mod_cast hK
    have e : (1 : Rat) - 1 / 2 ^ 53 = 1 + -(1 / 2 ^ 53) := by ring
    rw [e]
    refine le_trans ?_ h1
    have : (0 : Rat) < 1 / 2 ^ 53 := by positivity
    nlinarith
  have hP : (1 + 1 / 2 ^ 53 : Rat) ^ K * (1 - 1 / 2 ^ 53) ^ K ≤ 1 := by
    rw [← mul_pow]
    exact pow_le_one₀ (by norm_num) (by norm_num)
  have hP0 : (0 : Rat) < (1 + 1 / 2 ^ 53 : Rat) ^ K := by positivity
  unfold Far
  generalize (1 - 1 / 2 ^ 53 : Rat) ^ K = p at *
  generalize (1 + 1 / 2 ^ 53 : Rat) ^ K = P at *
  have hp2 : (1 : Rat) - 360 / 2 ^ 53 ≤ p * p := by nlinarith
  rcases le_abs.1 h with h | h
  · right
    have hX1 : W / 2 + W / 2 ^ 45 ≤ X := by linarith
    have h1 : W / 2 < p * p * X := by
      have h2 : (1 - 360 / 2 ^ 53) * (W / 2 + W / 2 ^ 45) ≤ p * p * X := mul_le_mul hp2 hX1 (by positivity) (by positivity)
      have h3 : W / 2 < (1 - 360 / 2 ^ 53) * (W / 2 + W / 2 ^ 45) := by
        have e : (1 - 360 / 2 ^ 53 : Rat) * (W / 2 + W / 2 ^ 45) = W / 2 + W * ((1 - 360 / 2 ^ 53) * (1 / 2 + 1 / 2 ^ 45) - 1 / 2) := by ring
        rw [e]
        have : (0 : Rat) < (1 - 360 / 2 ^ 53) * (1 / 2 + 1 / 2 ^ 45) - 1 / 2 := by norm_num
        nlinarith
      linarith
    by_contra hc
    have h2 := mul_le_mul_of_nonneg_left (not_lt.1 hc) hp0.le
    have h3 : p * (P * (W / 2)) ≤ W / 2 := by
      have : P * p * (W / 2) ≤ 1 * (W / 2) := mul_le_mul_of_nonneg_right hP (by linarith)
      linarith
    have h4 : p * p * X = p * (p * X) := by ring
    linarith
  · left
    have hX1 : X ≤ W / 2 - W / 2 ^ 45 := by linarith
    have h1 : X < p * p * (W / 2) := by
      have h2 : (1 - 360 / 2 ^ 53) * (W / 2) ≤ p * p * (W / 2) := mul_le_mul_of_nonneg_right hp2 (by linarith)
      have e : (1 - 360 / 2 ^ 53 : Rat) * (W / 2) - (W / 2 - W / 2 ^ 45) = W * (1 / 2 ^ 45 - 180 / 2 ^ 53) := by ring
      have : (0 : Rat) < 1 / 2 ^ 45 - 180 / 2 ^ 53 := by norm_num
      have : 0 < W * (1 / 2 ^ 45 - 180 / 2 ^ 53) := by positivity
      linarith
    by_contra hc
    have h2 := mul_le_mul_of_nonneg_left (not_lt.1 hc) hp0.le
    have h3 : p * (P * X) ≤ X := by
      have : P * p * X ≤ 1 * X := mul_le_mul_of_nonneg_right hP hX
      linarith
    have h4 : p * (p * (W / 2)) = p * p * (W / 2) := by ring
    linarith

theorem height_small (t : Tree) (g : Good addDouble t) (hn : (items t).length < 2 ^ 40) : height t ≤ 57 := by
  have h := good_height_fib t g
  by_contra hc
  have h1 : Nat.fib 60 ≤ Nat.fib (height t + 2) := Nat.fib_mono (by omega)
  have h2 : Nat.fib 60 = 1548008755920 := by decide +kernel
  omega

/-- The weights are doubles, which are all multiples of 2^-1074, and not negative. -/
def Doubles (xs : List Item) : Prop := ∀ x ∈ xs, ∃ n : ℕ, x.w = n * (2 : Rat) ^ (-1074 : ℤ)

/-- No sum of the first weights comes nearer to half of all than one part in 2^45 of all. -/
def Clear (xs : List Item) : Prop := ∀ pre post, xs = pre ++ post → wt xs / 2 ^ 45 ≤ |wt pre - wt xs / 2|

theorem clear_median {t : Tree} (g : Good addDouble t) (hd : Doubles (items t)) (hn : (items t).length < 2 ^ 40) (hpos : 0 < wt (items t))
    (hc : Clear (items t)) :
    ∃ pre x post, items t = pre ++ x :: post ∧ wt pre < wt (items t) / 2 ∧ wt (items t) / 2 < wt pre + x.w ∧
      ∀ m, m = 's' ∨ m = 'l' ∨ m = 'h' → weightedMedian addDouble t m = .value x.v := by
  have hh := height_small t g hn
  refine median_clear double_rel t g hd hpos fun a b e => ?_
  have hda : Of (Whole (-1074)) a := fun x hx => hd x (by rw [e]; simp [hx])
  have hdb : Of (Whole (-1074)) b := fun x hx => hd x (by rw [e]; simp [hx])
  have h1 := hc a b e
  have hs : wt (items t) = wt a + wt b := by rw [e, wt_append]
  refine ⟨far_of _ (by omega) _ _ hpos (wt0 double_rel hda) h1, far_of _ (by omega) _ _ hpos (wt0 double_rel hdb) ?_⟩
  have e2 : wt b - wt (items t) / 2 = -(wt a - wt (items t) / 2) := by rw [hs]; ring
  rw [e2, abs_neg]
  exact h1

/-- **C16** (partial) on the machine, for any weights that are doubles and not negative, and up to 2^40 items: if no sum of the first weights is nearly half of all,
that is, nearer than one part in 2^45, all three methods give the item at which the weights cross half of the total, in spite of rounding.

Missing: sums that are nearly half, for which see `C16_near_split_partial`. -/
theorem C16_clear_partial (t : MTree) (h : Made t) (hd : Doubles (items t.root)) (hn : (items t.root).length < 2 ^ 40) (hpos : 0 < wt (items t.root))
    (hc : Clear (items t.root)) :
    ∃ pre x post, items t.root = pre ++ x :: post ∧ wt pre < wt (items t.root) / 2 ∧ wt (items t.root) / 2 < wt pre + x.w ∧
      ∀ m, m = 's' ∨ m = 'l' ∨ m = 'h' → weightedMedian addDouble t.root m = .value x.v :=
  clear_median h.inv.1 hd hn hpos hc

/-- Values 1, 2, 3 with the weights 0.1, 0.4 and 0.1. -/
def tenths : MTree := ⟨.node (leaf ⟨1, d01⟩) ⟨2, d04⟩ 1 1 d01 d01 (leaf ⟨3, d01⟩), 3⟩

theorem tenths_made : Made tenths := ⟨[.insert ⟨1, d01⟩, .insert ⟨2, d04⟩, .insert ⟨3, d01⟩], [], by decide +kernel⟩

theorem tenths_doubles : Doubles (items tenths.root) := by
  have h1 : d01 = ((3602879701896397 : ℤ) : Rat) * (2 : Rat) ^ (-55 : ℤ) := by
    have : d01 = 3602879701896397 / 36028797018963968 := by decide +kernel
    rw [this]; norm_num
  have h4 : d04 = ((3602879701896397 : ℤ) : Rat) * (2 : Rat) ^ (-53 : ℤ) := by
    have : d04 = 3602879701896397 / 9007199254740992 := by decide +kernel
    rw [this]; norm_num
  intro x hx
  have : x ∈ [(⟨1, d01⟩ : Item), ⟨2, d04⟩, ⟨3, d01⟩] := hx
  simp only [List.mem_cons, List.not_mem_nil, or_false] at this
  rcases this with rfl | rfl | rfl
  · exact h1 ▸ whole_bottom (-55) (by norm_num) _ (by norm_num)
  · exact h4 ▸ whole_bottom (-53) (by norm_num) _ (by norm_num)
  · exact h1 ▸ whole_bottom (-55) (by norm_num) _ (by norm_num)

theorem tenths_clear : Clear (items tenths.root) := by
  intro pre post e
  have hp : pre = (items tenths.root).take pre.length := by rw [e]; simp
  have hl : pre.length ≤ 3 := by
    have : (items tenths.root).length = 3 := by decide +kernel
    rw [e] at this; simp at this; omega
  rw [hp]
  clear hp e
  generalize pre.length = n at hl
  interval_cases n <;> decide +kernel

/-- The weights of `tenths` are not whole numbers of anything, and no sum of the first of them is near half. -/
example : Made tenths ∧ Doubles (items tenths.root) ∧ (items tenths.root).length < 2 ^ 40 ∧ 0 < wt (items tenths.root) ∧ Clear (items tenths.root) ∧
    weightedMedian addDouble tenths.root 's' = .value 2 :=
  ⟨tenths_made, tenths_doubles, by decide +kernel, by decide +kernel, tenths_clear, by decide +kernel⟩

/-- From the error of the sums to a bound on the weight itself. -/
theorem near_half (K j : Nat) (hK : K ≤ 173) (W X : Rat) (hX : 0 ≤ X) (hXW : X ≤ W)
    (h : (1 - 1 / 2 ^ 53 : Rat) ^ (K + 2 * j) * X ≤ (1 + 1 / 2 ^ 53) ^ K * (W / 2)) : X ≤ W / 2 + (346 + 2 * j) / 2 ^ 53 * W := by
  have hP : (1 + 1 / 2 ^ 53 : Rat) ^ K * (1 - 1 / 2 ^ 53) ^ K ≤ 1 := by
    rw [← mul_pow]
    exact pow_le_one₀ (by norm_num) (by norm_num)
  have hq : (0 : Rat) ≤ (1 - 1 / 2 ^ 53) ^ K := pow_nonneg (by norm_num) _
  have hW : 0 ≤ W := le_trans hX hXW
  have h1 : (1 - 1 / 2 ^ 53 : Rat) ^ (2 * K + 2 * j) * X ≤ W / 2 := by
    calc (1 - 1 / 2 ^ 53 : Rat) ^ (2 * K + 2 * j) * X = (1 - 1 / 2 ^ 53) ^ K * ((1 - 1 / 2 ^ 53) ^ (K + 2 * j) * X) := by
            rw [← mul_assoc, ← pow_add]; congr 2; omega
      _ ≤ (1 - 1 / 2 ^ 53) ^ K * ((1 + 1 / 2 ^ 53) ^ K * (W / 2)) := mul_le_mul_of_nonneg_left h hq
      _ = ((1 + 1 / 2 ^ 53 : Rat) ^ K * (1 - 1 / 2 ^ 53) ^ K) * (W / 2) := by ring
      _ ≤ 1 * (W / 2) := mul_le_mul_of_nonneg_right hP (by linarith)
      _ = W / 2 := one_mul _
  have h2 := one_add_mul_le_pow (a := (-(1 / 2 ^ 53) : Rat)) (by norm_num) (2 * K + 2 * j)
  have e : (1 : Rat) + -(1 / 2 ^ 53) = 1 - 1 / 2 ^ 53 := by ring
  rw [e] at h2
  have h3 : (1 - (346 + 2 * j) / 2 ^ 53 : Rat) ≤ (1 - 1 / 2 ^ 53) ^ (2 * K + 2 * j) := by
    refine le_trans ?_ h2
    have hk : (K : Rat) ≤ 173 := by exact_mod_cast hK
    push_cast
    linarith
  have h4 := le_trans (mul_le_mul_of_nonneg_right h3 hX) h1
  have h5 : (346 + 2 * j : Rat) / 2 ^ 53 * X ≤ (346 + 2 * j) / 2 ^ 53 * W := mul_le_mul_of_nonneg_left hXW (by positivity)
  linarith

/-- **C16** (partial) on the machine, for any weights that are doubles and not negative, and up to 2^40 items, also where sums of weights come near half of all or meet
it: if method `split` gives a value, it is the mean, as the machine computes it, of neighbours in the sorted list, and for every one of them the weight before it and
the weight after it are each at most half of the total, but for 346 + 2n parts in 2^53 of the total, where n is the number of neighbours.

Missing: that it gives a value (see `C16_rounding_crash_violated`), and the other two methods near half (see `C16_lower_violated`). -/
theorem C16_near_split_partial (t : MTree) (h : Made t) (hd : Doubles (items t.root)) (hn : (items t.root).length < 2 ^ 40) (hne : items t.root ≠ [])
    (m : Rat) (e : weightedMedian addDouble t.root 's' = .value m) :
    ∃ pre down x up post, items t.root = pre ++ (down.reverse ++ x :: up) ++ post ∧
      m = ((down ++ up).foldl (fun s y => addDouble s y.v) x.v) / (down.length + up.length + 1 : Nat) ∧
      ∀ a y b, items t.root = a ++ y :: b → pre.length ≤ a.length → a.length < pre.length + (down.length + up.length + 1) →
        wt a ≤ wt (items t.root) / 2 + (346 + 2 * (down.length + up.length + 1 : Nat)) / 2 ^ 53 * wt (items t.root) ∧
        wt b ≤ wt (items t.root) / 2 + (346 + 2 * (down.length + up.length + 1 : Nat)) / 2 ^ 53 * wt (items t.root) := by
  have g := h.inv.1
  have hh := height_small _ g hn
  have ht : t.root ≠ .nil := by intro hc; rw [hc] at hne; exact hne rfl
  obtain ⟨pre, down, x, up, post, e1, e2, e3⟩ := split_near double_rel t.root g hd ht m e
  refine ⟨pre, down, x, up, post, e1, e2, fun a y b hl ha hb => ?_⟩
  obtain ⟨f1, f2⟩ := e3 a y b hl ha hb
  have oa : Of (Whole (-1074)) a := fun z hz => hd z (by rw [hl]; simp [hz])
  have ob : Of (Whole (-1074)) b := fun z hz => hd z (by rw [hl]; simp [hz])
  have oy : 0 ≤ y.w := double_rel.nonneg _ (hd y (by rw [hl]; simp))
  have a0 := wt0 double_rel oa
  have b0 := wt0 double_rel ob
  have hs : wt (items t.root) = wt a + (y.w + wt b) := by rw [hl, wt_append, wt_cons]
  exact ⟨near_half _ _ (by omega) _ _ a0 (by rw [hs]; linarith) f1, near_half _ _ (by omega) _ _ b0 (by rw [hs]; linarith) f2⟩

/-- Four items of weight 0.1: half lies between the second and the third, and the median is the mean of their values. -/
example : ∃ t bs, runOps addDouble [.insert ⟨1, d01⟩, .insert ⟨2, d01⟩, .insert ⟨3, d01⟩, .insert ⟨4, d01⟩] MTree.empty = some (t, bs) ∧
    weightedMedian addDouble t.root 's' = .value (5 / 2) :=
  ⟨⟨.node (leaf ⟨1, d01⟩) ⟨2, d01⟩ 1 2 d01 (addDouble d01 d01) (.node .nil ⟨3, d01⟩ 0 1 0 d01 (leaf ⟨4, d01⟩)), 4⟩, [], by decide +kernel, by decide +kernel⟩

end Verif.Median
