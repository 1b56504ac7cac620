import Verif.Quick.FloatDouble
import Verif.Quick.Props

/-!
# Property theorems C19: the arithmetic of the machine

`quantileRowF O method q row` is one row of `quantile` with the arithmetic and comparisons `O`.
-/
namespace Verif.Quick
open Verif.Median (Item roundDouble)

variable {ι α ω δ : Type}

/-- **C19** whatever the data and the weights are (NaN, infinities, negative weights) and however sums are rounded,
the function ends and stays inside of its arrays, if the row has at least two elements; the result is an element
or the mean of two. All that is used is that no value is less than itself. -/
theorem C19_no_stray_access (O : Ops ι α ω δ) (hirr : ∀ x, O.lt x x = false) (hunit : ∀ x, O.val (O.unit x) = O.val x)
    (m : Char) (q : δ) (row : List ι) (hlen : 2 ≤ row.length) :
    ∃ r, quantileRowF O m q row = some r ∧
      ((∃ x ∈ row, r = O.val x) ∨ ∃ x ∈ row, ∃ y ∈ row, r = O.mean (O.val x) (O.val y)) := by
  unfold quantileRowF
  split
  · obtain ⟨r, e, hr⟩ := selectF_safe O hirr m (row.length + 1) (row.map O.unit) 0 (row.length - 1)
      (O.mul (O.ofNat row.length) q) (by omega) (by rw [List.length_map]; omega) (by omega)
    refine ⟨r, e, ?_⟩
    rcases hr with ⟨x, hx, rfl⟩ | ⟨x, hx, y, hy, rfl⟩
    · obtain ⟨x', hx', rfl⟩ := List.mem_map.1 hx
      exact Or.inl ⟨x', hx', hunit x'⟩
    · obtain ⟨x', hx', rfl⟩ := List.mem_map.1 hx
      obtain ⟨y', hy', rfl⟩ := List.mem_map.1 hy
      exact Or.inr ⟨x', hx', y', hy', by rw [hunit, hunit]⟩
  · exact selectF_safe O hirr m (row.length + 1) row 0 (row.length - 1) (O.mul (totalF O row) q) (by omega)
      (by omega) (by omega)

/-- Data with NaN (`none`); weights and sums of integers. -/
def nanOps : Ops (Option Int × Int) (Option Int) Int Int where
  val := Prod.fst
  wt := Prod.snd
  unit x := (x.1, 1)
  lt
    | some x, some y => decide (x < y)
    | _, _ => false
  mean
    | some x, some y => some ((x + y) / 2)
    | _, _ => none
  pos w := decide (0 < w)
  isZero w := decide (w = 0)
  zero := 0
  ofNat n := n
  add := (· + ·)
  sub := (· - ·)
  mul := (· * ·)
  eq x y := decide (x = y)
  le x y := decide (x ≤ y)

/-- NaN among the data, and a NaN result. -/
example : (∀ x, nanOps.lt x x = false) ∧ (∀ x, nanOps.val (nanOps.unit x) = nanOps.val x) ∧
    ∃ r, quantileRowF nanOps 's' 1 [(some 3, 1), (none, 1), (some 1, 1)] = some r := by
  refine ⟨fun x => by cases x <;> simp [nanOps], fun _ => rfl, ?_⟩
  obtain ⟨r, h, _⟩ := C19_no_stray_access nanOps (fun x => by cases x <;> simp [nanOps]) (fun _ => rfl) 's' 1
    [(some 3, 1), (none, 1), (some 1, 1)] (by decide)
  exact ⟨r, h⟩

/-! ## The exact model is the case without rounding -/

theorem scanLF_exact (cast : Rat → Rat) (a : List Item) (p : Rat) (ii : Nat) (wl : Rat) :
    scanLF (ratOps (exactArith cast)) a p ii wl = scanL a p ii wl := by
  generalize hk : a.length - ii = k
  induction k generalizing ii wl with
  | zero => rw [scanLF, scanL, dif_neg (by omega), dif_neg (by omega)]
  | succ k ih =>
    have hi : ii < a.length := by omega
    rw [scanLF, scanL, dif_pos hi, dif_pos hi]
    have := ih (ii + 1) (wl + a[ii].w) (by omega)
    have h1 : (ratOps (exactArith cast)).add wl ((ratOps (exactArith cast)).wt a[ii]) = wl + a[ii].w := rfl
    have h2 : (ratOps (exactArith cast)).lt ((ratOps (exactArith cast)).val a[ii]) p = decide (a[ii].v < p) := rfl
    rw [h1, h2, this]
    simp only [decide_eq_true_eq]

theorem hoareF_exact (cast : Rat → Rat) (p : Rat) : ∀ (fuel : Nat) (a : List Item) (ii jj : Nat) (wl : Rat),
    hoareF (ratOps (exactArith cast)) p fuel a ii jj wl = hoare p fuel a ii jj wl
  | 0, _, _, _, _ => rfl
  | fuel + 1, a, ii, jj, wl => by
    rw [hoareF, hoare, scanLF_exact, scanRF_rat]
    cases scanL a p ii wl with
    | none => rfl
    | some l =>
      cases scanR a p jj with
      | none => rfl
      | some jj' =>
        simp only [Option.bind_eq_bind, Option.bind_some]
        split
        · unfold meetF meet weightAt
          split
          · cases a[l.1]? <;> rfl
          · rfl
        · rw [swapF_rat]
          cases hs : swap a l.1 jj' with
          | none => rfl
          | some a' =>
            simp only [Option.bind_some, weightAt]
            cases a'[l.1]? with
            | none => rfl
            | some x =>
              simp only [Option.bind_some, Option.map_some]
              exact hoareF_exact cast p fuel a' (l.1 + 1) (jj' - 1) (l.2 + x.w)

theorem boundaryF_exact (cast : Rat → Rat) (m : Char) (a : List Item) (jj : Nat) :
    boundaryF (ratOps (exactArith cast)) m a jj = boundary cast m a jj := by
  unfold boundaryF boundary
  rw [maxNonZeroF_rat, minNonZeroF_rat]
  have : ∀ x y, boundaryValueF (ratOps (exactArith cast)) m x y = boundaryValue cast m x y := by
    intro x y
    simp only [boundaryValueF, boundaryValue, ratOps, exactArith, decide_eq_true_eq, gt_iff_lt]
  simp only [this]

theorem selectF_exact (cast : Rat → Rat) (m : Char) : ∀ (fuel : Nat) (a : List Item) (i j : Nat) (qs : Rat),
    selectF (ratOps (exactArith cast)) m fuel a i j qs = select cast m fuel a i j qs
  | 0, _, _, _, _ => rfl
  | fuel + 1, a, i, j, qs => by
    rw [selectF, select]
    unfold valueAt
    cases a[(i + j) / 2]? with
    | none => rfl
    | some x =>
      simp only [Option.bind_eq_bind, Option.bind_some, Option.map_some]
      have h0 : hoareF (ratOps (exactArith cast)) ((ratOps (exactArith cast)).val x) (a.length + 1) a i j
          (ratOps (exactArith cast)).zero = hoare x.v (a.length + 1) a i j 0 := hoareF_exact cast x.v _ a i j 0
      rw [h0]
      cases hoare x.v (a.length + 1) a i j 0 with
      | none => rfl
      | some r =>
        have h1 : (ratOps (exactArith cast)).eq qs r.2.2 = decide (qs = r.2.2) := rfl
        have h2 : (ratOps (exactArith cast)).le qs r.2.2 = decide (qs ≤ r.2.2) := rfl
        have h3 : (ratOps (exactArith cast)).sub qs r.2.2 = qs - r.2.2 := rfl
        simp only [Option.bind_some, h1, h2, h3, decide_eq_true_eq, boundaryF_exact, selectF_exact cast m fuel]
        rfl

/-- The model of `Verif.Quick.Model` is this one with exact arithmetic. -/
theorem exact_row (cast : Rat → Rat) (m : Char) (q : Rat) (row : List Item) :
    quantileRowF (ratOps (exactArith cast)) m q row = quantileRow cast m q row := by
  have ht : totalF (ratOps (exactArith cast)) row = total row := by
    have : ∀ (l : List Item) (s : Rat), l.foldl (fun t x => t + x.w) s = s + total l := by
      intro l
      induction l with
      | nil => intro s; simp [total]
      | cons x l ih => intro s; rw [List.foldl_cons, ih, total_cons]; ring
    have := this row 0
    rw [zero_add] at this
    exact this
  unfold quantileRowF quantileRow
  rw [ht]
  have h1 : (ratOps (exactArith cast)).eq (total row) (ratOps (exactArith cast)).zero = decide (total row = 0) := rfl
  simp only [h1, decide_eq_true_eq]
  by_cases h : total row = 0
  · rw [if_pos h, if_pos h, selectF_exact, total_uniform]
    have hl : (uniform row).length = row.length := by simp [uniform]
    rw [hl]
    rfl
  · rw [if_neg h, if_neg h, selectF_exact]
    rfl

/-! ## Rounding -/

/-- **C19** with rounding: if sums, differences and products (up to twice the total weight) are off by at most `d`,
then the result has at most the weight asked for below it and at least that at or below it, up to
`(n + 1)^2 * d` for rows of `n` elements. (`hz`: the rounded sum of the weights is zero only if all are.) -/
theorem C19_rounding_partial (A : Arith) (m : Char) (hmo : MeanOk A m) (q : Rat) (hq0 : 0 ≤ q) (hq1 : q ≤ 1)
    (row : List Item) (hlen : 2 ≤ row.length) (hw : ∀ x ∈ row, 0 ≤ x.w) (d : Rat) (hd : 0 ≤ d)
    (hA : Rounds A (2 * total (effective row)) d)
    (hz : row.foldl (fun s x => A.add s x.w) 0 = 0 ↔ ∀ x ∈ row, x.w = 0) :
    ∃ r, quantileRowF (ratOps A) m q row = some r ∧
      below (effective row) r ≤ q * total (effective row) + (row.length + 1) ^ 2 * d ∧
      q * total (effective row) - (row.length + 1) ^ 2 * d ≤ atOrBelow (effective row) r := by
  obtain ⟨r0, e0, _⟩ := C19_no_stray_access (ratOps A) (fun x => by simp [ratOps]) (fun _ => rfl) m q row hlen
  have hn : NonNeg (effective row) := by
    intro x hx
    unfold effective at hx
    split at hx
    · obtain ⟨y, _, rfl⟩ := List.mem_map.1 hx
      simp
    · exact hw x hx
  have ht0 := total_nonneg _ hn
  have hl : (effective row).length = row.length := by
    unfold effective
    split <;> simp
  have hq : q * total (effective row) ≤ total (effective row) := by nlinarith
  have hq' : 0 ≤ q * total (effective row) := mul_nonneg hq0 ht0
  have hT0 : 0 ≤ ((row.length : Rat) + 1) ^ 2 * d := mul_nonneg (sq_nonneg _) hd
  by_cases hbig : total (effective row) < ((row.length : Rat) + 1) ^ 2 * d
  · -- the bound says nothing
    refine ⟨r0, e0, ?_, ?_⟩
    · have := fs_le (fun x => decide (x.v < r0)) _ hn
      rw [below_eq]
      linarith
    · have := fs_nonneg (fun x => decide (x.v ≤ r0)) _ hn
      rw [atOrBelow_eq]
      linarith
  have hT : ((row.length : Rat) + 1) ^ 2 * d ≤ total (effective row) := not_lt.1 hbig
  have hnd : 0 ≤ (row.length : Rat) * d := mul_nonneg (Nat.cast_nonneg _) hd
  have hnn : 0 ≤ (row.length : Rat) * ((row.length : Rat) * d) := mul_nonneg (Nat.cast_nonneg _) hnd
  have hT2 : ((row.length : Rat) + 1) ^ 2 * d =
      (row.length : Rat) * ((row.length : Rat) * d) + 2 * ((row.length : Rat) * d) + d := by ring
  -- one run of the selection on the row that counts
  have run : ∀ wt : Rat, |wt - total (effective row)| ≤ (row.length : Rat) * d →
      ∃ r, selectF (ratOps A) m (row.length + 1) (effective row) 0 (row.length - 1) (A.mul wt q) = some r ∧
        Near (effective row) (q * total (effective row)) (((row.length : Rat) + 1) ^ 2 * d) r := by
    intro wt hwt
    have h1 := abs_le.1 hwt
    have hx0 : -((row.length : Rat) * d) ≤ (wt - total (effective row)) * q := by nlinarith
    have hx1 : (wt - total (effective row)) * q ≤ (row.length : Rat) * d := by nlinarith
    have hmul := abs_le.1 (hA.mul wt q (abs_le.2 ⟨by nlinarith, by nlinarith⟩))
    refine selectF_near A hA hd (effective row) m hmo (q * total (effective row)) _ hq' hq (by linarith)
      (row.length + 1) (effective row) 0 (row.length - 1) (A.mul wt q) ((row.length : Rat) * d + d)
      (List.Perm.refl _) hn (by omega) (by omega) (by omega) (fun k l x y _ _ h _ => absurd h (by omega))
      (fun k l x y _ hy _ h2 => by
        rw [List.getElem?_eq_none (by omega)] at hy
        simp at hy) ?_ ?_ ?_ (by linarith) ?_
    · rw [pre_zero]
      exact abs_le.2 ⟨by nlinarith, by nlinarith⟩
    · rw [pre_zero]; linarith
    · rw [pre_all _ _ (by omega)]; linarith
    · rw [hl]
      have : ((row.length - 1 - 0 : Nat) : Rat) = (row.length : Rat) - 1 := by
        rw [Nat.sub_zero, Nat.cast_sub (by omega)]
        simp
      rw [this]
      push_cast
      nlinarith
  have htot : totalF (ratOps A) row = row.foldl (fun s x => A.add s x.w) 0 := rfl
  have heq : (ratOps A).eq (totalF (ratOps A) row) (ratOps A).zero = decide (totalF (ratOps A) row = 0) := rfl
  unfold quantileRowF
  rw [heq, htot]
  simp only [decide_eq_true_eq]
  by_cases hall : ∀ x ∈ row, x.w = 0
  · rw [if_pos (hz.2 hall)]
    have heff : effective row = row.map (ratOps A).unit := by
      unfold effective
      rw [if_pos hall]
      rfl
    have hu : total (effective row) = row.length := by
      rw [heff]
      exact total_uniform row
    obtain ⟨r, e, h1, h2⟩ := run row.length (by rw [hu, sub_self, abs_zero]; exact hnd)
    rw [heff] at e
    exact ⟨r, e, h1, h2⟩
  · rw [if_neg fun h => hall (hz.1 h)]
    have heff : effective row = row := by
      unfold effective
      rw [if_neg hall]
    have hs := totalF_near A hA hd row 0 0 0 (by rw [← heff]; exact hn) le_rfl (by simp)
      (by rw [heff] at hT ht0 ⊢; linarith)
    rw [zero_add, zero_add] at hs
    obtain ⟨r, e, h1, h2⟩ := run _ (by rw [heff]; exact hs)
    rw [heff] at e
    exact ⟨r, e, h1, h2⟩

/-- With exact arithmetic nothing is lost. -/
example : Rounds (exactArith id) (2 * total (effective [⟨3, 1⟩, ⟨1, 1⟩, ⟨5, 2⟩])) 0 ∧ MeanOk (exactArith id) 's' := by
  refine ⟨⟨fun x y _ => by simp [exactArith], fun x y _ => by simp [exactArith], fun x y _ => by simp [exactArith]⟩,
    Or.inr (Or.inr fun x y h => ?_)⟩
  simp only [exactArith, id]
  constructor <;> linarith

theorem double_total_zero (mean : Rat → Rat → Rat) : ∀ (row : List Item) (s : Rat),
    (s = 0 ∨ 1 / 2 ^ 1074 ≤ s) → (∀ x ∈ row, x.w = 0 ∨ 1 / 2 ^ 1074 ≤ x.w) →
    (row.foldl (fun t x => (doubleArith mean).add t x.w) s = 0 ↔ s = 0 ∧ ∀ x ∈ row, x.w = 0)
  | [], s, _, _ => by simp
  | x :: row, s, hs, hw => by
    have h0 : (0 : Rat) < 1 / 2 ^ 1074 := by positivity
    have hx := hw x List.mem_cons_self
    have hrow := fun y hy => hw y (List.mem_cons_of_mem x hy)
    have hadd : (doubleArith mean).add s x.w = roundDouble (s + x.w) := rfl
    have hstep : ((doubleArith mean).add s x.w = 0 ∨ 1 / 2 ^ 1074 ≤ (doubleArith mean).add s x.w) ∧
        ((doubleArith mean).add s x.w = 0 ↔ s = 0 ∧ x.w = 0) := by
      rw [hadd]
      by_cases hz : s = 0 ∧ x.w = 0
      · rw [hz.1, hz.2]
        simp [roundDouble]
      · have hge : 1 / 2 ^ 1074 ≤ s + x.w := by
          rcases hs with h1 | h1 <;> rcases hx with h2 | h2
          · exact absurd ⟨h1, h2⟩ hz
          · rw [h1, zero_add]; exact h2
          · rw [h2, add_zero]; exact h1
          · linarith
        have := roundDouble_pos _ hge
        exact ⟨Or.inr this, fun h => absurd h (ne_of_gt (lt_of_lt_of_le h0 this)), fun h => absurd h hz⟩
    rw [List.foldl_cons, double_total_zero mean row _ hstep.1 hrow, hstep.2]
    simp only [List.mem_cons, forall_eq_or_imp, and_assoc]

/-- **C19** for weights that are doubles (0, or not less than the smallest double) and sums that do not overflow: the
methods `lower` and `higher` give the quantile up to `(n + 1)^2 * 2^-52` of the total weight (and the part of the
smallest doubles). -/
theorem C19_double_partial (mean : Rat → Rat → Rat) (m : Char) (hm : m = 'l' ∨ m = 'h') (q : Rat) (hq0 : 0 ≤ q)
    (hq1 : q ≤ 1) (row : List Item) (hlen : 2 ≤ row.length) (hw : ∀ x ∈ row, x.w = 0 ∨ 1 / 2 ^ 1074 ≤ x.w) :
    ∃ r, quantileRowF (ratOps (doubleArith mean)) m q row = some r ∧
      below (effective row) r ≤ q * total (effective row) +
        (row.length + 1) ^ 2 * (total (effective row) / 2 ^ 52 + 1 / 2 ^ 1075) ∧
      q * total (effective row) - (row.length + 1) ^ 2 * (total (effective row) / 2 ^ 52 + 1 / 2 ^ 1075) ≤
        atOrBelow (effective row) r := by
  have h0 : (0 : Rat) < 1 / 2 ^ 1074 := by positivity
  have hnn : ∀ x ∈ row, 0 ≤ x.w := fun x hx => by
    rcases hw x hx with h | h
    · exact le_of_eq h.symm
    · linarith
  have hn : NonNeg (effective row) := by
    intro x hx
    unfold effective at hx
    split at hx
    · obtain ⟨y, _, rfl⟩ := List.mem_map.1 hx
      simp
    · exact hnn x hx
  have ht := total_nonneg _ hn
  have hd : 0 ≤ total (effective row) / 2 ^ 52 + 1 / 2 ^ 1075 := by
    have h1 : 0 ≤ total (effective row) / 2 ^ 52 := div_nonneg ht (by positivity)
    have h2 : (0 : Rat) ≤ 1 / 2 ^ 1075 := by positivity
    linarith
  have hA := double_rounds mean (2 * total (effective row))
  have he : 2 * total (effective row) / 2 ^ 53 + 1 / 2 ^ 1075 = total (effective row) / 2 ^ 52 + 1 / 2 ^ 1075 := by
    ring
  rw [he] at hA
  refine C19_rounding_partial (doubleArith mean) m (hm.elim Or.inl fun h => Or.inr (Or.inl h)) q hq0 hq1 row hlen hnn
    _ hd hA ?_
  rw [double_total_zero mean row 0 (Or.inl rfl) hw]
  simp

/-- `0.1` as a double. -/
def w01 : Rat := 3602879701896397 / 2 ^ 55

example : ∀ x ∈ ([⟨1, w01⟩, ⟨2, 0⟩, ⟨3, w01⟩] : List Item), x.w = 0 ∨ 1 / 2 ^ 1074 ≤ x.w := by
  have h : (1 : Rat) / 2 ^ 1074 ≤ w01 := by
    have h1 : (2 : Rat) ^ 4 ≤ 2 ^ 1074 := pow_le_pow_right₀ (by norm_num) (by norm_num)
    have h2 : (1 : Rat) / 2 ^ 1074 ≤ 1 / 2 ^ 4 := one_div_le_one_div_of_le (by positivity) h1
    have h3 : (1 : Rat) / 2 ^ 4 ≤ w01 := by unfold w01; norm_num
    exact le_trans h2 h3
  intro x hx
  simp only [List.mem_cons, List.not_mem_nil, or_false] at hx
  rcases hx with rfl | rfl | rfl
  · exact Or.inr h
  · exact Or.inl rfl
  · exact Or.inr h

/-- `(x + y) / 2` in doubles. -/
def doubleMean (x y : Rat) : Rat := roundDouble (roundDouble (x + y) / 2)

/-- **C19 is violated** by rounding: the median of 1, 2, 3, 4, 5, 6 with all weights 0.1 is 3.5, and the function
returns 3, since half of the rounded sum of six is not the rounded sum of three. -/
theorem C19_tie_violated :
    quantileRowF (ratOps (doubleArith doubleMean)) 's' (1 / 2)
      [⟨1, w01⟩, ⟨2, w01⟩, ⟨3, w01⟩, ⟨4, w01⟩, ⟨5, w01⟩, ⟨6, w01⟩] = some 3 ∧
    QuantileSpec [⟨1, w01⟩, ⟨2, w01⟩, ⟨3, w01⟩, ⟨4, w01⟩, ⟨5, w01⟩, ⟨6, w01⟩]
      (1 / 2 * total [⟨1, w01⟩, ⟨2, w01⟩, ⟨3, w01⟩, ⟨4, w01⟩, ⟨5, w01⟩, ⟨6, w01⟩]) 's' (7 / 2) := by
  refine ⟨by decide +kernel, Or.inr ⟨⟨3, w01⟩, by simp, ⟨4, w01⟩, by simp, ?_, ?_, by norm_num, by decide +kernel,
    by decide +kernel, by decide +kernel⟩⟩ <;> decide +kernel

/-- **C19 is violated** for a row of one element also below `q = 1`: three quarters of the smallest double is
rounded to that double, and the function looks for an element after the last. -/
theorem C19_single_small_violated :
    quantileRowF (ratOps (doubleArith doubleMean)) 's' (3 / 4) [⟨5, 1 / 2 ^ 1074⟩] = none ∧
    quantileRowF (ratOps (doubleArith doubleMean)) 's' (3 / 4) [⟨5, 1 / 2 ^ 1000⟩] = some 5 := by
  constructor <;> decide +kernel

end Verif.Quick
