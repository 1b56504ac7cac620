import Verif.Invert.Lemmas

/-! # C47: `invert_no_zero` of one element -/
namespace Verif.Invert

set_option exponentiation.threshold 3000

/-- `r` is a number of the format and none is nearer to `q`. -/
def Nearest (f : Fmt) (q r : ℚ) : Prop := f.Is r ∧ ∀ d, f.Is d → |r - q| ≤ |d - q|

/-! ## Thresholds -/

theorem dbl_max_eq : dbl.max = (2 ^ 53 - 1) * 2 ^ (971 : ℤ) := rfl

theorem flt_max_eq : flt.max = (2 ^ 24 - 1) * 2 ^ (104 : ℤ) := rfl

/-- The threshold for doubles is rounded down to a power of two. -/
theorem thresh_dbl : thresh dbl = 2 ^ (-1024 : ℤ) := by
  have hrep : dbl.Rep (2 ^ (-1024 : ℤ)) := ⟨1, -1024, by simp, by norm_num [dbl], by norm_num [dbl]⟩
  have hn := dbl.round_nearest (1 / dbl.max) _ hrep
  obtain ⟨k, hk⟩ := (dbl.round_rep (by norm_num [dbl]) (1 / dbl.max)).multiple
  have hb : |(2 : ℚ) ^ (-1024 : ℤ) - 1 / dbl.max| < 2 ^ (-1076 : ℤ) := by
    rw [dbl_max_eq, abs_lt]
    constructor <;> norm_num
  have h1 := lt_of_le_of_lt hn hb
  rw [hk] at h1
  have hemin : dbl.emin = -1074 := rfl
  rw [hemin] at h1 hk
  have hK : (2 : ℚ) ^ (-1024 : ℤ) = ((2 ^ 50 : ℤ) : ℚ) * 2 ^ (-1074 : ℤ) := by norm_num
  have h2 : |((k - 2 ^ 50 : ℤ) : ℚ)| * 2 ^ (-1074 : ℤ) < 1 * 2 ^ (-1074 : ℤ) := by
    have : |((k - 2 ^ 50 : ℤ) : ℚ)| * 2 ^ (-1074 : ℤ) = |(k : ℚ) * 2 ^ (-1074 : ℤ) - 2 ^ (-1024 : ℤ)| := by
      have hm : |((k - 2 ^ 50 : ℤ) : ℚ)| * 2 ^ (-1074 : ℤ) = |((k - 2 ^ 50 : ℤ) : ℚ) * 2 ^ (-1074 : ℤ)| := by
        rw [abs_mul, abs_of_pos (pow2_pos (-1074))]
      rw [hm, hK]
      push_cast
      congr 1
      ring
    rw [this]
    have e : (k : ℚ) * 2 ^ (-1074 : ℤ) - 2 ^ (-1024 : ℤ) =
        ((k : ℚ) * 2 ^ (-1074 : ℤ) - 1 / dbl.max) - (2 ^ (-1024 : ℤ) - 1 / dbl.max) := by ring
    rw [e]
    refine lt_of_le_of_lt (abs_sub _ _) ?_
    have h76 : (2 : ℚ) ^ (-1076 : ℤ) + 2 ^ (-1076 : ℤ) < 1 * 2 ^ (-1074 : ℤ) := by norm_num
    linarith
  have h3 : |((k - 2 ^ 50 : ℤ) : ℚ)| < 1 := lt_of_mul_lt_mul_right h2 (pow2_pos _).le
  have h4 : |k - 2 ^ 50| < 1 := by exact_mod_cast h3
  have h5 : k = 2 ^ 50 := by have := Int.abs_lt_one_iff.1 h4; omega
  unfold thresh
  rw [hk, h5, hK]

/-- The threshold for floats is between two neighbouring floats. -/
theorem thresh_flt : (2 : ℚ) ^ (-128 : ℤ) < thresh flt ∧ thresh flt < 2 ^ (-128 : ℤ) + 2 ^ (-149 : ℤ) := by
  have hrep : dbl.Rep ((2 ^ 24 + 1) * 2 ^ (-152 : ℤ)) :=
    ⟨2 ^ 24 + 1, -152, by norm_num, by norm_num [dbl], by norm_num [dbl]⟩
  have hn := dbl.round_nearest (1 / flt.max) _ hrep
  have hb : |((2 : ℚ) ^ 24 + 1) * 2 ^ (-152 : ℤ) - 1 / flt.max| < 2 ^ (-170 : ℤ) := by
    rw [flt_max_eq, abs_lt]
    constructor <;> norm_num
  have h1 := lt_of_le_of_lt hn hb
  have hT : dbl.round (1 / flt.max) = thresh flt := rfl
  rw [hT, abs_lt] at h1
  obtain ⟨h1, h1'⟩ := h1
  have hq1 : (2 : ℚ) ^ (-128 : ℤ) + 2 ^ (-170 : ℤ) < 1 / flt.max := by rw [flt_max_eq]; norm_num
  have hq2 : 1 / flt.max + 2 ^ (-170 : ℤ) < (2 : ℚ) ^ (-128 : ℤ) + 2 ^ (-149 : ℤ) := by
    rw [flt_max_eq]; norm_num
  generalize (2 : ℚ) ^ (-170 : ℤ) = e, (2 : ℚ) ^ (-128 : ℤ) = u, (2 : ℚ) ^ (-149 : ℤ) = w, 1 / flt.max = q at *
  constructor <;> linarith

/-- The next number after a power of two, near the smallest ones. -/
theorem next_rep {f : Fmt} {x : ℚ} (h : f.Rep x) (n : Nat) (hx : (2 : ℚ) ^ (f.emin + n) < |x|) :
    (2 : ℚ) ^ (f.emin + n) + 2 ^ f.emin ≤ |x| := by
  obtain ⟨k, hk⟩ := h.abs.multiple
  have hu := pow2_pos f.emin
  have he : (2 : ℚ) ^ (f.emin + n) = ((2 ^ n : ℤ) : ℚ) * 2 ^ f.emin := by
    rw [zpow_add₀ (by norm_num), zpow_natCast]
    push_cast
    ring
  rw [hk, he] at hx ⊢
  have h1 : ((2 ^ n : ℤ) : ℚ) < k := lt_of_mul_lt_mul_right hx hu.le
  have h2 : (2 ^ n : ℤ) + 1 ≤ k := by exact_mod_cast h1
  have h3 : ((2 ^ n : ℤ) : ℚ) + 1 ≤ k := by exact_mod_cast h2
  nlinarith

theorem fin_nearest (f : Fmt) (hp : 1 ≤ f.p) (he : f.emin ≤ f.emax) (q : ℚ) (hq : |q| ≤ f.max) :
    ∃ r, f.toFmt q = .fin r ∧ Nearest f q r := by
  have h := f.round_le_max he q hq
  exact ⟨f.round q, by rw [Fmt.toFmt, if_pos h], ⟨f.round_rep hp q, h⟩, fun d hd => f.round_nearest q d hd.1⟩

/-- Rounding a number of the format changes nothing. -/
theorem round_self (f : Fmt) (x : ℚ) (h : f.Rep x) : f.round x = x := by
  have := f.round_nearest x x h
  rw [sub_self, abs_zero] at this
  have := abs_eq_zero.1 (le_antisymm this (abs_nonneg _))
  linarith

theorem toFmt_self (f : Fmt) (x : ℚ) (h : f.Is x) : f.toFmt x = .fin x := by
  rw [Fmt.toFmt, round_self f x h.1, if_pos h.2]

/-- A double in range is cast to a double by doing nothing. -/
theorem cast_dbl (q : ℚ) : dbl.cast (dbl.toFmt q) = dbl.toFmt q := by
  unfold Fmt.toFmt
  split
  · rename_i h
    exact toFmt_self dbl _ ⟨dbl.round_rep (by norm_num [dbl]) q, h⟩
  · rfl

/-- A number in the range of floats, rounded to a double and then to a float. -/
theorem cast_flt (q : ℚ) (hq : |q| ≤ flt.max) :
    ∃ y r, flt.cast (dbl.toFmt q) = .fin r ∧ Nearest dbl q y ∧ Nearest flt y r := by
  have hmpos : 0 < flt.max := by rw [flt_max_eq]; norm_num
  have hFD : flt.max ≤ dbl.max := by rw [flt_max_eq, dbl_max_eq]; norm_num
  obtain ⟨y, hy, hyn⟩ := fin_nearest dbl (by norm_num [dbl]) (by norm_num [dbl]) q (hq.trans hFD)
  rw [hy]
  -- the rounded quotient stays in range because the largest float is a double
  have hrepM : dbl.Is flt.max ∧ dbl.Is (-flt.max) := by
    refine ⟨⟨⟨2 ^ 24 - 1, 104, by rw [flt_max_eq]; norm_num, by norm_num [dbl], by norm_num [dbl]⟩, ?_⟩,
      ⟨⟨-(2 ^ 24 - 1), 104, by rw [flt_max_eq]; norm_num, by norm_num [dbl], by norm_num [dbl]⟩, ?_⟩⟩
    · rw [abs_of_pos hmpos]; exact hFD
    · rw [abs_neg, abs_of_pos hmpos]; exact hFD
  have h1 := hyn.2 _ hrepM.1
  have h2 := hyn.2 _ hrepM.2
  have hi := abs_le.1 hq
  rw [abs_of_nonneg (by linarith : 0 ≤ flt.max - q)] at h1
  rw [abs_of_nonpos (by linarith : -flt.max - q ≤ 0)] at h2
  have hyle : |y| ≤ flt.max := by
    rw [abs_le] at h1 h2 ⊢
    constructor <;> linarith
  obtain ⟨r, hr, hrn⟩ := fin_nearest flt (by norm_num [flt]) (by norm_num [flt]) y hyle
  exact ⟨y, r, hr, hyn, hrn⟩

/-! ## Real numbers -/

theorem inv_abs_le (x B : ℚ) (hB : 0 < B) (hx : 1 / B ≤ |x|) : |1 / x| ≤ B := by
  have h1 : 0 < 1 / B := by positivity
  rw [abs_div, abs_one]
  rw [div_le_iff₀ (by linarith)]
  rw [div_le_iff₀ hB] at hx
  linarith

/-- C47 for doubles, except the two numbers `±2^-1024`. Numbers smaller than `2^-1024` in magnitude give
zero; all others give a finite number, the double nearest to `1 / x`. -/
theorem C47_double_partial (x : ℚ) (hx : dbl.Is x) :
    (|x| < 2 ^ (-1024 : ℤ) → invReal dbl x = .fin 0) ∧
    (2 ^ (-1024 : ℤ) < |x| → ∃ r, invReal dbl x = .fin r ∧ Nearest dbl (1 / x) r) := by
  constructor
  · intro h
    rw [invReal, thresh_dbl, if_pos h]
  · intro h
    rw [invReal, thresh_dbl, if_neg (not_lt.2 h.le), cast_dbl]
    apply fin_nearest dbl (by norm_num [dbl]) (by norm_num [dbl])
    have hn := next_rep hx.1 50 (by
      have : dbl.emin + ((50 : ℕ) : ℤ) = -1024 := by norm_num [dbl]
      rw [this]; exact h)
    have hM : 1 / dbl.max ≤ (2 : ℚ) ^ (dbl.emin + ((50 : ℕ) : ℤ)) + 2 ^ dbl.emin := by
      have : dbl.emin + ((50 : ℕ) : ℤ) = -1024 := by norm_num [dbl]
      rw [this]
      have : dbl.emin = -1074 := rfl
      rw [this, dbl_max_eq]
      norm_num
    apply inv_abs_le x dbl.max _ (hM.trans hn)
    rw [dbl_max_eq]; norm_num

/-- C47 fails for the doubles `±2^-1024`: the result is infinite. -/
theorem C47_double_violated (x : ℚ) (hx : |x| = 2 ^ (-1024 : ℤ)) : dbl.Is x ∧ invReal dbl x = .inf := by
  have hcases : x = 2 ^ (-1024 : ℤ) ∨ x = -2 ^ (-1024 : ℤ) := (abs_eq (pow2_pos _).le).1 hx
  refine ⟨⟨?_, ?_⟩, ?_⟩
  · rcases hcases with h | h
    · exact ⟨1, -1024, by rw [h]; simp, by norm_num [dbl], by norm_num [dbl]⟩
    · exact ⟨-1, -1024, by rw [h]; simp, by norm_num [dbl], by norm_num [dbl]⟩
  · rw [hx, dbl_max_eq]; norm_num
  · rw [invReal, thresh_dbl, if_neg (by rw [hx]; exact lt_irrefl _), cast_dbl]
    have habs : |1 / x| = 2 ^ (1024 : ℤ) := by rw [abs_div, hx]; norm_num
    have hrep : dbl.Rep (1 / x) := by
      rcases hcases with h | h
      · exact ⟨1, 1024, by rw [h]; norm_num, by norm_num [dbl], by norm_num [dbl]⟩
      · exact ⟨-1, 1024, by rw [h]; norm_num, by norm_num [dbl], by norm_num [dbl]⟩
    rw [Fmt.toFmt, round_self _ _ hrep, habs, if_neg]
    rw [dbl_max_eq]; norm_num

/-- C47 for floats: numbers up to `2^-128` in magnitude give zero; all others give a finite number, the float
nearest to the double nearest to `1 / x`. -/
theorem C47_float (x : ℚ) (hx : flt.Is x) :
    (|x| ≤ 2 ^ (-128 : ℤ) → invReal flt x = .fin 0) ∧
    (2 ^ (-128 : ℤ) < |x| → ∃ y r, invReal flt x = .fin r ∧ Nearest dbl (1 / x) y ∧ Nearest flt y r) := by
  obtain ⟨t1, t2⟩ := thresh_flt
  constructor
  · intro h
    rw [invReal, if_pos (by linarith)]
  · intro h
    have hn := next_rep hx.1 21 (by
      have : flt.emin + ((21 : ℕ) : ℤ) = -128 := by norm_num [flt]
      rw [this]; exact h)
    have e1 : flt.emin + ((21 : ℕ) : ℤ) = -128 := by norm_num [flt]
    have e2 : flt.emin = -149 := rfl
    rw [e1, e2] at hn
    rw [invReal, if_neg (by linarith)]
    have hM : 1 / flt.max ≤ (2 : ℚ) ^ (-128 : ℤ) + 2 ^ (-149 : ℤ) := by rw [flt_max_eq]; norm_num
    have hmpos : 0 < flt.max := by rw [flt_max_eq]; norm_num
    have hinv := inv_abs_le x flt.max hmpos (hM.trans hn)
    exact cast_flt _ hinv

/-! ## Complex numbers -/

theorem complex_bound (a b B : ℚ) (hB : 0 < B) (h : 1 / B ≤ |a| ∨ 1 / B ≤ |b|) :
    |a / (a ^ 2 + b ^ 2)| ≤ B ∧ |(-b) / (a ^ 2 + b ^ 2)| ≤ B := by
  have hB1 : 0 < 1 / B := by positivity
  have ha2 : |a| * |a| = a ^ 2 := by rw [← abs_mul, abs_of_nonneg (mul_self_nonneg a)]; ring
  have hb2 : |b| * |b| = b ^ 2 := by rw [← abs_mul, abs_of_nonneg (mul_self_nonneg b)]; ring
  have hN : 0 < a ^ 2 + b ^ 2 := by
    rcases h with h | h
    · have : 0 < |a| := by linarith
      nlinarith [sq_nonneg b]
    · have : 0 < |b| := by linarith
      nlinarith [sq_nonneg a]
  have hBa : ∀ z : ℚ, 1 / B ≤ z → 1 ≤ B * z := by
    intro z hz
    rw [div_le_iff₀ hB] at hz
    linarith
  have hna := abs_nonneg a
  have hnb := abs_nonneg b
  have two : 2 * (|a| * |b|) ≤ a ^ 2 + b ^ 2 := by nlinarith [sq_nonneg (|a| - |b|)]
  constructor
  · rw [abs_div, abs_of_pos hN, div_le_iff₀ hN]
    rcases h with h | h
    · have := hBa _ h
      nlinarith [sq_nonneg b, mul_nonneg hB.le (sq_nonneg b)]
    · have := hBa _ h
      nlinarith [mul_le_mul_of_nonneg_left two hB.le, mul_nonneg hB.le (mul_nonneg hna hnb)]
  · rw [abs_div, abs_neg, abs_of_pos hN, div_le_iff₀ hN]
    rcases h with h | h
    · have := hBa _ h
      nlinarith [mul_le_mul_of_nonneg_left two hB.le, mul_nonneg hB.le (mul_nonneg hna hnb)]
    · have := hBa _ h
      nlinarith [sq_nonneg a, mul_nonneg hB.le (sq_nonneg a)]

/-- C47 for complex numbers of two doubles, unless the larger part is `2^-1024` in magnitude: zero if both parts
are smaller than that, otherwise both parts of the result are finite and are those of `1 / (a + b i)`, rounded. -/
theorem C47_complex_partial (a b : ℚ) (ha : dbl.Is a) (hb : dbl.Is b) :
    (|a| < 2 ^ (-1024 : ℤ) → |b| < 2 ^ (-1024 : ℤ) → invComplex dbl a b = (.fin 0, .fin 0)) ∧
    (2 ^ (-1024 : ℤ) < |a| ∨ 2 ^ (-1024 : ℤ) < |b| →
      ∃ re im, invComplex dbl a b = (.fin re, .fin im) ∧
        Nearest dbl (a / (a ^ 2 + b ^ 2)) re ∧ Nearest dbl (-b / (a ^ 2 + b ^ 2)) im) := by
  constructor
  · intro h1 h2
    rw [invComplex, thresh_dbl, if_pos ⟨h1, h2⟩]
  · intro h
    rw [invComplex, thresh_dbl, if_neg (by
      rintro ⟨h1, h2⟩
      rcases h with h | h
      · exact absurd h (not_lt.2 h1.le)
      · exact absurd h (not_lt.2 h2.le)), cast_dbl, cast_dbl]
    have e1 : dbl.emin + ((50 : ℕ) : ℤ) = -1024 := by norm_num [dbl]
    have hM : 1 / dbl.max ≤ (2 : ℚ) ^ (dbl.emin + ((50 : ℕ) : ℤ)) + 2 ^ dbl.emin := by
      rw [e1]
      have : dbl.emin = -1074 := rfl
      rw [this, dbl_max_eq]
      norm_num
    have hbig : 1 / dbl.max ≤ |a| ∨ 1 / dbl.max ≤ |b| := by
      rcases h with h | h
      · exact Or.inl (hM.trans (next_rep ha.1 50 (by rw [e1]; exact h)))
      · exact Or.inr (hM.trans (next_rep hb.1 50 (by rw [e1]; exact h)))
    obtain ⟨b1, b2⟩ := complex_bound a b dbl.max (by rw [dbl_max_eq]; norm_num) hbig
    obtain ⟨re, hre, hren⟩ := fin_nearest dbl (by norm_num [dbl]) (by norm_num [dbl]) _ b1
    obtain ⟨im, him, himn⟩ := fin_nearest dbl (by norm_num [dbl]) (by norm_num [dbl]) _ b2
    exact ⟨re, im, by rw [hre, him], hren, himn⟩

/-- C47 for complex numbers of two floats: zero if both parts are at most `2^-128` in magnitude, otherwise both
parts of the result are finite and are those of `1 / (a + b i)`, rounded to a double and then to a float. -/
theorem C47_complex_float (a b : ℚ) (ha : flt.Is a) (hb : flt.Is b) :
    (|a| ≤ 2 ^ (-128 : ℤ) → |b| ≤ 2 ^ (-128 : ℤ) → invComplex flt a b = (.fin 0, .fin 0)) ∧
    (2 ^ (-128 : ℤ) < |a| ∨ 2 ^ (-128 : ℤ) < |b| →
      ∃ re im x y, invComplex flt a b = (.fin re, .fin im) ∧
        Nearest dbl (a / (a ^ 2 + b ^ 2)) x ∧ Nearest flt x re ∧
        Nearest dbl (-b / (a ^ 2 + b ^ 2)) y ∧ Nearest flt y im) := by
  obtain ⟨t1, t2⟩ := thresh_flt
  constructor
  · intro h1 h2
    rw [invComplex, if_pos ⟨by linarith, by linarith⟩]
  · intro h
    have e1 : flt.emin + ((21 : ℕ) : ℤ) = -128 := by norm_num [flt]
    have e2 : flt.emin = -149 := rfl
    have hM : 1 / flt.max ≤ (2 : ℚ) ^ (-128 : ℤ) + 2 ^ (-149 : ℤ) := by rw [flt_max_eq]; norm_num
    have hbig' : (2 : ℚ) ^ (-128 : ℤ) + 2 ^ (-149 : ℤ) ≤ |a| ∨ (2 : ℚ) ^ (-128 : ℤ) + 2 ^ (-149 : ℤ) ≤ |b| := by
      rcases h with h | h
      · have := next_rep ha.1 21 (by rw [e1]; exact h)
        rw [e1, e2] at this
        exact Or.inl this
      · have := next_rep hb.1 21 (by rw [e1]; exact h)
        rw [e1, e2] at this
        exact Or.inr this
    rw [invComplex, if_neg (by
      rintro ⟨h1, h2⟩
      rcases hbig' with h | h <;> linarith)]
    have hbig : 1 / flt.max ≤ |a| ∨ 1 / flt.max ≤ |b| := hbig'.imp hM.trans hM.trans
    obtain ⟨b1, b2⟩ := complex_bound a b flt.max (by rw [flt_max_eq]; norm_num) hbig
    obtain ⟨x, re, hre, hx, hre'⟩ := cast_flt _ b1
    obtain ⟨y, im, him, hy, him'⟩ := cast_flt _ b2
    exact ⟨re, im, x, y, by rw [hre, him], hx, hre', hy, him'⟩

/-- C47 fails for the complex numbers `±2^-1024`. -/
theorem C47_complex_violated (a : ℚ) (ha : |a| = 2 ^ (-1024 : ℤ)) :
    dbl.Is a ∧ (invComplex dbl a 0).1 = .inf := by
  obtain ⟨h1, h2⟩ := C47_double_violated a ha
  refine ⟨h1, ?_⟩
  have hlt : ¬ |a| < thresh dbl := by rw [thresh_dbl, ha]; exact lt_irrefl _
  rw [invReal, if_neg hlt] at h2
  rw [invComplex, if_neg (fun h => hlt h.1)]
  have ha0 : a ≠ 0 := by
    rintro rfl
    rw [abs_zero] at ha
    exact absurd ha (pow2_pos _).ne
  have : a / (a ^ 2 + 0 ^ 2) = 1 / a := by field_simp; ring
  simp only [this]
  exact h2

/-- Numbers that meet the hypotheses. -/
example : dbl.Is 3 ∧ 2 ^ (-1024 : ℤ) < |(3 : ℚ)| :=
  ⟨⟨⟨3, 0, by norm_num, by norm_num [dbl], by norm_num [dbl]⟩, by rw [dbl_max_eq]; norm_num⟩,
    by norm_num⟩

/-- The smallest double that is inverted, and the largest that is not. -/
example : (∃ r, invReal dbl (2 ^ (-1024 : ℤ) + 2 ^ (-1074 : ℤ)) = .fin r ∧ r ≠ 0) ∧
    invReal dbl (2 ^ (-1024 : ℤ) - 2 ^ (-1074 : ℤ)) = .fin 0 := by
  have i1 : dbl.Is (2 ^ (-1024 : ℤ) + 2 ^ (-1074 : ℤ)) :=
    ⟨⟨2 ^ 50 + 1, -1074, by norm_num, by norm_num [dbl], by norm_num [dbl]⟩, by rw [dbl_max_eq]; norm_num⟩
  have i2 : dbl.Is (2 ^ (-1024 : ℤ) - 2 ^ (-1074 : ℤ)) :=
    ⟨⟨2 ^ 50 - 1, -1074, by norm_num, by norm_num [dbl], by norm_num [dbl]⟩, by rw [dbl_max_eq]; norm_num⟩
  constructor
  · obtain ⟨r, hr, hn⟩ := (C47_double_partial _ i1).2 (by norm_num)
    refine ⟨r, hr, ?_⟩
    rintro rfl
    have := hn.2 (2 ^ (1000 : ℤ)) ⟨⟨1, 1000, by norm_num, by norm_num [dbl], by norm_num [dbl]⟩,
      by rw [dbl_max_eq]; norm_num⟩
    norm_num at this
  · exact (C47_double_partial _ i2).1 (by norm_num)

end Verif.Invert
