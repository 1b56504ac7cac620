import Verif.Trunc.FloatValues

/-!
Property theorems C13: truncation of floating point numbers. `decode` gives the value of a bit
pattern. The tolerance is any non-negative rational number (every finite float is one).
-/
namespace Verif.Trunc
open Fmt

theorem f32_scale {e : Nat} (h1 : 23 ≤ e) (h2 : e ≤ 255) :
    f32.fastPow (f32.bias + f32.p - e) = .fin ((2 : ℚ) ^ (f32.bias + f32.p - e : ℤ)) := by
  have hb : (f32.bias : ℤ) = 127 := by decide
  have hp : (f32.p : ℤ) = 23 := by decide
  have heb : f32.eb = 8 := by decide
  have hiw : f32.iw = 8 := by decide
  rw [fastPow_pack f32_ok (s := 0) (e := 277 - e) (by omega) (by rw [heb]; omega),
    decode_pack f32_ok (by omega) (by rw [heb]; omega) (by positivity), if_neg (by rw [heb]; omega)]
  · congr 1
    rw [value_eq]
    unfold sgn mag
    rw [if_neg (by omega), if_neg (by omega)]
    push_cast
    rw [← two_zpow_nat, add_zero, one_mul, ← zpow_add₀ (by norm_num)]
    congr 1
    rw [hb]; omega
  · rw [hb, hp, hiw, heb, Int.bmod_eq_of_le] <;> push_cast <;> omega

theorem f64_scale {e : Nat} (h1 : 52 ≤ e) (h2 : e ≤ 2047) :
    f64.fastPow (f64.bias + f64.p - e) = .fin ((2 : ℚ) ^ (f64.bias + f64.p - e : ℤ)) := by
  have hb : (f64.bias : ℤ) = 1023 := by decide
  have hp : (f64.p : ℤ) = 52 := by decide
  have heb : f64.eb = 11 := by decide
  have hiw : f64.iw = 16 := by decide
  rw [fastPow_pack f64_ok (s := 0) (e := 2098 - e) (by omega) (by rw [heb]; omega),
    decode_pack f64_ok (by omega) (by rw [heb]; omega) (by positivity), if_neg (by rw [heb]; omega)]
  · congr 1
    rw [value_eq]
    unfold sgn mag
    rw [if_neg (by omega), if_neg (by omega)]
    push_cast
    rw [← two_zpow_nat, add_zero, one_mul, ← zpow_add₀ (by norm_num)]
    congr 1
    rw [hb]; omega
  · rw [hb, hp, hiw, heb, Int.bmod_eq_of_le] <;> push_cast <;> omega

theorem f32_scale_small {e : Nat} (h2 : e ≤ 21) :
    ∃ c, f32.fastPow (f32.bias + f32.p - e) = .fin c ∧ |c| ≤ 1 := by
  have hb : (f32.bias : ℤ) = 127 := by decide
  have hp : (f32.p : ℤ) = 23 := by decide
  have heb : f32.eb = 8 := by decide
  have hiw : f32.iw = 8 := by decide
  refine ⟨f32.value 0 (21 - e) 0, ?_, ?_⟩
  · rw [fastPow_pack f32_ok (s := 0) (e := 21 - e) (by omega) (by rw [heb]; omega),
      decode_pack f32_ok (by omega) (by rw [heb]; omega) (by positivity),
      if_neg (by rw [heb]; omega)]
    have h3 : (127 + 23 - (e : ℤ)).bmod (2 ^ 8) = 127 + 23 - (e : ℤ) - 256 := by
      unfold Int.bmod
      norm_num
      split <;> omega
    rw [hb, hp, hiw, heb, h3]
    push_cast
    omega
  · rw [abs_value]
    refine le_trans (le_of_lt (mag_lt _ (by positivity))) ?_
    apply zpow_le_one_of_nonpos₀ (by norm_num)
    rw [hb]; omega

theorem f64_scale_small {e : Nat} (h2 : e ≤ 50) :
    ∃ c, f64.fastPow (f64.bias + f64.p - e) = .fin c ∧ |c| ≤ 1 := by
  have hb : (f64.bias : ℤ) = 1023 := by decide
  have hp : (f64.p : ℤ) = 52 := by decide
  have heb : f64.eb = 11 := by decide
  have hiw : f64.iw = 16 := by decide
  refine ⟨f64.value 1 (50 - e) 0, ?_, ?_⟩
  · rw [fastPow_pack f64_ok (s := 1) (e := 50 - e) (by omega) (by rw [heb]; omega),
      decode_pack f64_ok (by omega) (by rw [heb]; omega) (by positivity),
      if_neg (by rw [heb]; omega)]
    rw [hb, hp, hiw, heb, Int.bmod_eq_of_le] <;> push_cast <;> omega
  · rw [abs_value]
    refine le_trans (le_of_lt (mag_lt _ (by positivity))) ?_
    apply zpow_le_one_of_nonpos₀ (by norm_num)
    rw [hb]; omega

/-- C13 for `float`: the result is a finite number that differs from the value by at most `err` and
does not have the opposite sign, provided `|val| + err` is below the float range (`2^128`) and
`|val|` is not in `[2^-105, 2^-104)`. The two excluded cases are the `_violated` theorems below. -/
theorem C13_float_partial (b : BitVec 32) (v err : ℚ) (hv : f32.decode b = .fin v) (herr : 0 ≤ err)
    (hover : |v| + err < 2 ^ 128)
    (hgap : ¬ ((2 : ℚ) ^ (-105 : ℤ) ≤ |v| ∧ |v| < (2 : ℚ) ^ (-104 : ℤ))) :
    ∃ r, f32.decode (f32.bitTruncateFloat b err) = .fin r ∧ |r - v| ≤ err ∧ 0 ≤ r * v := by
  have hb : f32.bias = 127 := by decide
  have heb : f32.eb = 8 := by decide
  obtain ⟨s, e, m, hs, he, hm, rfl⟩ := exists_pack f32_ok b
  rw [decode_pack f32_ok hs he hm] at hv
  have hfin : e ≠ 2 ^ f32.eb - 1 := by
    intro hc; rw [if_pos hc] at hv; split at hv <;> simp at hv
  rw [if_neg hfin] at hv
  injection hv with hv
  subst hv
  rw [abs_value] at hover hgap
  have he254 : e ≤ 254 := by rw [heb] at he hfin; omega
  rcases Nat.lt_or_ge e 22 with hlt | hge
  · obtain ⟨c, hc, hc1⟩ := f32_scale_small (e := e) (by omega)
    rcases lt_or_ge err 1 with h1 | h1
    · have h0 : (f32.intErr e err).toNat = 0 := by
        apply intErr_zero (by decide) hc
        rw [abs_mul, abs_of_nonneg herr]
        have := abs_nonneg c
        nlinarith
      refine ⟨_, by rw [kernel_zero f32_ok hs he hm h0, decode_pack f32_ok hs he hm, if_neg hfin],
        by simpa using herr, mul_self_nonneg _⟩
    · exact kernel_small f32_ok hs (by rw [hb]; omega) (by rw [heb]; omega) hm h1
  · rcases Nat.eq_or_lt_of_le hge with heq | hgt
    · exfalso
      subst heq
      apply hgap
      constructor
      · have := le_mag (F := f32) (e := 22) (by decide) m
        rw [hb] at this; exact this
      · have := mag_lt (F := f32) 22 hm
        rw [hb] at this; exact this
    · obtain ⟨r, h1, h2, _⟩ := kernel_normal (e := e) f32_ok (by decide) hs (by omega)
        (by rw [heb]; omega) hm herr (f32_scale (by omega) (by omega)) (by
          rw [heb, hb]; norm_num; norm_num at hover; exact hover)
      exact ⟨r, h1, h2⟩

example : f32.decode 0x40490FDB#32 = .fin (13176795 / 2 ^ 22) ∧
    (f32.bitTruncateFloat 0x40490FDB#32 (1 / 100)).toNat = 0x40490000 := by
  decide +kernel

/-- C13 for `double`, for `|val| + err < 2^1024` and `|val|` outside `[2^-972, 2^-971)`. -/
theorem C13_double_partial (b : BitVec 64) (v err : ℚ) (hv : f64.decode b = .fin v) (herr : 0 ≤ err)
    (hover : |v| + err < 2 ^ 1024)
    (hgap : ¬ ((2 : ℚ) ^ (-972 : ℤ) ≤ |v| ∧ |v| < (2 : ℚ) ^ (-971 : ℤ))) :
    ∃ r, f64.decode (f64.bitTruncateFloat b err) = .fin r ∧ |r - v| ≤ err ∧ 0 ≤ r * v := by
  have hb : f64.bias = 1023 := by decide
  have heb : f64.eb = 11 := by decide
  obtain ⟨s, e, m, hs, he, hm, rfl⟩ := exists_pack f64_ok b
  rw [decode_pack f64_ok hs he hm] at hv
  have hfin : e ≠ 2 ^ f64.eb - 1 := by
    intro hc; rw [if_pos hc] at hv; split at hv <;> simp at hv
  rw [if_neg hfin] at hv
  injection hv with hv
  subst hv
  rw [abs_value] at hover hgap
  have he254 : e ≤ 2046 := by rw [heb] at he hfin; omega
  rcases Nat.lt_or_ge e 51 with hlt | hge
  · obtain ⟨c, hc, hc1⟩ := f64_scale_small (e := e) (by omega)
    rcases lt_or_ge err 1 with h1 | h1
    · have h0 : (f64.intErr e err).toNat = 0 := by
        apply intErr_zero (by decide) hc
        rw [abs_mul, abs_of_nonneg herr]
        have := abs_nonneg c
        nlinarith
      refine ⟨_, by rw [kernel_zero f64_ok hs he hm h0, decode_pack f64_ok hs he hm, if_neg hfin],
        by simpa using herr, mul_self_nonneg _⟩
    · exact kernel_small f64_ok hs (by rw [hb]; omega) (by rw [heb]; omega) hm h1
  · rcases Nat.eq_or_lt_of_le hge with heq | hgt
    · exfalso
      subst heq
      apply hgap
      constructor
      · have := le_mag (F := f64) (e := 51) (by decide) m
        rw [hb] at this; exact this
      · have := mag_lt (F := f64) 51 hm
        rw [hb] at this; exact this
    · obtain ⟨r, h1, h2, _⟩ := kernel_normal (e := e) f64_ok (by decide) hs (by omega)
        (by rw [heb]; omega) hm herr (f64_scale (by omega) (by omega)) (by
          rw [heb, hb]
          rw [show ((2 : ℤ) ^ 11 - 1 - (1023 : ℕ)) = ((1024 : ℕ) : ℤ) by norm_num, zpow_natCast]
          exact hover)
      exact ⟨r, h1, h2⟩

example : (f64.bitTruncateFloat 0xBFF123456789ABCD#64 (1 / 1000)).toNat = 0xBFF1200000000000 := by
  decide +kernel

/-- C13: the result really is truncated: for a value of magnitude at least `2^-104`, every power of
two that does not exceed `err`, doubled, divides the result (the result is a multiple of the smallest
power of two above `err`). -/
theorem C13_float_truncates (b : BitVec 32) (v err : ℚ) (hv : f32.decode b = .fin v)
    (herr : 0 ≤ err) (hover : |v| + err < 2 ^ 128) (hbig : (2 : ℚ) ^ (-104 : ℤ) ≤ |v|) :
    ∃ r, f32.decode (f32.bitTruncateFloat b err) = .fin r ∧
      ∀ j : ℤ, (2 : ℚ) ^ j ≤ err → ∃ n : ℤ, r = n * (2 : ℚ) ^ (j + 1) := by
  have hb : f32.bias = 127 := by decide
  have heb : f32.eb = 8 := by decide
  obtain ⟨s, e, m, hs, he, hm, rfl⟩ := exists_pack f32_ok b
  rw [decode_pack f32_ok hs he hm] at hv
  have hfin : e ≠ 2 ^ f32.eb - 1 := by
    intro hc; rw [if_pos hc] at hv; split at hv <;> simp at hv
  rw [if_neg hfin] at hv
  injection hv with hv
  subst hv
  rw [abs_value] at hover hbig
  have he254 : e ≤ 254 := by rw [heb] at he hfin; omega
  have h23 : 23 ≤ e := by
    by_contra hc
    have h1 := mag_lt (F := f32) e hm
    have h2 : (2 : ℚ) ^ (e + 1 - f32.bias : ℤ) ≤ (2 : ℚ) ^ (-104 : ℤ) := by
      apply zpow_le_zpow_right₀ (by norm_num); rw [hb]; omega
    linarith
  obtain ⟨r, h1, _, h2⟩ := kernel_normal (e := e) f32_ok (by decide) hs (by omega)
    (by rw [heb]; omega) hm herr (f32_scale (by omega) (by omega)) (by
      rw [heb, hb]; norm_num; norm_num at hover; exact hover)
  exact ⟨r, h1, h2⟩

example : (f32.bitTruncateFloat 0x40490FDB#32 4).toNat = 0 := by decide +kernel

/-- C13 for `double`: the result is a multiple of the smallest power of two above `err`. -/
theorem C13_double_truncates (b : BitVec 64) (v err : ℚ) (hv : f64.decode b = .fin v)
    (herr : 0 ≤ err) (hover : |v| + err < 2 ^ 1024) (hbig : (2 : ℚ) ^ (-971 : ℤ) ≤ |v|) :
    ∃ r, f64.decode (f64.bitTruncateFloat b err) = .fin r ∧
      ∀ j : ℤ, (2 : ℚ) ^ j ≤ err → ∃ n : ℤ, r = n * (2 : ℚ) ^ (j + 1) := by
  have hb : f64.bias = 1023 := by decide
  have heb : f64.eb = 11 := by decide
  obtain ⟨s, e, m, hs, he, hm, rfl⟩ := exists_pack f64_ok b
  rw [decode_pack f64_ok hs he hm] at hv
  have hfin : e ≠ 2 ^ f64.eb - 1 := by
    intro hc; rw [if_pos hc] at hv; split at hv <;> simp at hv
  rw [if_neg hfin] at hv
  injection hv with hv
  subst hv
  rw [abs_value] at hover hbig
  have he254 : e ≤ 2046 := by rw [heb] at he hfin; omega
  have h23 : 52 ≤ e := by
    by_contra hc
    have h1 := mag_lt (F := f64) e hm
    have h2 : (2 : ℚ) ^ (e + 1 - f64.bias : ℤ) ≤ (2 : ℚ) ^ (-971 : ℤ) := by
      apply zpow_le_zpow_right₀ (by norm_num); rw [hb]; omega
    linarith
  obtain ⟨r, h1, _, h2⟩ := kernel_normal (e := e) f64_ok (by decide) hs (by omega)
    (by rw [heb]; omega) hm herr (f64_scale (by omega) (by omega)) (by
      rw [heb, hb]
      rw [show ((2 : ℤ) ^ 11 - 1 - (1023 : ℕ)) = ((1024 : ℕ) : ℤ) by norm_num, zpow_natCast]
      exact hover)
  exact ⟨r, h1, h2⟩

/-- C13 violated: a float of magnitude in `[2^-105, 2^-104)` is replaced by zero even with tolerance
zero, because the scale factor `2^128` wraps in the 8 bit argument of `fast_pow` and becomes minus
infinity. -/
theorem C13_float_gap_violated :
    f32.decode 0x0B000000#32 = .fin (1 / 2 ^ 105) ∧
    f32.decode (f32.bitTruncateFloat 0x0B000000#32 0) = .fin 0 := by
  decide +kernel

/-- C13 violated for every float with exponent field 22 and every tolerance: the result is a zero. -/
theorem C13_float_gap_all_violated (b : BitVec 32) (v err : ℚ) (hv : f32.decode b = .fin v)
    (hgap : (2 : ℚ) ^ (-105 : ℤ) ≤ |v| ∧ |v| < (2 : ℚ) ^ (-104 : ℤ)) :
    f32.decode (f32.bitTruncateFloat b err) = .fin 0 := by
  have hb : f32.bias = 127 := by decide
  have heb : f32.eb = 8 := by decide
  obtain ⟨s, e, m, hs, he, hm, rfl⟩ := exists_pack f32_ok b
  rw [decode_pack f32_ok hs he hm] at hv
  have hfin : e ≠ 2 ^ f32.eb - 1 := by
    intro hc; rw [if_pos hc] at hv; split at hv <;> simp at hv
  rw [if_neg hfin] at hv
  injection hv with hv
  subst hv
  rw [abs_value] at hgap
  have h22 : e = 22 := by
    have h1 := mag_lt (F := f32) e hm
    have h2 : (2 : ℚ) ^ (-105 : ℤ) < (2 : ℚ) ^ (e + 1 - f32.bias : ℤ) := lt_of_le_of_lt hgap.1 h1
    have h3 := (zpow_lt_zpow_iff_right₀ (by norm_num)).1 h2
    rw [hb] at h3
    have h4 := le_mag (F := f32) (e := e) (by omega) m
    have h5 : (2 : ℚ) ^ (e - f32.bias : ℤ) < (2 : ℚ) ^ (-104 : ℤ) := lt_of_le_of_lt h4 hgap.2
    have h6 := (zpow_lt_zpow_iff_right₀ (by norm_num)).1 h5
    rw [hb] at h6
    omega
  subst h22
  have hinf : ∀ x : Bool, f32.toInt (.inf x) = BitVec.intMin 32 := fun _ => rfl
  have hE : (f32.intErr 22 err).toNat = 2 ^ 30 - 1 := by
    have hfp : f32.fastPow (f32.bias + f32.p - (22 : Nat)) = .inf true := by decide +kernel
    have hti : f32.toInt (mul err (f32.fastPow (f32.bias + f32.p - (22 : Nat)))) =
        BitVec.intMin 32 := by
      rw [hfp]; unfold mul; simp only; split <;> rfl
    unfold intErr
    simp only [hti]
    decide +kernel
  obtain ⟨k, hk, hkw, hc⟩ := kernel_cases f32_ok hs he hm err
  have hw : f32.w = 32 := by decide
  have hk30 : k = 30 := by
    have h1 := hk.1
    rw [hE] at h1
    have h5 : 29 < k := by
      by_contra hcc
      have : 2 ^ k ≤ 2 ^ 29 := Nat.pow_le_pow_right (by decide) (by omega)
      omega
    rw [hw] at hkw
    omega
  subst hk30
  have hp : f32.p = 23 := by decide
  rw [hp] at hc hm
  have hm' : (m : Int) < 2 ^ 23 := by exact_mod_cast hm
  have hR : roundInt (2 ^ 30) (2 ^ 23 + (m : Int)) = 0 := by
    unfold roundInt
    rw [Int.emod_eq_of_lt (by omega) (by omega), if_pos (Or.inl (by omega)),
      Int.ediv_eq_zero_of_lt (by omega) (by omega), mul_zero]
  rw [hR] at hc
  rcases hc with ⟨_, h2⟩ | ⟨m', _, h1, _⟩ | ⟨h1, _⟩
  · rw [h2, decode_pack f32_ok hs (by positivity) (by positivity), if_neg (by decide)]
    simp [value_eq, mag]
  · omega
  · omega

/-- C13 violated: a double of magnitude in `[2^-972, 2^-971)` is replaced by zero. -/
theorem C13_double_gap_violated :
    f64.decode 0x0330000000000000#64 = .fin (1 / 2 ^ 972) ∧
    f64.decode (f64.bitTruncateFloat 0x0330000000000000#64 0) = .fin 0 := by
  decide +kernel

/-- C13 violated: the largest float is turned into infinity by a tolerance of one unit in the last
place, and the largest double likewise. -/
theorem C13_overflow_violated :
    f32.decode 0x7F7FFFFF#32 = .fin (2 ^ 128 - 2 ^ 104) ∧
    f32.decode (f32.bitTruncateFloat 0x7F7FFFFF#32 (2 ^ 104)) = .inf false ∧
    f64.decode (f64.bitTruncateFloat 0x7FEFFFFFFFFFFFFF#64 (2 ^ 971)) = .inf false := by
  decide +kernel

theorem intErrV_inf (b : Bool) {e : Nat} (F : Fmt) (hw : 2 ≤ F.w) : (F.intErrV e (.inf b)).toNat = 2 ^ (F.w - 2) - 1 := by
  have hti : F.toInt (mulV (.inf b) (F.fastPow (F.bias + F.p - e))) = BitVec.intMin F.w := by
    cases hf : F.fastPow (F.bias + F.p - e) with
    | fin r => simp only [mulV]; split <;> rfl
    | inf s => rfl
    | nan => rfl
  have hmin : ¬ (BitVec.intMin F.w &&& BitVec.ofNat F.w (3 * 2 ^ (F.w - 2)) = 0) := by
    intro hc
    have := (high_bits hw _).1 hc
    rw [BitVec.toNat_intMin, Nat.mod_eq_of_lt (Nat.pow_lt_pow_right (by decide) (by omega))] at this
    have h2 : 2 ^ (F.w - 2) ≤ 2 ^ (F.w - 1) := Nat.pow_le_pow_right (by decide) (by omega)
    omega
  unfold intErrV
  simp only [hti]
  rw [if_pos hmin, BitVec.toNat_ofNat, Nat.mod_eq_of_lt]
  have h3 : 2 ^ (F.w - 2) ≤ 2 ^ F.w := Nat.pow_le_pow_right (by decide) (by omega)
  have h4 : 0 < 2 ^ (F.w - 2) := by positivity
  omega

/-- With the largest tolerance the mantissa is rounded to nothing. -/
theorem trunc_inf {F : Fmt} {t : Nat} (h : F.OK t) {s e m : Nat} (hs : s ≤ 1) (he : e < 2 ^ F.eb) (hm : m < 2 ^ F.p) (heb : 3 ≤ F.eb) (ng : Bool) :
    F.bitTruncateV (F.pack s e m) (.inf ng) = F.pack s 0 0 := by
  have hw := h.hw
  have hw2 : 2 ≤ F.w := by omega
  have hE := intErrV_inf ng (e := e) F hw2
  unfold bitTruncateV
  rw [expField_pack h hs he hm]
  have hpos : 0 < 2 ^ (F.w - 2) := by positivity
  have hmsb : (F.intErrV e (.inf ng)).msb = false := by
    rw [BitVec.msb_eq_decide, hE]
    have h2 : 2 ^ (F.w - 2) ≤ 2 ^ (F.w - 1) := Nat.pow_le_pow_right (by decide) (by omega)
    simp; omega
  have hk : BitLen (F.intErrV e (.inf ng)).toNat (F.w - 2) := by
    rw [hE]
    refine ⟨by omega, Or.inr ?_⟩
    have : 2 ^ (F.w - 2) = 2 * 2 ^ (F.w - 2 - 1) := by
      conv => lhs; rw [show F.w - 2 = (F.w - 2 - 1) + 1 by omega, Nat.pow_succ]
      ring
    have h4 : 0 < 2 ^ (F.w - 2 - 1) := by positivity
    omega
  have hm' : (m : Int) < 2 ^ F.p := by exact_mod_cast hm
  have hbig : (2 : Int) ^ (F.p + 1) * 2 ≤ 2 ^ (F.w - 2) := by
    rw [← pow_succ]
    exact pow_le_pow_right₀ (by decide) (by omega)
  have hR : roundInt (2 ^ (F.w - 2)) (2 ^ F.p + (m : Int)) = 0 := by
    have hp0 : (0 : Int) < 2 ^ F.p := by positivity
    have hp1 : (2 : Int) ^ (F.p + 1) = 2 * 2 ^ F.p := by rw [pow_succ]; ring
    unfold roundInt
    rw [Int.emod_eq_of_lt (by omega) (by omega), if_pos (Or.inl (by omega)),
      Int.ediv_eq_zero_of_lt (by omega) (by omega), mul_zero]
  rcases truncWith_pack h hs he hm _ hmsb hk (by omega) with ⟨_, h2⟩ | ⟨m', _, h1, _⟩ | ⟨h1, _⟩
  · exact h2
  · have hp0 : (0 : Int) < 2 ^ F.p := by positivity
    omega
  · have hp0 : (0 : Int) < 2 ^ (F.p + 1) := by positivity
    omega

/-- C13, infinite tolerances: every float becomes zero, and every double. -/
theorem C13_infinite_tolerance (b : BitVec 32) (d : BitVec 64) (ng : Bool) :
    f32.decode (f32.bitTruncateV b (.inf ng)) = .fin 0 ∧ f64.decode (f64.bitTruncateV d (.inf ng)) = .fin 0 := by
  constructor
  · obtain ⟨s, e, m, hs, he, hm, rfl⟩ := exists_pack f32_ok b
    rw [trunc_inf f32_ok hs he hm (by decide), decode_pack f32_ok hs (by positivity) (by positivity), if_neg (by decide)]
    simp [value_eq, mag]
  · obtain ⟨s, e, m, hs, he, hm, rfl⟩ := exists_pack f64_ok d
    rw [trunc_inf f64_ok hs he hm (by decide), decode_pack f64_ok hs (by positivity) (by positivity), if_neg (by decide)]
    simp [value_eq, mag]

/-- The function for any tolerance is the one of the other theorems if the tolerance is finite. -/
theorem C13_finite_tolerance (F : Fmt) (b : BitVec F.w) (err : ℚ) : F.bitTruncateV b (.fin err) = F.bitTruncateFloat b err := rfl

/-- C13, values that are infinite or not a number: they are not changed by any tolerance below `2^105` (float) or `2^972` (double). -/
theorem C13_nonfinite (b : BitVec 32) (d : BitVec 64) (err : ℚ) (h0 : 0 ≤ err) :
    ((∀ v, f32.decode b ≠ .fin v) → err < 2 ^ 105 → f32.bitTruncateV b (.fin err) = b) ∧
    ((∀ v, f64.decode d ≠ .fin v) → err < 2 ^ 972 → f64.bitTruncateV d (.fin err) = d) := by
  constructor
  · intro hb herr
    obtain ⟨s, e, m, hs, he, hm, rfl⟩ := exists_pack f32_ok b
    have heb : f32.eb = 8 := by decide
    have h255 : e = 255 := by
      by_contra hc
      apply hb (f32.value s e m)
      rw [decode_pack f32_ok hs he hm, if_neg (by rw [heb]; omega)]
    subst h255
    refine kernel_zero f32_ok hs he hm (intErr_zero (by decide) (f32_scale (by omega) (by omega)) ?_)
    have hs105 : ((f32.bias + f32.p - (255 : Nat) : ℤ)) = -105 := by decide
    rw [hs105, abs_of_nonneg (by positivity), zpow_neg, ← div_eq_mul_inv, div_lt_one (by positivity)]
    exact_mod_cast herr
  · intro hb herr
    obtain ⟨s, e, m, hs, he, hm, rfl⟩ := exists_pack f64_ok d
    have heb : f64.eb = 11 := by decide
    have h2047 : e = 2047 := by
      by_contra hc
      apply hb (f64.value s e m)
      rw [decode_pack f64_ok hs he hm, if_neg (by rw [heb]; omega)]
    subst h2047
    refine kernel_zero f64_ok hs he hm (intErr_zero (by decide) (f64_scale (by omega) (by omega)) ?_)
    have hs105 : ((f64.bias + f64.p - (2047 : Nat) : ℤ)) = -972 := by decide
    rw [hs105, abs_of_nonneg (by positivity), zpow_neg, ← div_eq_mul_inv, div_lt_one (by positivity)]
    exact_mod_cast herr

/-- Infinity and a NaN meet the hypotheses. -/
example : f32.decode 0x7F800000#32 = .inf false ∧ f32.decode 0x7FC00000#32 = .nan ∧ (f32.bitTruncateV 0x7FC00000#32 (.fin 1000)).toNat = 0x7FC00000 := by
  decide +kernel

/-- C13 violated for greater tolerances: the comment in the code says that a NaN may become an infinity, but it may become a zero as well, and an infinite tolerance turns infinity into zero. -/
theorem C13_nan_violated : f32.decode 0x7FC00000#32 = .nan ∧ f32.decode (f32.bitTruncateV 0x7FC00000#32 (.fin (2 ^ 127))) = .fin 0 ∧
    f32.decode 0x7F800000#32 = .inf false ∧ f32.decode (f32.bitTruncateV 0x7F800000#32 (.inf false)) = .fin 0 := by
  decide +kernel

end Verif.Trunc
