import Verif.Trunc.FloatLemmas

/-! Helper lemmas: the tolerance in mantissa units and the value of the truncated number. -/
namespace Verif.Trunc
namespace Fmt
variable {F : Fmt}

theorem high_bits {w : Nat} (hw : 2 ≤ w) (i : BitVec w) :
    i &&& BitVec.ofNat w (3 * 2 ^ (w - 2)) = 0 ↔ i.toNat < 2 ^ (w - 2) := by
  have hb : ∀ j, (BitVec.ofNat w (3 * 2 ^ (w - 2))).getLsbD j = decide (w - 2 ≤ j ∧ j < w) := by
    intro j
    rw [BitVec.getLsbD_ofNat, Nat.mul_comm, Nat.testBit_two_pow_mul]
    by_cases h1 : j < w
    · by_cases h2 : j < w - 2
      · have h3 : ¬ (w - 2 ≤ j) := by omega
        simp [h3]
      · have : j - (w - 2) = 0 ∨ j - (w - 2) = 1 := by omega
        have h4 : w - 2 ≤ j := by omega
        rcases this with h | h <;> (simp [h1, h4, h]; try decide)
    · simp [h1]
  constructor
  · intro h
    apply Nat.lt_pow_two_of_testBit
    intro j hj
    by_contra hc
    have hc : i.getLsbD j = true := by
      show i.toNat.testBit j = true
      simpa using hc
    have hjw := BitVec.lt_of_getLsbD hc
    have := congrArg (fun x : BitVec w => x.getLsbD j) h
    simp only [BitVec.getLsbD_and, hb, hc] at this
    have h0 : (0 : BitVec w).getLsbD j = false := BitVec.getLsbD_zero
    rw [h0] at this
    simp at this
    omega
  · intro h
    apply BitVec.eq_of_getLsbD_eq
    intro j hj
    have h0 : (0 : BitVec w).getLsbD j = false := BitVec.getLsbD_zero
    rw [BitVec.getLsbD_and, hb, h0]
    by_cases h2 : w - 2 ≤ j
    · have : i.getLsbD j = false := by
        show i.toNat.testBit j = false
        apply Nat.testBit_lt_two_pow
        exact lt_of_lt_of_le h (Nat.pow_le_pow_right (by decide) h2)
      simp [this]
    · simp [h2]

theorem intErr_range (hw : 2 ≤ F.w) (e : Nat) (err : ℚ) : (F.intErr e err).toNat < 2 ^ (F.w - 2) := by
  unfold intErr
  simp only
  split
  · rw [BitVec.toNat_ofNat]
    have h2 : (0 : Nat) < 2 ^ (F.w - 2) := by positivity
    exact lt_of_le_of_lt (Nat.mod_le _ _) (by omega)
  · rename_i h
    exact (high_bits hw _).1 (not_not.1 h)

theorem intErr_msb (hw : 2 ≤ F.w) (e : Nat) (err : ℚ) : (F.intErr e err).msb = false := by
  rw [BitVec.msb_eq_decide]
  have := intErr_range hw e err
  have h2 : 2 ^ (F.w - 2) ≤ 2 ^ (F.w - 1) := Nat.pow_le_pow_right (by decide) (by omega)
  simp; omega

/-- The tolerance in mantissa units when the scale is a finite number and the product `x` is not
negative. -/
theorem intErr_nonneg (hw : 2 ≤ F.w) {e : Nat} {err c : ℚ}
    (hc : F.fastPow (F.bias + F.p - e) = .fin c) (hx : 0 ≤ err * c) :
    (err * c < 2 ^ (F.w - 2) → ((F.intErr e err).toNat : Int) = ⌊err * c⌋) ∧
    (2 ^ (F.w - 2) ≤ err * c → (F.intErr e err).toNat = 2 ^ (F.w - 2) - 1) := by
  have hfl : (0 : Int) ≤ ⌊err * c⌋ := Int.floor_nonneg.2 hx
  have hp : (2 : Int) ^ (F.w - 1) = 2 * 2 ^ (F.w - 2) := by
    conv => lhs; rw [show F.w - 1 = (F.w - 2) + 1 by omega, pow_succ]
    ring
  have hpw : (2 : Int) ^ F.w = 4 * 2 ^ (F.w - 2) := by
    conv => lhs; rw [show F.w = (F.w - 2) + 2 by omega, pow_add]
    ring
  have hpos : (0 : Int) < 2 ^ (F.w - 2) := by positivity
  have hti : F.toInt (mul err (F.fastPow (F.bias + F.p - e))) =
      if -2 ^ (F.w - 1) ≤ ⌊err * c⌋ ∧ ⌊err * c⌋ < 2 ^ (F.w - 1) then BitVec.ofInt F.w ⌊err * c⌋
        else BitVec.intMin F.w := by
    rw [hc]; simp [mul, toInt, trunc, hx]
  have hmax : (BitVec.ofNat F.w (2 ^ (F.w - 2) - 1)).toNat = 2 ^ (F.w - 2) - 1 := by
    rw [BitVec.toNat_ofNat, Nat.mod_eq_of_lt]
    have h2 : 2 ^ (F.w - 2) ≤ 2 ^ F.w := Nat.pow_le_pow_right (by decide) (by omega)
    have h3 : 0 < 2 ^ (F.w - 2) := by positivity
    omega
  constructor
  · intro hlt
    have hlt' : ⌊err * c⌋ < 2 ^ (F.w - 2) := by
      rw [Int.floor_lt]; push_cast; exact hlt
    have hcond : -2 ^ (F.w - 1) ≤ ⌊err * c⌋ ∧ ⌊err * c⌋ < 2 ^ (F.w - 1) := by omega
    have hn : ((BitVec.ofInt F.w ⌊err * c⌋).toNat : Int) = ⌊err * c⌋ :=
      toNat_ofInt_of hfl (by omega)
    unfold intErr
    simp only [hti, if_pos hcond]
    have hz : BitVec.ofInt F.w ⌊err * c⌋ &&& BitVec.ofNat F.w (3 * 2 ^ (F.w - 2)) = 0 := by
      rw [high_bits hw]
      have h3 : ((2 ^ (F.w - 2) : Nat) : Int) = 2 ^ (F.w - 2) := by norm_cast
      omega
    rw [if_neg (not_not.2 hz), hn]
  · intro hge
    have hge' : (2 : Int) ^ (F.w - 2) ≤ ⌊err * c⌋ := by
      rw [Int.le_floor]; push_cast; exact hge
    unfold intErr
    simp only [hti]
    have hz : ¬ ((if -2 ^ (F.w - 1) ≤ ⌊err * c⌋ ∧ ⌊err * c⌋ < 2 ^ (F.w - 1) then
        BitVec.ofInt F.w ⌊err * c⌋ else BitVec.intMin F.w) &&&
          BitVec.ofNat F.w (3 * 2 ^ (F.w - 2)) = 0) := by
      rw [high_bits hw]
      have h3 : ((2 ^ (F.w - 2) : Nat) : Int) = 2 ^ (F.w - 2) := by norm_cast
      split
      · rename_i hcond
        have hn : ((BitVec.ofInt F.w ⌊err * c⌋).toNat : Int) = ⌊err * c⌋ :=
          toNat_ofInt_of hfl (by omega)
        omega
      · rw [BitVec.toNat_intMin_of_pos (by omega)]
        have : 2 ^ (F.w - 2) ≤ 2 ^ (F.w - 1) := Nat.pow_le_pow_right (by decide) (by omega)
        omega
    rw [if_pos hz, hmax]

theorem intErr_le (hw : 2 ≤ F.w) {e : Nat} {err c : ℚ}
    (hc : F.fastPow (F.bias + F.p - e) = .fin c) (hx : 0 ≤ err * c) :
    ((F.intErr e err).toNat : ℚ) ≤ err * c := by
  obtain ⟨h1, h2⟩ := intErr_nonneg hw hc hx
  rcases lt_or_ge (err * c) (2 ^ (F.w - 2)) with h | h
  · have := h1 h
    have h3 : ((F.intErr e err).toNat : ℚ) = ((⌊err * c⌋ : Int) : ℚ) := by
      rw [← this]; norm_cast
    rw [h3]; exact Int.floor_le _
  · rw [h2 h, Nat.cast_sub Nat.one_le_two_pow]
    push_cast
    linarith

/-- A product smaller than one in absolute value gives no tolerance. -/
theorem intErr_zero (hw : 2 ≤ F.w) {e : Nat} {err c : ℚ}
    (hc : F.fastPow (F.bias + F.p - e) = .fin c) (hx : |err * c| < 1) :
    (F.intErr e err).toNat = 0 := by
  obtain ⟨hx1, hx2⟩ := abs_lt.1 hx
  have ht : trunc (err * c) = 0 := by
    unfold trunc
    split
    · rename_i h; exact Int.floor_eq_zero_iff.2 ⟨h, hx2⟩
    · rename_i h; rw [Int.ceil_eq_iff]; constructor <;> push_cast <;> linarith
  have hpos : (0 : Int) < 2 ^ (F.w - 1) := by positivity
  have hti : F.toInt (mul err (F.fastPow (F.bias + F.p - e))) = 0 := by
    rw [hc]
    simp only [mul, toInt, ht]
    rw [if_pos (by omega)]
    simp
  unfold intErr
  simp only [hti]
  have hz : (0 : BitVec F.w) &&& BitVec.ofNat F.w (3 * 2 ^ (F.w - 2)) = 0 := by
    rw [high_bits hw]; simp
  rw [if_neg (not_not.2 hz)]
  simp

theorem fastPow_pack {t : Nat} (h : F.OK t) {x : Int} {s e : Nat} (hs : s ≤ 1) (he : e < 2 ^ F.eb)
    (hx : F.bias + x.bmod (2 ^ F.iw) = e + 2 ^ F.eb * s) :
    F.fastPow x = F.decode (F.pack s e 0) := by
  unfold fastPow
  rw [hx, ofInt_shiftLeft]
  congr 1
  apply BitVec.eq_of_toNat_eq
  rw [pack_toNat h hs he (by positivity)]
  have hlt : (e + 2 ^ F.eb * s : Int) * 2 ^ F.p < 2 ^ F.w := by
    rw [two_pow_split h]
    have h1 : (e + 2 ^ F.eb * s : Int) < 2 * 2 ^ F.eb := by
      have he' : (e : Int) < 2 ^ F.eb := by exact_mod_cast he
      have : (2 : Int) ^ F.eb * s ≤ 2 ^ F.eb * 1 := by
        apply mul_le_mul_of_nonneg_left _ (by positivity); exact_mod_cast hs
      linarith
    have hP : (0 : Int) < 2 ^ F.p := by positivity
    nlinarith
  have := toNat_ofInt_of (w := F.w) (a := (e + 2 ^ F.eb * s : Int) * 2 ^ F.p) (by positivity) hlt
  have h2 : ((0 + 2 ^ F.p * (e + 2 ^ F.eb * s) : Nat) : Int) = (e + 2 ^ F.eb * s : Int) * 2 ^ F.p := by
    push_cast; ring
  omega

/-! ### Values -/

/-- Magnitude of the number with exponent field `e` and mantissa field `m`. -/
def mag (F : Fmt) (e m : Nat) : ℚ :=
  if e = 0 then (m : ℚ) * (2 : ℚ) ^ (1 - F.bias - F.p : ℤ)
    else ((2 ^ F.p + m : ℕ) : ℚ) * (2 : ℚ) ^ (e - F.bias - F.p : ℤ)

/-- Sign factor. -/
def sgn (s : Nat) : ℚ := if s = 1 then -1 else 1

theorem value_eq (s e m : Nat) : F.value s e m = sgn s * F.mag e m := rfl

theorem sgn_sq (s : Nat) : sgn s * sgn s = 1 := by unfold sgn; split <;> norm_num

theorem abs_sgn (s : Nat) : |sgn s| = 1 := by unfold sgn; split <;> norm_num

theorem mag_nonneg (e m : Nat) : 0 ≤ F.mag e m := by unfold mag; split <;> positivity

theorem abs_value (s e m : Nat) : |F.value s e m| = F.mag e m := by
  rw [value_eq, abs_mul, abs_sgn, one_mul, abs_of_nonneg (mag_nonneg e m)]

theorem two_zpow_nat (n : Nat) : ((2 : ℚ) ^ (n : ℤ)) = 2 ^ n := zpow_natCast _ _

theorem mag_lt (e : Nat) {m : Nat} (hm : m < 2 ^ F.p) :
    F.mag e m < (2 : ℚ) ^ (e + 1 - F.bias : ℤ) := by
  have hm' : (m : ℚ) < 2 ^ F.p := by exact_mod_cast hm
  unfold mag
  split
  · rename_i h
    subst h
    calc (m : ℚ) * (2 : ℚ) ^ (1 - F.bias - F.p : ℤ)
        < 2 ^ F.p * (2 : ℚ) ^ (1 - F.bias - F.p : ℤ) := by
          apply mul_lt_mul_of_pos_right hm' (by positivity)
      _ = (2 : ℚ) ^ ((0 : Nat) + 1 - F.bias : ℤ) := by
          rw [← two_zpow_nat, ← zpow_add₀ (by norm_num)]; congr 1; push_cast; ring
  · calc ((2 ^ F.p + m : ℕ) : ℚ) * (2 : ℚ) ^ (e - F.bias - F.p : ℤ)
        < 2 ^ (F.p + 1) * (2 : ℚ) ^ (e - F.bias - F.p : ℤ) := by
          apply mul_lt_mul_of_pos_right _ (by positivity)
          push_cast; rw [pow_succ]; linarith
      _ = (2 : ℚ) ^ (e + 1 - F.bias : ℤ) := by
          rw [← two_zpow_nat, ← zpow_add₀ (by norm_num)]; congr 1; push_cast; ring

theorem le_mag {e : Nat} (he : e ≠ 0) (m : Nat) : (2 : ℚ) ^ (e - F.bias : ℤ) ≤ F.mag e m := by
  unfold mag
  rw [if_neg he]
  calc (2 : ℚ) ^ (e - F.bias : ℤ) = 2 ^ F.p * (2 : ℚ) ^ (e - F.bias - F.p : ℤ) := by
        rw [← two_zpow_nat, ← zpow_add₀ (by norm_num)]; congr 1; ring
    _ ≤ _ := by
        apply mul_le_mul_of_nonneg_right _ (by positivity)
        push_cast; linarith [(Nat.cast_nonneg m : (0 : ℚ) ≤ m)]

/-- What a truncated value satisfies: change at most `err`, sign kept. -/
def Close (v r err : ℚ) : Prop := |r - v| ≤ err ∧ 0 ≤ r * v

theorem close_of_mag {s : Nat} {a b err : ℚ} (ha : 0 ≤ a) (hb : 0 ≤ b) (h : |b - a| ≤ err) :
    Close (sgn s * a) (sgn s * b) err := by
  constructor
  · rw [← mul_sub, abs_mul, abs_sgn, one_mul]; exact h
  · calc (0 : ℚ) ≤ (sgn s * sgn s) * (b * a) := by rw [sgn_sq, one_mul]; positivity
      _ = _ := by ring

theorem round_self (v : Int) : roundInt (2 ^ 0) v = v := by simp [roundInt]

theorem kernel_cases {t : Nat} (h : F.OK t) {s e m : Nat} (hs : s ≤ 1) (he : e < 2 ^ F.eb)
    (hm : m < 2 ^ F.p) (err : ℚ) :
    ∃ k, BitLen (F.intErr e err).toNat k ∧ k + 2 ≤ F.w ∧
    ((roundInt (2 ^ k) (2 ^ F.p + m) = 0 ∧
      F.bitTruncateFloat (F.pack s e m) err = F.pack s 0 0) ∨
    (∃ m' : Nat, m' < 2 ^ F.p ∧ roundInt (2 ^ k) (2 ^ F.p + m) = 2 ^ F.p + m' ∧
      F.bitTruncateFloat (F.pack s e m) err = F.pack s e m') ∨
    (roundInt (2 ^ k) (2 ^ F.p + m) = 2 ^ (F.p + 1) ∧ (e + 1 < 2 ^ F.eb →
      F.bitTruncateFloat (F.pack s e m) err = F.pack s (e + 1) 0))) := by
  have hw2 : 2 ≤ F.w := by have := h.hw; have := h.hp; omega
  obtain ⟨k, hk⟩ := bitLen_exists (F.intErr e err).toNat
  have hr := intErr_range hw2 e err
  have hkw : k + 2 ≤ F.w := by
    by_contra hc
    rcases hk.2 with h' | h'
    · omega
    · have h5 : (2 : Nat) ^ (F.w - 1) ≤ 2 ^ k := Nat.pow_le_pow_right (by decide) (by omega)
      have h6 : (2 : Nat) ^ (F.w - 1) = 2 * 2 ^ (F.w - 2) := by
        conv => lhs; rw [show F.w - 1 = (F.w - 2) + 1 by omega, Nat.pow_succ]
        ring
      omega
  exact ⟨k, hk, hkw, bitTruncateFloat_pack h hs he hm err (intErr_msb hw2 e err) hk hkw⟩

/-- With no tolerance in mantissa units the bits are returned unchanged. -/
theorem kernel_zero {t : Nat} (h : F.OK t) {s e m : Nat} (hs : s ≤ 1) (he : e < 2 ^ F.eb)
    (hm : m < 2 ^ F.p) {err : ℚ} (h0 : (F.intErr e err).toNat = 0) :
    F.bitTruncateFloat (F.pack s e m) err = F.pack s e m := by
  obtain ⟨k, hk, _, hc⟩ := kernel_cases h hs he hm err
  have hk0 : k = 0 := by
    rcases hk.2 with h' | h'
    · exact h'
    · have : 0 < 2 ^ k := by positivity
      omega
  subst hk0
  rw [round_self] at hc
  have hP : (0 : Int) < 2 ^ F.p := by positivity
  have hm' : (m : Int) < 2 ^ F.p := by exact_mod_cast hm
  rcases hc with ⟨h1, _⟩ | ⟨m', _, h1, h2⟩ | ⟨h1, _⟩
  · omega
  · have : m' = m := by omega
    rw [h2, this]
  · rw [pow_succ] at h1; omega

/-- When the value is small, the result is small and has the same sign, whatever the tolerance. -/
theorem kernel_small {t : Nat} (h : F.OK t) {s e m : Nat} (hs : s ≤ 1) (heb : e + 3 ≤ F.bias)
    (he : e + 2 < 2 ^ F.eb) (hm : m < 2 ^ F.p) {err : ℚ} (herr : 1 ≤ err) :
    ∃ r, F.decode (F.bitTruncateFloat (F.pack s e m) err) = .fin r ∧
      Close (F.value s e m) r err := by
  have hsmall : ∀ e' m', e' ≤ e + 1 → m' < 2 ^ F.p → F.mag e' m' ≤ 1 := by
    intro e' m' h1 h2
    refine le_trans (le_of_lt (mag_lt e' h2)) ?_
    apply zpow_le_one_of_nonpos₀ (by norm_num)
    omega
  have key : ∀ e' m', e' ≤ e + 1 → m' < 2 ^ F.p →
      F.bitTruncateFloat (F.pack s e m) err = F.pack s e' m' →
      ∃ r, F.decode (F.bitTruncateFloat (F.pack s e m) err) = .fin r ∧
        Close (F.value s e m) r err := by
    intro e' m' h1 h2 h3
    refine ⟨F.value s e' m', ?_, ?_⟩
    · rw [h3, decode_pack h hs (by omega) h2, if_neg (by omega)]
    · rw [value_eq, value_eq]
      apply close_of_mag (mag_nonneg _ _) (mag_nonneg _ _)
      have a1 := hsmall e m (by omega) hm
      have a2 := hsmall e' m' h1 h2
      have a3 := mag_nonneg (F := F) e m
      have a4 := mag_nonneg (F := F) e' m'
      rw [abs_le]; constructor <;> linarith
  obtain ⟨k, _, _, hc⟩ := kernel_cases h hs (show e < 2 ^ F.eb by omega) hm err
  rcases hc with ⟨_, h2⟩ | ⟨m', h0, _, h2⟩ | ⟨_, h2⟩
  · exact key 0 0 (by omega) (by positivity) h2
  · exact key e m' (by omega) h0 h2
  · exact key (e + 1) 0 (by omega) (by positivity) (h2 (by omega))

/-- The main bound for normal numbers whose scale factor is the intended power of two. -/
theorem kernel_normal {t : Nat} (h : F.OK t) (heb3 : 3 ≤ F.eb) {s e m : Nat} (hs : s ≤ 1)
    (he0 : e ≠ 0) (he : e + 1 < 2 ^ F.eb) (hm : m < 2 ^ F.p) {err : ℚ} (herr : 0 ≤ err)
    (hsc : F.fastPow (F.bias + F.p - e) = .fin ((2 : ℚ) ^ (F.bias + F.p - e : ℤ)))
    (hmax : F.mag e m + err < (2 : ℚ) ^ (2 ^ F.eb - 1 - F.bias : ℤ)) :
    ∃ r, F.decode (F.bitTruncateFloat (F.pack s e m) err) = .fin r ∧
      Close (F.value s e m) r err ∧
      ∀ j : ℤ, (2 : ℚ) ^ j ≤ err → ∃ n : ℤ, r = n * (2 : ℚ) ^ (j + 1) := by
  have hw2 : 2 ≤ F.w := by have := h.hw; have := h.hp; omega
  set u : ℚ := (2 : ℚ) ^ (e - F.bias - F.p : ℤ) with hu
  have hupos : 0 < u := by positivity
  have hux : err * (2 : ℚ) ^ (F.bias + F.p - e : ℤ) * u = err := by
    rw [hu, mul_assoc, ← zpow_add₀ (by norm_num)]
    rw [show (F.bias + F.p - e + (e - F.bias - F.p) : ℤ) = 0 by ring]; simp
  have hx0 : 0 ≤ err * (2 : ℚ) ^ (F.bias + F.p - e : ℤ) := by positivity
  have hEle := intErr_le hw2 hsc hx0
  obtain ⟨hE1, hE2⟩ := intErr_nonneg hw2 hsc hx0
  obtain ⟨k, hk, hkw, hc⟩ := kernel_cases h hs (show e < 2 ^ F.eb by omega) hm err
  set x : ℚ := err * (2 : ℚ) ^ (F.bias + F.p - e : ℤ) with hxdef
  set R := roundInt (2 ^ k) (2 ^ F.p + (m : Int)) with hR
  have hspec := roundInt_spec (show (0 : Int) < 2 ^ k by positivity) (2 ^ F.p + (m : Int))
  rw [← hR] at hspec
  have hkE : (2 : Int) ^ k ≤ 2 * (F.intErr e err).toNat ∨ k = 0 := by
    rcases hk.2 with h' | h'
    · exact Or.inr h'
    · exact Or.inl (by exact_mod_cast h')
  have hRM : |R - (2 ^ F.p + (m : Int))| ≤ (F.intErr e err).toNat := by
    rcases hkE with h' | h'
    · have := hspec.2.1; omega
    · have := hspec.2.1
      rw [h'] at this
      have := abs_nonneg (R - (2 ^ F.p + (m : Int)))
      omega
  have hv : F.mag e m = ((2 ^ F.p + m : Int) : ℚ) * u := by
    unfold mag; rw [if_neg he0]; push_cast; rfl
  have hdiff : |(R : ℚ) * u - F.mag e m| ≤ err := by
    rw [hv, ← sub_mul, abs_mul, abs_of_pos hupos]
    have h1 : |(R : ℚ) - ((2 ^ F.p + m : Int) : ℚ)| ≤ x := by
      refine le_trans ?_ hEle
      have : ((|R - (2 ^ F.p + (m : Int))| : Int) : ℚ) ≤ (((F.intErr e err).toNat : Int) : ℚ) := by
        exact_mod_cast hRM
      rw [Int.cast_abs] at this
      push_cast at this ⊢
      exact this
    calc _ ≤ x * u := mul_le_mul_of_nonneg_right h1 (le_of_lt hupos)
      _ = err := hux
  -- the truncation part
  have htrunc : ∀ j : ℤ, (2 : ℚ) ^ j ≤ err → ∃ n : ℤ, (R : ℚ) * u = n * (2 : ℚ) ^ (j + 1) := by
    intro j hj
    rcases lt_or_ge j (e - F.bias - F.p : ℤ) with hlt | hge
    · obtain ⟨d, hd⟩ := Int.eq_ofNat_of_zero_le
        (show 0 ≤ (e - F.bias - F.p : ℤ) - (j + 1) by omega)
      refine ⟨R * 2 ^ d, ?_⟩
      rw [hu, show (e - F.bias - F.p : ℤ) = (d : ℤ) + (j + 1) by omega, zpow_add₀ (by norm_num),
        two_zpow_nat]
      push_cast; ring
    · obtain ⟨d, hd⟩ := Int.eq_ofNat_of_zero_le (show 0 ≤ j - (e - F.bias - F.p : ℤ) by omega)
      have hdx : (2 : ℚ) ^ d ≤ x := by
        have : (2 : ℚ) ^ d * u ≤ x * u := by
          rw [hux, hu, ← two_zpow_nat, ← zpow_add₀ (by norm_num)]
          rwa [show (d : ℤ) + (e - F.bias - F.p : ℤ) = j by omega]
        exact le_of_mul_le_mul_right this hupos
      have hdvd : (2 : Int) ^ (d + 1) ∣ R := by
        rcases lt_or_ge x (2 ^ (F.w - 2)) with h' | h'
        · have hE := hE1 h'
          have h3 : (2 : Int) ^ d ≤ ⌊x⌋ := by rw [Int.le_floor]; push_cast; exact hdx
          have h4 : (2 : Int) ^ d < 2 ^ k := by
            have := hk.1
            have h5 : ((F.intErr e err).toNat : Int) < 2 ^ k := by exact_mod_cast this
            omega
          have h5 : d < k := (pow_lt_pow_iff_right₀ (by decide)).1 h4
          exact (pow_dvd_pow 2 h5).trans hspec.1
        · have hE := hE2 h'
          have hR0 : R = 0 := by
            have hk' : (2 : Nat) ^ (F.w - 2) ≤ 2 ^ k := by
              have := hk.1; omega
            have h5 : F.w - 2 ≤ k := (pow_le_pow_iff_right₀ (by decide)).1 hk'
            have h6 : (2 : Int) ^ (F.p + 2) ≤ 2 ^ k :=
              pow_le_pow_right₀ (by decide) (by have := h.hw; omega)
            have hm' : (m : Int) < 2 ^ F.p := by exact_mod_cast hm
            have hP : (0 : Int) < 2 ^ F.p := by positivity
            rw [pow_add] at h6
            rw [hR]
            unfold roundInt
            rw [Int.emod_eq_of_lt (by omega) (by omega), if_pos (Or.inl (by omega)),
              Int.ediv_eq_zero_of_lt (by omega) (by omega), mul_zero]
          rw [hR0]; exact dvd_zero _
      obtain ⟨n, hn⟩ := hdvd
      refine ⟨n, ?_⟩
      rw [hn, hu, show j + 1 = ((d + 1 : Nat) : ℤ) + (e - F.bias - F.p : ℤ) by push_cast; omega,
        zpow_add₀ (by norm_num), two_zpow_nat]
      push_cast; ring
  have hfin : ∀ e' m', e' + 1 < 2 ^ F.eb → m' < 2 ^ F.p →
      F.bitTruncateFloat (F.pack s e m) err = F.pack s e' m' → F.mag e' m' = (R : ℚ) * u →
      ∃ r, F.decode (F.bitTruncateFloat (F.pack s e m) err) = .fin r ∧
      Close (F.value s e m) r err ∧
      ∀ j : ℤ, (2 : ℚ) ^ j ≤ err → ∃ n : ℤ, r = n * (2 : ℚ) ^ (j + 1) := by
    intro e' m' h1 h2 h3 h4
    refine ⟨F.value s e' m', ?_, ?_, ?_⟩
    · rw [h3, decode_pack h hs (by omega) h2, if_neg (by omega)]
    · rw [value_eq, value_eq]
      apply close_of_mag (mag_nonneg _ _) (mag_nonneg _ _)
      rw [h4]; exact hdiff
    · intro j hj
      obtain ⟨n, hn⟩ := htrunc j hj
      rw [value_eq, h4, hn]
      unfold sgn
      split
      · exact ⟨-n, by push_cast; ring⟩
      · exact ⟨n, by ring⟩
  rcases hc with ⟨h1, h2⟩ | ⟨m', h0, h1, h2⟩ | ⟨h1, h2⟩
  · refine hfin 0 0 (by omega) (by positivity) h2 ?_
    rw [h1]; simp [mag]
  · refine hfin e m' he h0 h2 ?_
    rw [h1, hu]; unfold mag; rw [if_neg he0]; push_cast; rfl
  · have hRu : (R : ℚ) * u = (2 : ℚ) ^ (e + 1 - F.bias : ℤ) := by
      rw [h1, hu]; push_cast
      rw [← two_zpow_nat, ← zpow_add₀ (by norm_num)]; congr 1; push_cast; ring
    have hlast : e + 2 < 2 ^ F.eb := by
      by_contra hcc
      have h5 : e + 2 = 2 ^ F.eb := by omega
      have h6 : (R : ℚ) * u ≤ F.mag e m + err := by
        have := abs_le.1 hdiff; linarith
      rw [hRu] at h6
      have h7 : ((2 ^ F.eb : Int)) = e + 2 := by exact_mod_cast h5.symm
      rw [h7, show (e + 2 - 1 - F.bias : ℤ) = (e + 1 - F.bias : ℤ) by ring] at hmax
      linarith
    refine hfin (e + 1) 0 hlast (by positivity) (h2 (by omega)) ?_
    rw [hRu]; unfold mag; rw [if_neg (by omega)]
    push_cast
    rw [add_zero, ← two_zpow_nat, ← zpow_add₀ (by norm_num)]; congr 1; ring

end Fmt
end Verif.Trunc
