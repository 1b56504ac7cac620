import Verif.Trunc.Model
import Verif.Trunc.Spec
import Mathlib.Tactic.Ring
import Mathlib.Tactic.Linarith
import Mathlib.Algebra.Order.Ring.Int
import Mathlib.Data.Int.ModEq

/-! Helper lemmas for the truncation theorems: bit operations as integer arithmetic. -/
namespace Verif.Trunc

variable {w : Nat}

/-! ### The smear -/

theorem smear_step {x y : BitVec w} {n : Nat} (hx : x.msb = false)
    (h : ∀ j, y.getLsbD j = true ↔ ∃ i, j ≤ i ∧ i < j + n ∧ x.getLsbD i = true) :
    ∀ j, (y ||| y.sshiftRight n).getLsbD j = true ↔
      ∃ i, j ≤ i ∧ i < j + 2 * n ∧ x.getLsbD i = true := by
  have hlt : ∀ i, x.getLsbD i = true → i + 1 < w := by
    intro i hi
    have hw : i < w := BitVec.lt_of_getLsbD hi
    rcases Nat.lt_or_ge (i + 1) w with h' | h'
    · exact h'
    · exfalso
      have : i = w - 1 := by omega
      rw [BitVec.msb_eq_getLsbD_last, ← this, hi] at hx
      simp at hx
  have hy : y.msb = false := by
    rw [BitVec.msb_eq_getLsbD_last, Bool.eq_false_iff]
    intro hc
    obtain ⟨i, h1, _, h3⟩ := (h _).1 hc
    have := hlt i h3
    omega
  intro j
  rw [BitVec.sshiftRight_eq_of_msb_false hy, BitVec.getLsbD_or, BitVec.getLsbD_ushiftRight,
    Bool.or_eq_true, h j, h (n + j)]
  constructor
  · rintro (⟨i, h1, h2, h3⟩ | ⟨i, h1, h2, h3⟩)
    · exact ⟨i, h1, by omega, h3⟩
    · exact ⟨i, by omega, by omega, h3⟩
  · rintro ⟨i, h1, h2, h3⟩
    by_cases hc : i < j + n
    · exact Or.inl ⟨i, h1, hc, h3⟩
    · exact Or.inr ⟨i, by omega, by omega, h3⟩

/-- The list `[n, 2n, 4n, ...]` of `t` shifts. -/
def doubling : Nat → Nat → List Nat
  | _, 0 => []
  | n, t + 1 => n :: doubling (2 * n) t

theorem smear_doubling {x : BitVec w} (hx : x.msb = false) :
    ∀ (t n : Nat) (y : BitVec w),
    (∀ j, y.getLsbD j = true ↔ ∃ i, j ≤ i ∧ i < j + n ∧ x.getLsbD i = true) →
    ∀ j, (smear (doubling n t) y).getLsbD j = true ↔
      ∃ i, j ≤ i ∧ i < j + n * 2 ^ t ∧ x.getLsbD i = true := by
  intro t
  induction t with
  | zero => intro n y h j; simpa [doubling, smear] using h j
  | succ t ih =>
    intro n y h j
    have := ih (2 * n) (y ||| y.sshiftRight n) (smear_step hx h) j
    rw [show n * 2 ^ (t + 1) = 2 * n * 2 ^ t by ring, ← this]
    rfl

theorem smear_bits {x : BitVec w} (hx : x.msb = false) {shifts : List Nat} {t : Nat}
    (hs : shifts = doubling 1 t) (hw : w ≤ 2 ^ t) (j : Nat) :
    (smear shifts x).getLsbD j = true ↔ ∃ i, j ≤ i ∧ x.getLsbD i = true := by
  subst hs
  rw [smear_doubling hx t 1 x]
  · constructor
    · rintro ⟨i, h1, _, h3⟩; exact ⟨i, h1, h3⟩
    · rintro ⟨i, h1, h3⟩
      have := BitVec.lt_of_getLsbD h3
      exact ⟨i, h1, by omega, h3⟩
  · intro j
    constructor
    · intro h; exact ⟨j, by omega, by omega, h⟩
    · rintro ⟨i, h1, h2, h3⟩
      have : i = j := by omega
      rwa [← this]

/-- `k` is the bit length of `n`. -/
def BitLen (n k : Nat) : Prop := n < 2 ^ k ∧ (k = 0 ∨ 2 ^ k ≤ 2 * n)

theorem bitLen_exists (n : Nat) : ∃ k, BitLen n k := by
  by_cases h : n = 0
  · exact ⟨0, by simp [h], Or.inl rfl⟩
  · refine ⟨n.log2 + 1, Nat.lt_log2_self, Or.inr ?_⟩
    have := Nat.log2_self_le h
    rw [pow_succ]; omega

theorem smear_toNat {x : BitVec w} (hx : x.msb = false) {shifts : List Nat} {t : Nat}
    (hs : shifts = doubling 1 t) (hw : w ≤ 2 ^ t) {k : Nat} (hk : BitLen x.toNat k) :
    (smear shifts x).toNat = 2 ^ k - 1 := by
  apply Nat.eq_of_testBit_eq
  intro j
  rw [Nat.testBit_two_pow_sub_one, Bool.eq_iff_iff, decide_eq_true_iff]
  have := smear_bits hx hs hw j
  rw [show (smear shifts x).toNat.testBit j = (smear shifts x).getLsbD j from rfl, this]
  constructor
  · rintro ⟨i, h1, h3⟩
    have h4 : 2 ^ i ≤ x.toNat := Nat.ge_two_pow_of_testBit h3
    have h5 : 2 ^ i < 2 ^ k := lt_of_le_of_lt h4 hk.1
    have := (Nat.pow_lt_pow_iff_right (by decide)).1 h5
    omega
  · intro hj
    rcases hk.2 with h0 | h0
    · omega
    · refine ⟨k - 1, by omega, ?_⟩
      show x.toNat.testBit (k - 1) = true
      have hk1 : k = (k - 1) + 1 := by omega
      have hlt := hk.1
      rw [hk1, pow_succ] at h0 hlt
      rw [Nat.testBit_eq_decide_div_mod_eq]
      have : x.toNat / 2 ^ (k - 1) = 1 := by
        apply Nat.div_eq_of_lt_le <;> omega
      simp [this]

theorem shifts32_eq : shifts32 = doubling 1 5 := by decide
theorem shifts64_eq : shifts64 = doubling 1 6 := by decide

/-! ### Bit operations on `BitVec.ofInt` -/

theorem ofInt_congr {a b : Int} (h : a % 2 ^ w = b % 2 ^ w) :
    BitVec.ofInt w a = BitVec.ofInt w b := by
  apply BitVec.eq_of_toNat_eq
  simp [BitVec.toNat_ofInt, h]

theorem ofInt_sub' (a b : Int) :
    BitVec.ofInt w (a - b) = BitVec.ofInt w a - BitVec.ofInt w b := by
  rw [Int.sub_eq_add_neg, BitVec.ofInt_add, BitVec.ofInt_neg, BitVec.sub_eq_add_neg]

/-- The representative of `a` used by `toNat`. -/
theorem toNat_ofInt_cast (a : Int) : ((BitVec.ofInt w a).toNat : Int) = a % 2 ^ w := by
  rw [BitVec.toNat_ofInt, Int.toNat_of_nonneg (Int.emod_nonneg _ (by positivity))]
  norm_cast

theorem toNat_ofInt_of {a : Int} (h0 : 0 ≤ a) (h1 : a < 2 ^ w) :
    ((BitVec.ofInt w a).toNat : Int) = a := by
  rw [toNat_ofInt_cast, Int.emod_eq_of_lt h0 h1]

theorem ofInt_natCast (n : Nat) : BitVec.ofInt w (n : Int) = BitVec.ofNat w n := by simp

theorem eq_ofInt_toNat (x : BitVec w) : x = BitVec.ofInt w (x.toNat : Int) := by simp

theorem or_mask_nat (n k : Nat) : n ||| (2 ^ k - 1) = n / 2 ^ k * 2 ^ k + (2 ^ k - 1) := by
  have hlt : 2 ^ k - 1 < 2 ^ k := Nat.sub_lt (by positivity) (by decide)
  rw [Nat.mul_comm, Nat.two_pow_add_eq_or_of_lt hlt]
  apply Nat.eq_of_testBit_eq
  intro j
  simp only [Nat.testBit_or, Nat.testBit_two_pow_sub_one, Nat.testBit_two_pow_mul,
    Nat.testBit_div_two_pow]
  by_cases h : j < k
  · simp [h]
  · have : k ≤ j := by omega
    simp [this, Nat.sub_add_cancel this]

theorem ofInt_toNat_congr (a : Int) {k : Nat} (hk : k ≤ w) :
    (((BitVec.ofInt w a).toNat : Int)) % 2 ^ k = a % 2 ^ k := by
  rw [toNat_ofInt_cast]
  exact Int.emod_emod_of_dvd _ (pow_dvd_pow 2 hk)

theorem ofInt_or_mask (a : Int) {k : Nat} (hk : k ≤ w) :
    BitVec.ofInt w a ||| BitVec.ofInt w (2 ^ k - 1) =
      BitVec.ofInt w (a / 2 ^ k * 2 ^ k + (2 ^ k - 1)) := by
  have hpos : (0 : Int) < 2 ^ k := by positivity
  have hle : (2 : Int) ^ k ≤ 2 ^ w := pow_le_pow_right₀ (by decide) hk
  have hm : (BitVec.ofInt w (2 ^ k - 1)).toNat = 2 ^ k - 1 := by
    have := toNat_ofInt_of (w := w) (a := 2 ^ k - 1) (by omega) (by omega)
    have h2 : ((2 ^ k - 1 : Nat) : Int) = 2 ^ k - 1 := by
      rw [Nat.cast_sub (Nat.one_le_two_pow)]; norm_cast
    omega
  rw [eq_ofInt_toNat (BitVec.ofInt w a ||| BitVec.ofInt w (2 ^ k - 1)), BitVec.toNat_or, hm,
    or_mask_nat]
  apply ofInt_congr
  have h2 : ((2 ^ k - 1 : Nat) : Int) = 2 ^ k - 1 := by
    rw [Nat.cast_sub (Nat.one_le_two_pow)]; norm_cast
  push_cast [h2]
  have hc := ofInt_toNat_congr (w := w) a hk
  have hc2 := toNat_ofInt_cast (w := w) a
  generalize (BitVec.ofInt w a).toNat = n at hc hc2
  have e1 : (n : Int) / 2 ^ k * 2 ^ k = n - n % 2 ^ k := by
    have := Int.emod_add_mul_ediv (n : Int) (2 ^ k); linarith [mul_comm ((n : Int) / 2 ^ k) (2 ^ k)]
  have e2 : a / 2 ^ k * 2 ^ k = a - a % 2 ^ k := by
    have := Int.emod_add_mul_ediv a (2 ^ k); linarith [mul_comm (a / 2 ^ k) (2 ^ k)]
  rw [e1, e2, hc, hc2]
  exact Int.ModEq.add_right _ (Int.ModEq.sub_right _ (Int.mod_modEq a _))

theorem toNat_mask {k : Nat} (hk : k ≤ w) :
    (BitVec.ofInt w (2 ^ k - 1)).toNat = 2 ^ k - 1 := by
  have hpos : (0 : Int) < 2 ^ k := by positivity
  have hle : (2 : Int) ^ k ≤ 2 ^ w := pow_le_pow_right₀ (by decide) hk
  have := toNat_ofInt_of (w := w) (a := 2 ^ k - 1) (by omega) (by omega)
  have h2 : ((2 ^ k - 1 : Nat) : Int) = 2 ^ k - 1 := by
    rw [Nat.cast_sub (Nat.one_le_two_pow)]; norm_cast
  omega

theorem ofInt_and_mask (a : Int) {k : Nat} (hk : k ≤ w) :
    BitVec.ofInt w a &&& BitVec.ofInt w (2 ^ k - 1) = BitVec.ofInt w (a % 2 ^ k) := by
  rw [eq_ofInt_toNat (BitVec.ofInt w a &&& BitVec.ofInt w (2 ^ k - 1)), BitVec.toNat_and,
    toNat_mask hk, Nat.and_two_pow_sub_one_eq_mod]
  push_cast
  rw [ofInt_toNat_congr a hk]

theorem ofInt_and_pow (a : Int) {k : Nat} (hk : k < w) :
    BitVec.ofInt w a &&& BitVec.ofInt w (2 ^ k) =
      BitVec.ofInt w (a / 2 ^ k % 2 * 2 ^ k) := by
  have hle : (2 : Int) ^ k < 2 ^ w := pow_lt_pow_right₀ (by decide) hk
  have hm : (BitVec.ofInt w (2 ^ k)).toNat = 2 ^ k := by
    have := toNat_ofInt_of (w := w) (a := 2 ^ k) (by positivity) hle
    have h2 : ((2 ^ k : Nat) : Int) = 2 ^ k := by norm_cast
    omega
  rw [eq_ofInt_toNat (BitVec.ofInt w a &&& BitVec.ofInt w (2 ^ k)), BitVec.toNat_and, hm]
  have hn : ∀ n : Nat, n &&& 2 ^ k = n / 2 ^ k % 2 * 2 ^ k := by
    intro n
    apply Nat.eq_of_testBit_eq
    intro j
    rw [Nat.testBit_and, Nat.testBit_two_pow, Nat.mul_comm, Nat.testBit_two_pow_mul]
    by_cases h : k = j
    · subst h
      simp [Nat.testBit_eq_decide_div_mod_eq]
    · by_cases h2 : k ≤ j
      · have hj : j - k = (j - k - 1) + 1 := by omega
        rw [hj, Nat.testBit_add_one]
        have : n / 2 ^ k % 2 / 2 = 0 := by omega
        simp [h, this]
      · simp [h, h2]
  rw [hn]
  push_cast
  congr 2
  have hc := ofInt_toNat_congr (w := w) a (k := k + 1) hk
  generalize (BitVec.ofInt w a).toNat = n at hc
  have key : ∀ z : Int, z / 2 ^ k % 2 = z % 2 ^ (k + 1) / 2 ^ k := by
    intro z
    rw [pow_succ]
    have hD : (0 : Int) < 2 ^ k := by positivity
    generalize (2 : Int) ^ k = D at hD
    have h1 := Int.emod_add_mul_ediv z D
    have h2 := Int.emod_nonneg z (ne_of_gt hD)
    have h3 := Int.emod_lt_of_pos z hD
    have hq : z / D % 2 = 0 ∨ z / D % 2 = 1 := by omega
    have h5 : z / D = z / D % 2 + 2 * (z / D / 2) := by omega
    have h4 : z % (D * 2) = z % D + D * (z / D % 2) := by
      have : z = (z % D + D * (z / D % 2)) + D * 2 * (z / D / 2) := by
        calc z = z % D + D * (z / D) := h1.symm
          _ = z % D + D * (z / D % 2 + 2 * (z / D / 2)) := by rw [← h5]
          _ = _ := by ring
      conv => lhs; rw [this]
      rw [Int.add_mul_emod_self_left]
      apply Int.emod_eq_of_lt <;> rcases hq with h | h <;> rw [h] <;> linarith
    rw [h4, Int.add_mul_ediv_left _ _ (ne_of_gt hD), Int.ediv_eq_zero_of_lt h2 h3, zero_add]
  rw [key, key, hc]

theorem ofInt_shiftLeft (a : Int) (k : Nat) :
    BitVec.ofInt w a <<< k = BitVec.ofInt w (a * 2 ^ k) := by
  rw [eq_ofInt_toNat (BitVec.ofInt w a <<< k), BitVec.toNat_shiftLeft, Nat.shiftLeft_eq]
  apply ofInt_congr
  push_cast
  rw [Int.emod_emod_of_dvd _ dvd_rfl, toNat_ofInt_cast]
  exact Int.ModEq.mul_right _ (Int.mod_modEq a _)

theorem sshiftRight_eq_ofInt (x : BitVec w) (k : Nat) :
    x.sshiftRight k = BitVec.ofInt w (x.toInt / 2 ^ k) := by
  apply BitVec.eq_of_toInt_eq
  rw [BitVec.toInt_sshiftRight, Int.shiftRight_eq_div_pow, BitVec.toInt_ofInt]
  rcases Nat.eq_zero_or_pos w with rfl | hw
  · simp [BitVec.of_length_zero]
  have h1 := BitVec.le_toInt x
  have h2 := BitVec.toInt_lt (x := x)
  have hp : (0 : Int) < 2 ^ k := by positivity
  have hw2 : (2 : Int) ^ w = 2 * 2 ^ (w - 1) := by
    conv => lhs; rw [show w = (w - 1) + 1 by omega, pow_succ]
    ring
  have h3 : x.toInt / 2 ^ k < 2 ^ (w - 1) := by
    rcases lt_or_ge x.toInt 0 with h | h
    · exact lt_trans (Int.ediv_neg_of_neg_of_pos h hp) (by positivity)
    · exact lt_of_le_of_lt (Int.ediv_le_self _ h) h2
  have h4 : -2 ^ (w - 1) ≤ x.toInt / 2 ^ k := by
    rw [Int.le_ediv_iff_mul_le hp]
    have : (1 : Int) ≤ 2 ^ k := by omega
    have h5 : (0 : Int) < 2 ^ (w - 1) := by positivity
    nlinarith
  rw [Int.bmod_eq_of_le_mul_two]
  · norm_cast
  · push_cast; rw [hw2]; linarith
  · push_cast; rw [hw2]; linarith

theorem ofInt_or_disjoint {a : Int} (c : Int) {k : Nat} (hk : k ≤ w) (h0 : 0 ≤ a)
    (h1 : a < 2 ^ k) :
    BitVec.ofInt w a ||| BitVec.ofInt w (c * 2 ^ k) = BitVec.ofInt w (a + c * 2 ^ k) := by
  have hle : (2 : Int) ^ k ≤ 2 ^ w := pow_le_pow_right₀ (by decide) hk
  have ha := toNat_ofInt_of (w := w) h0 (by omega)
  have hc := ofInt_toNat_congr (w := w) (c * 2 ^ k) hk
  have hc2 := toNat_ofInt_cast (w := w) (c * 2 ^ k)
  rw [eq_ofInt_toNat (BitVec.ofInt w a ||| _), BitVec.toNat_or]
  apply ofInt_congr
  generalize (BitVec.ofInt w a).toNat = m at *
  generalize (BitVec.ofInt w (c * 2 ^ k)).toNat = n at *
  have hn : n = 2 ^ k * (n / 2 ^ k) := by
    rw [Int.mul_emod_left] at hc
    have : n % 2 ^ k = 0 := by exact_mod_cast hc
    have := Nat.mod_add_div n (2 ^ k)
    omega
  have hm : m < 2 ^ k := by
    have : ((2 ^ k : Nat) : Int) = 2 ^ k := by norm_cast
    omega
  rw [Nat.or_comm, hn, ← Nat.two_pow_add_eq_or_of_lt hm, ← hn]
  push_cast
  rw [ha, hc2, add_comm]
  exact Int.ModEq.add_left _ (Int.mod_modEq _ _)

/-! ### The integer kernel -/

theorem roundsTo_unique {g v r r' : Int} (hg : 0 < g) (h : RoundsTo g v r) (h' : RoundsTo g v r') :
    r = r' := by
  obtain ⟨⟨a, rfl⟩, h2, h3⟩ := h
  obtain ⟨⟨b, rfl⟩, h2', h3'⟩ := h'
  rw [Int.mul_ediv_cancel_left _ (ne_of_gt hg)] at h3 h3'
  by_contra hne
  have hab : a ≠ b := fun h => hne (by rw [h])
  rw [abs_sub_comm] at h2 h3
  have e1 := abs_sub_le_iff.1 (show |v - g * a| ≤ |v - g * a| from le_refl _)
  have e2 := abs_sub_le_iff.1 (show |g * b - v| ≤ |g * b - v| from le_refl _)
  have hd : g * |a - b| ≤ |v - g * a| + |g * b - v| := by
    have : g * |a - b| = |(v - g * a) + (g * b - v)| := by
      rw [show (v - g * a) + (g * b - v) = g * (b - a) by ring, abs_mul, abs_of_pos hg,
        abs_sub_comm]
    rw [this]; exact abs_add_le _ _
  have h1 : 1 ≤ |a - b| := Int.one_le_abs (sub_ne_zero.2 hab)
  have h1' : |a - b| ≤ 1 := by
    by_contra hc
    have : 2 ≤ |a - b| := by omega
    nlinarith
  have h1'' : |a - b| = 1 := by omega
  rw [h1'', mul_one] at hd
  have ta := h3 (by omega)
  have tb := h3' (by omega)
  rcases abs_eq (show (0 : Int) ≤ 1 by decide) |>.1 h1'' with h | h <;> omega

/-- The rounded value. -/
def roundInt (g v : Int) : Int :=
  if 2 * (v % g) < g ∨ (2 * (v % g) = g ∧ v / g % 2 = 0) then g * (v / g) else g * (v / g + 1)

theorem roundInt_spec {g : Int} (hg : 0 < g) (v : Int) : RoundsTo g v (roundInt g v) := by
  have h1 := Int.emod_add_mul_ediv v g
  have h2 := Int.emod_nonneg v (ne_of_gt hg)
  have h3 := Int.emod_lt_of_pos v hg
  unfold roundInt
  split
  · refine ⟨⟨_, rfl⟩, ?_, ?_⟩
    · rw [show g * (v / g) - v = -(v % g) by linarith, abs_neg, abs_of_nonneg h2]; omega
    · rw [show g * (v / g) - v = -(v % g) by linarith, abs_neg, abs_of_nonneg h2,
        Int.mul_ediv_cancel_left _ (ne_of_gt hg)]
      omega
  · refine ⟨⟨_, rfl⟩, ?_, ?_⟩
    · rw [show g * (v / g + 1) - v = g - (v % g) by linarith, abs_of_nonneg (by omega)]; omega
    · rw [show g * (v / g + 1) - v = g - (v % g) by linarith, abs_of_nonneg (by omega),
        Int.mul_ediv_cancel_left _ (ne_of_gt hg)]
      omega

theorem bitTruncate_eq {val err : BitVec w} (hmsb : err.msb = false) {shifts : List Nat} {t : Nat}
    (hs : shifts = doubling 1 t) (hw : w ≤ 2 ^ t) {k : Nat} (hk : BitLen err.toNat k)
    (hkw : k + 2 ≤ w) :
    bitTruncate shifts val err = BitVec.ofInt w (roundInt (2 ^ k) val.toInt) := by
  have hsm := smear_toNat hmsb hs hw hk
  have hpos : (0 : Int) < 2 ^ k := by positivity
  have hle : (2 : Int) ^ (k + 2) ≤ 2 ^ w := pow_le_pow_right₀ (by decide) hkw
  rw [pow_add] at hle
  have h2 : ((2 ^ k - 1 : Nat) : Int) = 2 ^ k - 1 := by
    rw [Nat.cast_sub (Nat.one_le_two_pow)]; norm_cast
  have hgran : smear shifts err + 1 = BitVec.ofInt w (2 ^ k) := by
    rw [eq_ofInt_toNat (smear shifts err), hsm, h2,
      show (1 : BitVec w) = BitVec.ofInt w 1 by simp, ← BitVec.ofInt_add]
    congr 1; ring
  have hmask : BitVec.ofInt w (2 ^ k) - 1 = BitVec.ofInt w (2 ^ k - 1) := by
    rw [ofInt_sub']; simp
  have herr : err = 0 ↔ k = 0 := by
    constructor
    · intro h
      rcases hk.2 with h' | h'
      · exact h'
      · exfalso
        have : err.toNat = 0 := by rw [h]; simp
        have : 0 < 2 ^ k := by positivity
        omega
    · intro h
      have := hk.1
      rw [h] at this
      apply BitVec.eq_of_toNat_eq
      simp; omega
  have hhalf : (BitVec.ofInt w (2 ^ k)).sshiftRight 1 = BitVec.ofInt w (2 ^ k / 2) := by
    rw [sshiftRight_eq_ofInt, BitVec.toInt_ofInt_eq_self (by omega)]
    · simp
    · have : (0 : Int) < 2 ^ (w - 1) := by positivity
      omega
    · have : (2 : Int) ^ k < 2 ^ (w - 1) := pow_lt_pow_right₀ (by decide) (by omega)
      omega
  unfold bitTruncate
  simp only [hgran, hmask, hhalf, herr]
  have hval : val = BitVec.ofInt w val.toInt := BitVec.ofInt_toInt.symm
  generalize val.toInt = v at hval
  subst hval
  have hr0 := Int.emod_nonneg v (ne_of_gt hpos)
  have hr1 := Int.emod_lt_of_pos v hpos
  have hv := Int.emod_add_mul_ediv v (2 ^ k)
  rw [ofInt_and_mask v (by omega), ofInt_shiftLeft, ← ofInt_sub', ofInt_or_mask _ (by omega)]
  have htie : (BitVec.ofInt w (v % 2 ^ k * 2 ^ 1) = BitVec.ofInt w (2 ^ k)) ↔
      2 * (v % 2 ^ k) = 2 ^ k := by
    constructor
    · intro h
      have h := congrArg (fun x : BitVec w => (x.toNat : Int)) h
      rw [toNat_ofInt_of (by omega) (by omega), toNat_ofInt_of (by omega) (by omega)] at h
      omega
    · intro h
      congr 1; rw [pow_one]; omega
  simp only [htie]
  have h1 : (1 : BitVec w) = BitVec.ofInt w 1 := by simp
  have h0 : (0 : BitVec w) = BitVec.ofInt w 0 := by simp
  have zm : ∀ x : BitVec w, 0 * x = 0 := fun x => BitVec.zero_mul
  have om : ∀ x : BitVec w, 1 * x = x := fun x => BitVec.one_mul x
  have az : ∀ x : BitVec w, x &&& 0 = 0 := fun x => BitVec.and_zero
  have sz : ∀ x : BitVec w, x - 0 = x := fun x => BitVec.sub_zero x
  by_cases hk0 : k = 0
  · subst hk0
    have : ¬ (2 * (v % 2 ^ 0) = (2 : Int) ^ 0) := by omega
    simp only [this, if_true, if_false, zm, az, sz]
    rw [h1, ← BitVec.ofInt_add, ← ofInt_sub']
    congr 1
    simp [roundInt]
  · have hk2 : (2 : Int) ^ k / 2 * 2 = 2 ^ k := by
      obtain ⟨j, rfl⟩ : ∃ j, k = j + 1 := ⟨k - 1, by omega⟩
      rw [pow_succ]; simp
    simp only [hk0, if_false, sz]
    rw [h1, ← BitVec.ofInt_add]
    have hdiv : (v - 2 ^ k / 2) / 2 ^ k =
        if 2 * (v % 2 ^ k) < 2 ^ k then v / 2 ^ k - 1 else v / 2 ^ k := by
      split
      · have e : v - 2 ^ k / 2 = (v % 2 ^ k - 2 ^ k / 2 + 2 ^ k) + 2 ^ k * (v / 2 ^ k - 1) := by
          rw [mul_sub]; linarith
        conv => lhs; rw [e]
        rw [Int.add_mul_ediv_left _ _ (ne_of_gt hpos), Int.ediv_eq_zero_of_lt (by omega) (by omega),
          zero_add]
      · have e : v - 2 ^ k / 2 = (v % 2 ^ k - 2 ^ k / 2) + 2 ^ k * (v / 2 ^ k) := by linarith
        conv => lhs; rw [e]
        rw [Int.add_mul_ediv_left _ _ (ne_of_gt hpos), Int.ediv_eq_zero_of_lt (by omega) (by omega),
          zero_add]
    by_cases ht : 2 * (v % 2 ^ k) = 2 ^ k
    · have ht' : ¬ 2 * (v % 2 ^ k) < 2 ^ k := by omega
      rw [hdiv, if_neg ht']
      simp only [ht, if_true]
      rw [← h1, om,
        show v / 2 ^ k * 2 ^ k + (2 ^ k - 1) + 1 = 2 ^ k * (v / 2 ^ k + 1) by ring,
        ofInt_and_pow _ (by omega), ← ofInt_sub', Int.mul_ediv_cancel_left _ (ne_of_gt hpos)]
      congr 1
      unfold roundInt
      rcases Int.emod_two_eq_zero_or_one (v / 2 ^ k) with h | h
      · have : (v / 2 ^ k + 1) % 2 = 1 := by omega
        rw [this, if_pos (Or.inr ⟨ht, h⟩)]
        ring
      · have : (v / 2 ^ k + 1) % 2 = 0 := by omega
        rw [this, if_neg (by omega)]
        ring
    · simp only [ht, if_false]
      simp only [zm, az, sz]
      congr 1
      rw [hdiv]
      unfold roundInt
      by_cases hlt : 2 * (v % 2 ^ k) < 2 ^ k
      · rw [if_pos hlt, if_pos (Or.inl hlt)]; ring
      · rw [if_neg hlt, if_neg (by omega)]; ring

theorem granularity_bitLen {n k : Nat} (hk : BitLen n k) {g : Int} (hg : Granularity n g) :
    g = 2 ^ k := by
  obtain ⟨⟨j, rfl⟩, h2, h3⟩ := hg
  have hk' : (n : Int) < 2 ^ k := by exact_mod_cast hk.1
  have h4 := h3 k hk'
  rcases hk.2 with h0 | h0
  · subst h0
    have : (0 : Int) < 2 ^ j := by positivity
    omega
  · rcases lt_or_ge j k with h | h
    · exfalso
      have : (2 : Int) ^ (j + 1) ≤ 2 ^ k := pow_le_pow_right₀ (by decide) h
      have h0' : (2 : Int) ^ k ≤ 2 * n := by exact_mod_cast h0
      have h5 : (n : Int) < 2 ^ (k - 1) := by
        have : (2 : Int) ^ j ≤ 2 ^ (k - 1) := pow_le_pow_right₀ (by decide) (by omega)
        omega
      have h6 : (2 : Int) ^ k = 2 * 2 ^ (k - 1) := by
        conv => lhs; rw [show k = (k - 1) + 1 by omega, pow_succ]
        ring
      omega
    · exact le_antisymm h4 (pow_le_pow_right₀ (by decide) h)

theorem bitTruncate_rounds (hw2 : 2 ≤ w) {val err : BitVec w} {shifts : List Nat} {t : Nat}
    (hs : shifts = doubling 1 t) (hw : w ≤ 2 ^ t) (h0 : 0 ≤ err.toInt)
    (h1 : err.toInt < 2 ^ (w - 2)) {g r : Int} (hg : Granularity err.toInt g)
    (hr : RoundsTo g val.toInt r) :
    bitTruncate shifts val err = BitVec.ofInt w r := by
  have hmsb : err.msb = false := by
    rw [BitVec.msb_eq_toInt]; simpa using h0
  have hn : err.toInt = err.toNat := by
    rw [BitVec.toInt_eq_msb_cond, hmsb]; simp
  rw [hn] at hg h1
  obtain ⟨k, hk⟩ := bitLen_exists err.toNat
  have hgk := granularity_bitLen hk hg
  subst hgk
  have hkw : k + 2 ≤ w := by
    by_contra hc
    rcases hk.2 with h | h
    · omega
    · have h5 : (2 : Nat) ^ (w - 1) ≤ 2 ^ k := Nat.pow_le_pow_right (by decide) (by omega)
      have h6 : (2 : Nat) ^ (w - 1) = 2 * 2 ^ (w - 2) := by
        conv => lhs; rw [show w - 1 = (w - 2) + 1 by omega, Nat.pow_succ]
        ring
      have h1' : err.toNat < 2 ^ (w - 2) := by exact_mod_cast h1
      omega
  rw [bitTruncate_eq hmsb hs hw hk hkw]
  congr 1
  exact roundsTo_unique (by positivity) (roundInt_spec (by positivity) _) hr

theorem granularity_exists {e : Int} (he : 0 ≤ e) : ∃ g, Granularity e g := by
  obtain ⟨n, rfl⟩ := Int.eq_ofNat_of_zero_le he
  obtain ⟨k, hk⟩ := bitLen_exists n
  refine ⟨2 ^ k, ⟨k, rfl⟩, by exact_mod_cast hk.1, ?_⟩
  intro j hj
  have hj' : n < 2 ^ j := by exact_mod_cast hj
  rcases hk.2 with h0 | h0
  · subst h0; exact one_le_pow₀ (by decide)
  · by_contra hc
    have hlt : j < k := by
      by_contra hge
      exact hc (pow_le_pow_right₀ (by decide) (by omega))
    have h1 : (2 : Nat) ^ (j + 1) ≤ 2 ^ k := Nat.pow_le_pow_right (by decide) hlt
    have h5 : 2 ^ j ≤ 2 ^ (k - 1) := Nat.pow_le_pow_right (by decide) (by omega)
    have h6 : 2 ^ k = 2 * 2 ^ (k - 1) := by
      conv => lhs; rw [show k = (k - 1) + 1 by omega, Nat.pow_succ]
      ring
    omega

theorem granularity_le {e g : Int} (he : 0 < e) (hg : Granularity e g) : g ≤ 2 * e := by
  obtain ⟨⟨k, rfl⟩, h2, h3⟩ := hg
  rcases Nat.eq_zero_or_pos k with rfl | hk
  · simp; omega
  · by_contra hc
    have h6 : (2 : Int) ^ k = 2 * 2 ^ (k - 1) := by
      conv => lhs; rw [show k = (k - 1) + 1 by omega, pow_succ]
      ring
    have := h3 (k - 1) (by omega)
    have h7 : (0 : Int) < 2 ^ (k - 1) := by positivity
    omega

theorem granularity_zero {g : Int} (hg : Granularity 0 g) : g = 1 := by
  obtain ⟨⟨k, rfl⟩, h2, h3⟩ := hg
  have := h3 0 (by decide)
  have h4 : (0 : Int) < 2 ^ k := by positivity
  omega

theorem roundsTo_self {g r : Int} (hg : 0 < g) (h : g ∣ r) : RoundsTo g r r := by
  refine ⟨h, by simp; omega, ?_⟩
  intro h; simp at h; omega

theorem roundsTo_error {e g v r : Int} (he : 0 ≤ e) (hg : Granularity e g)
    (hr : RoundsTo g v r) : |r - v| ≤ e := by
  rcases eq_or_lt_of_le he with h | h
  · subst h
    have h1 := granularity_zero hg
    have h2 := hr.2.1
    have := abs_nonneg (r - v)
    omega
  · have := granularity_le h hg
    have := hr.2.1
    omega

theorem granularity_exp_le {e g : Int} {n : Nat} (h1 : e < 2 ^ n)
    (hg : Granularity e g) : ∃ k : Nat, g = 2 ^ k ∧ k ≤ n := by
  obtain ⟨⟨k, rfl⟩, _, h3⟩ := hg
  refine ⟨k, rfl, ?_⟩
  have := h3 n h1
  exact (pow_le_pow_iff_right₀ (by decide)).1 this

theorem dvd_toInt_ofInt {k : Nat} {r : Int} (h : (2 : Int) ^ k ∣ r) (hk : k ≤ w) :
    (2 : Int) ^ k ∣ (BitVec.ofInt w r).toInt := by
  rw [BitVec.toInt_ofInt]
  have h1 : ((2 ^ w : Nat) : Int) ∣ r - Int.bmod r (2 ^ w) := Int.dvd_self_sub_bmod
  have h2 : (2 : Int) ^ k ∣ ((2 ^ w : Nat) : Int) := by
    push_cast; exact pow_dvd_pow 2 hk
  have h3 := dvd_sub h (h2.trans h1)
  rwa [sub_sub_cancel] at h3

end Verif.Trunc
