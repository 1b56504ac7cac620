import Verif.Invert.Model
import Mathlib.Tactic.Ring
import Mathlib.Tactic.Linarith
import Mathlib.Tactic.NormNum
import Mathlib.Tactic.FieldSimp
import Mathlib.Tactic.Positivity

/-! # Rounding to nearest -/
namespace Verif.Invert

/-- `x` can be written in the format, with as large an exponent as needed. -/
def Fmt.Rep (f : Fmt) (x : ℚ) : Prop := ∃ (m e : ℤ), x = m * 2 ^ e ∧ |m| < 2 ^ f.p ∧ f.emin ≤ e

/-- `x` is a finite number of the format. -/
def Fmt.Is (f : Fmt) (x : ℚ) : Prop := f.Rep x ∧ |x| ≤ f.max

theorem roundEven_cases (m : ℚ) :
    (roundEven m = ⌊m⌋ ∧ m - ⌊m⌋ ≤ 1 / 2) ∨ (roundEven m = ⌊m⌋ + 1 ∧ 1 / 2 ≤ m - ⌊m⌋) := by
  unfold roundEven
  split
  · left; exact ⟨rfl, by linarith⟩
  · split
    · right; exact ⟨rfl, by linarith⟩
    · split
      · left; exact ⟨rfl, by linarith⟩
      · right; exact ⟨rfl, by linarith⟩

theorem roundEven_nearest (m : ℚ) (k : ℤ) : |(roundEven m : ℚ) - m| ≤ |(k : ℚ) - m| := by
  have h1 := Int.floor_le m
  have h2 := Int.lt_floor_add_one m
  rcases roundEven_cases m with ⟨h, hh⟩ | ⟨h, hh⟩
  · rw [h, abs_of_nonpos (by linarith)]
    by_cases hk : k ≤ ⌊m⌋
    · have : (k : ℚ) ≤ ⌊m⌋ := by exact_mod_cast hk
      rw [abs_of_nonpos (by linarith)]
      linarith
    · have : (⌊m⌋ : ℚ) + 1 ≤ k := by exact_mod_cast (by omega : ⌊m⌋ + 1 ≤ k)
      rw [abs_of_nonneg (by linarith)]
      linarith
  · rw [h]
    push_cast
    rw [abs_of_nonneg (by linarith)]
    by_cases hk : k ≤ ⌊m⌋
    · have : (k : ℚ) ≤ ⌊m⌋ := by exact_mod_cast hk
      rw [abs_of_nonpos (by linarith)]
      linarith
    · have : (⌊m⌋ : ℚ) + 1 ≤ k := by exact_mod_cast (by omega : ⌊m⌋ + 1 ≤ k)
      rw [abs_of_nonneg (by linarith)]
      linarith

theorem pow2_pos (e : ℤ) : (0 : ℚ) < 2 ^ e := zpow_pos (by norm_num) e

theorem pow2_le {a b : ℤ} (h : a ≤ b) : (2 : ℚ) ^ a ≤ 2 ^ b := zpow_le_zpow_right₀ (by norm_num) h

/-- Multiples. -/
theorem pow2_mul (e E : ℤ) (h : E ≤ e) : (2 : ℚ) ^ e = ((2 ^ (e - E).toNat : ℤ) : ℚ) * 2 ^ E := by
  push_cast
  rw [← zpow_natCast, ← zpow_add₀ (by norm_num)]
  congr 1
  omega

theorem log_bounds (q : ℚ) (h : q ≠ 0) :
    (2 : ℚ) ^ Int.log 2 |q| ≤ |q| ∧ |q| < (2 : ℚ) ^ (Int.log 2 |q| + 1) := by
  have hp : 0 < |q| := abs_pos.2 h
  constructor
  · have := Int.zpow_log_le_self (R := ℚ) (b := 2) (by norm_num) hp
    simpa using this
  · have := Int.lt_zpow_succ_log_self (R := ℚ) (b := 2) (by norm_num) |q|
    simpa using this

/-- The rounded number is in the format. -/
theorem Fmt.round_rep (f : Fmt) (hp : 1 ≤ f.p) (q : ℚ) : f.Rep (f.round q) := by
  unfold Fmt.round
  split
  · exact ⟨0, f.emin, by simp, by positivity, le_refl _⟩
  · rename_i hq
    obtain ⟨h1, h2⟩ := log_bounds q hq
    set L := Int.log 2 |q| with hL
    set E := f.unit q with hE
    have hEe : f.emin ≤ E := le_max_right _ _
    have hEL : L - (f.p - 1) ≤ E := le_max_left _ _
    have hu := pow2_pos E
    have hbound : |q / 2 ^ E| < 2 ^ f.p := by
      rw [abs_div, abs_of_pos hu, div_lt_iff₀ hu]
      refine lt_of_lt_of_le h2 ?_
      rw [← zpow_natCast, ← zpow_add₀ (by norm_num)]
      exact pow2_le (by omega)
    have hr : |roundEven (q / 2 ^ E)| ≤ 2 ^ f.p := by
      obtain ⟨hb1, hb2⟩ := abs_lt.1 hbound
      have hf1 : -(2 ^ f.p : ℤ) ≤ ⌊q / 2 ^ E⌋ := by
        rw [Int.le_floor]
        push_cast
        linarith
      have hf2 : ⌊q / 2 ^ E⌋ < (2 ^ f.p : ℤ) := by
        rw [Int.floor_lt]
        push_cast
        linarith
      rw [abs_le]
      rcases roundEven_cases (q / 2 ^ E) with ⟨h, _⟩ | ⟨h, _⟩ <;> rw [h] <;> constructor <;> omega
    by_cases hlt : |roundEven (q / 2 ^ E)| < 2 ^ f.p
    · exact ⟨_, E, rfl, hlt, hEe⟩
    · have he : |roundEven (q / 2 ^ E)| = 2 ^ f.p := le_antisymm hr (not_lt.1 hlt)
      have h1p : (1 : ℤ) < 2 ^ f.p := by
        calc (1 : ℤ) < 2 ^ 1 := by norm_num
          _ ≤ 2 ^ f.p := pow_le_pow_right₀ (by norm_num) hp
      rcases abs_eq (by positivity) |>.1 he with h | h
      · refine ⟨1, E + f.p, ?_, by simpa using h1p, by omega⟩
        rw [h, zpow_add₀ (by norm_num), zpow_natCast]
        push_cast
        ring
      · refine ⟨-1, E + f.p, ?_, by simpa using h1p, by omega⟩
        rw [h, zpow_add₀ (by norm_num), zpow_natCast]
        push_cast
        ring

/-- No number of the format is nearer than the rounded one. -/
theorem Fmt.round_nearest (f : Fmt) (q d : ℚ) (hd : f.Rep d) : |f.round q - q| ≤ |d - q| := by
  unfold Fmt.round
  split
  · rename_i hq
    subst hq
    simp
  · rename_i hq
    obtain ⟨h1, h2⟩ := log_bounds q hq
    set L := Int.log 2 |q| with hL
    set E := f.unit q with hE
    have hu := pow2_pos E
    have key : ∀ k : ℤ, |(roundEven (q / 2 ^ E) : ℚ) * 2 ^ E - q| ≤ |(k : ℚ) * 2 ^ E - q| := by
      intro k
      have := mul_le_mul_of_nonneg_right (roundEven_nearest (q / 2 ^ E) k) hu.le
      have e1 : ∀ z : ℚ, |z - q / 2 ^ E| * 2 ^ E = |z * 2 ^ E - q| := by
        intro z
        conv_lhs => rw [← abs_of_pos hu, ← abs_mul, abs_of_pos hu]
        congr 1
        field_simp
      rwa [e1, e1] at this
    obtain ⟨m, e, rfl, hm, he⟩ := hd
    by_cases hEe : E ≤ e
    · rw [pow2_mul e E hEe]
      have := key (m * 2 ^ (e - E).toNat)
      push_cast at this ⊢
      rwa [mul_assoc] at this
    · have hEL : E = L - (f.p - 1) := by
        have : E = Max.max (L - (f.p - 1)) f.emin := rfl
        rcases max_choice (L - ((f.p : ℤ) - 1)) f.emin with h | h
        · rw [this, h]
        · rw [this, h] at hEe; omega
      have hdlt : |(m : ℚ) * 2 ^ e| ≤ 2 ^ L := by
        rw [abs_mul, abs_of_pos (pow2_pos e)]
        have hm' : |(m : ℚ)| ≤ 2 ^ f.p := by exact_mod_cast hm.le
        calc |(m : ℚ)| * 2 ^ e ≤ 2 ^ f.p * 2 ^ e := mul_le_mul_of_nonneg_right hm' (pow2_pos e).le
          _ = 2 ^ ((f.p : ℤ) + e) := by rw [zpow_add₀ (by norm_num), zpow_natCast]
          _ ≤ 2 ^ L := pow2_le (by omega)
      by_cases hp0 : 1 ≤ f.p
      · have hmul := pow2_mul L E (by omega)
        rcases lt_or_gt_of_ne hq with hneg | hpos
        · have hk := key (-(2 ^ (L - E).toNat))
          push_cast at hk
          refine hk.trans ?_
          have hs : -(2 : ℚ) ^ (L - E).toNat * 2 ^ E = -2 ^ L := by rw [hmul]; push_cast; ring
          rw [hs]
          rw [abs_of_neg hneg] at h1
          have := abs_le.1 hdlt
          rw [abs_of_nonneg (by linarith), abs_of_nonneg (by linarith)]
          linarith
        · have hk := key (2 ^ (L - E).toNat)
          push_cast at hk
          refine hk.trans ?_
          have hs : (2 : ℚ) ^ (L - E).toNat * 2 ^ E = 2 ^ L := by rw [hmul]; push_cast; ring
          rw [hs]
          rw [abs_of_pos hpos] at h1
          have := abs_le.1 hdlt
          rw [abs_of_nonpos (by linarith), abs_of_nonpos (by linarith)]
          linarith
      · have hm0 : m = 0 := by
          have : f.p = 0 := by omega
          rw [this] at hm
          simpa using Int.abs_lt_one_iff.1 (by simpa using hm)
        have := key 0
        rw [hm0]
        simpa using this

theorem Fmt.max_nonneg (f : Fmt) : 0 ≤ f.max := by
  have : (1 : ℚ) ≤ 2 ^ f.p := one_le_pow₀ (by norm_num)
  have := pow2_pos f.emax
  unfold Fmt.max
  nlinarith

theorem Fmt.max_rep (f : Fmt) (h : f.emin ≤ f.emax) : f.Rep f.max ∧ f.Rep (-f.max) := by
  have h1 : (1 : ℤ) ≤ 2 ^ f.p := one_le_pow₀ (by norm_num)
  refine ⟨⟨2 ^ f.p - 1, f.emax, by simp [Fmt.max], ?_, h⟩, ⟨-(2 ^ f.p - 1), f.emax, ?_, ?_, h⟩⟩
  · rw [abs_of_nonneg (by omega)]; omega
  · simp only [Fmt.max]; push_cast; ring
  · rw [abs_neg, abs_of_nonneg (by omega)]; omega

/-- No overflow for a number in range. -/
theorem Fmt.round_le_max (f : Fmt) (he : f.emin ≤ f.emax) (q : ℚ) (hq : |q| ≤ f.max) : |f.round q| ≤ f.max := by
  obtain ⟨r1, r2⟩ := f.max_rep he
  have h1 := f.round_nearest q _ r1
  have h2 := f.round_nearest q _ r2
  have hq' := abs_le.1 hq
  rw [abs_of_nonneg (by linarith : 0 ≤ f.max - q)] at h1
  rw [abs_of_nonpos (by linarith : -f.max - q ≤ 0)] at h2
  rw [abs_le] at h1 h2 ⊢
  constructor <;> linarith

/-- Numbers of the format are multiples of the smallest one. -/
theorem Fmt.Rep.multiple {f : Fmt} {x : ℚ} (h : f.Rep x) : ∃ k : ℤ, x = k * 2 ^ f.emin := by
  obtain ⟨m, e, rfl, _, he⟩ := h
  exact ⟨m * 2 ^ (e - f.emin).toNat, by rw [pow2_mul e f.emin he]; push_cast; ring⟩

theorem Fmt.Rep.abs {f : Fmt} {x : ℚ} (h : f.Rep x) : f.Rep |x| := by
  obtain ⟨m, e, rfl, hm, he⟩ := h
  exact ⟨|m|, e, by rw [abs_mul, abs_of_pos (pow2_pos e)]; simp, by simpa using hm, he⟩

end Verif.Invert
