import Verif.Quick.FloatRound
import Verif.Median.Double
import Mathlib.Tactic.NormNum
import Mathlib.Tactic.Positivity
import Mathlib.Tactic.FieldSimp

/-! # Helper lemmas for C19: doubles -/
namespace Verif.Quick
open Verif.Median (Item ilog2 roundEven roundDouble)

theorem ilog2_le (a : Rat) (h : 0 < a) : (2 : Rat) ^ ilog2 a ≤ a := by
  unfold ilog2
  simp only
  split
  · assumption
  · have hnum : 0 < a.num := Rat.num_pos.2 h
    have hn : a.num.toNat ≠ 0 := by omega
    have h1 : 2 ^ Nat.log2 a.num.toNat ≤ a.num.toNat := Nat.log2_self_le hn
    have h2 : a.den < 2 ^ (Nat.log2 a.den + 1) := Nat.lt_log2_self
    have hd : (0 : Rat) < a.den := by exact_mod_cast a.den_pos
    have e1 : ((2 : Rat) ^ Nat.log2 a.num.toNat) ≤ (a.num.toNat : Rat) := by exact_mod_cast h1
    have e2 : (a.den : Rat) ≤ (2 : Rat) ^ (Nat.log2 a.den + 1) := by exact_mod_cast h2.le
    have e3 : (a.num.toNat : Rat) = (a.num : Rat) := by
      have : ((a.num.toNat : Int) : Rat) = (a.num : Rat) := by rw [Int.toNat_of_nonneg hnum.le]
      exact_mod_cast this
    have hp : (2 : Rat) ^ ((Nat.log2 a.num.toNat : Int) - (Nat.log2 a.den : Int) - 1) =
        2 ^ Nat.log2 a.num.toNat / 2 ^ (Nat.log2 a.den + 1) := by
      rw [show ((Nat.log2 a.num.toNat : Int) - (Nat.log2 a.den : Int) - 1) =
        (Nat.log2 a.num.toNat : Int) - ((Nat.log2 a.den + 1 : Nat) : Int) by push_cast; ring]
      rw [zpow_sub₀ (by norm_num), zpow_natCast, zpow_natCast]
    rw [hp, div_le_iff₀ (by positivity)]
    have ha : a = a.num / a.den := (Rat.num_div_den a).symm
    have hda : a * a.den = a.num := by
      rw [eq_comm, ← div_eq_iff (ne_of_gt hd)]; exact ha.symm
    calc (2 : Rat) ^ Nat.log2 a.num.toNat ≤ a.num := by rw [← e3]; exact e1
      _ = a * a.den := hda.symm
      _ ≤ a * 2 ^ (Nat.log2 a.den + 1) := mul_le_mul_of_nonneg_left e2 h.le

theorem roundEven_near (m : Rat) : |(roundEven m : Rat) - m| ≤ 1 / 2 := by
  have h1 : ((m.floor : Int) : Rat) ≤ m := Int.floor_le m
  have h2 : m < (m.floor : Int) + 1 := Int.lt_floor_add_one m
  unfold roundEven
  simp only
  split
  · exact abs_le.2 ⟨by linarith, by linarith⟩
  · split
    · push_cast
      exact abs_le.2 ⟨by linarith, by linarith⟩
    · split
      · exact abs_le.2 ⟨by linarith, by linarith⟩
      · push_cast
        exact abs_le.2 ⟨by linarith, by linarith⟩

theorem roundEven_ge (m : Rat) (h : 1 ≤ m) : 1 ≤ roundEven m := by
  have h1 : 1 ≤ m.floor := by
    have : (1 : Int) ≤ ⌊m⌋ := Int.le_floor.2 (by exact_mod_cast h)
    exact this
  unfold roundEven
  simp only
  split
  · exact h1
  · split
    · omega
    · split <;> omega

theorem ulp_le (a : Rat) (h : 0 < a) :
    (2 : Rat) ^ (max (ilog2 a - 52) (-1074)) / 2 ≤ a / 2 ^ 53 + 1 / 2 ^ 1075 := by
  have hl := ilog2_le a h
  rcases max_cases (ilog2 a - 52) (-1074) with ⟨e, _⟩ | ⟨e, _⟩
  · rw [e, zpow_sub₀ (by norm_num)]
    have : (2 : Rat) ^ (52 : Int) = 2 ^ 52 := by norm_cast
    rw [this]
    have h2 : (0 : Rat) ≤ 1 / 2 ^ 1075 := by positivity
    have h3 : (2 : Rat) ^ ilog2 a / 2 ^ 52 / 2 = 2 ^ ilog2 a / 2 ^ 53 := by
      rw [div_div, ← pow_succ]
    rw [h3]
    have : (2 : Rat) ^ ilog2 a / 2 ^ 53 ≤ a / 2 ^ 53 := div_le_div_of_nonneg_right hl (by positivity)
    linarith
  · rw [e]
    have h3 : (2 : Rat) ^ (-1074 : Int) / 2 = 1 / 2 ^ 1075 := by
      rw [zpow_neg, zpow_ofNat, pow_succ 2 1074]
      rw [one_div, mul_inv]
      rfl
    rw [h3]
    have : 0 ≤ a / 2 ^ 53 := by positivity
    linarith

theorem roundPos_near (a : Rat) (h : 0 < a) :
    |(roundEven (a / 2 ^ (max (ilog2 a - 52) (-1074))) : Rat) * 2 ^ (max (ilog2 a - 52) (-1074)) - a| ≤
      a / 2 ^ 53 + 1 / 2 ^ 1075 := by
  have hu : (0 : Rat) < 2 ^ (max (ilog2 a - 52) (-1074)) := zpow_pos (by norm_num) _
  refine le_trans ?_ (ulp_le a h)
  generalize (2 : Rat) ^ (max (ilog2 a - 52) (-1074)) = u at *
  have hr := roundEven_near (a / u)
  have : (roundEven (a / u) : Rat) * u - a = ((roundEven (a / u) : Rat) - a / u) * u := by
    field_simp
  rw [this, abs_mul, abs_of_pos hu]
  calc |(roundEven (a / u) : Rat) - a / u| * u ≤ 1 / 2 * u := mul_le_mul_of_nonneg_right hr hu.le
    _ = u / 2 := by ring

/-- Rounding to double is off by at most one part in 2^53, or half of the smallest number. -/
theorem roundDouble_near (q : Rat) : |roundDouble q - q| ≤ |q| / 2 ^ 53 + 1 / 2 ^ 1075 := by
  unfold roundDouble
  split
  · rename_i h
    subst h
    simp
  · rename_i h0
    simp only
    by_cases hneg : q < 0
    · rw [if_pos hneg, if_pos hneg, abs_of_neg hneg]
      have := roundPos_near (-q) (by linarith)
      rw [← abs_neg]
      convert this using 2
      ring
    · have hpos : 0 < q := lt_of_le_of_ne (not_lt.1 hneg) (Ne.symm h0)
      rw [if_neg hneg, if_neg hneg, abs_of_pos hpos]
      exact roundPos_near q hpos

theorem roundDouble_pos (q : Rat) (h : 1 / 2 ^ 1074 ≤ q) : 1 / 2 ^ 1074 ≤ roundDouble q := by
  have h0 : (0 : Rat) < 1 / 2 ^ 1074 := by positivity
  have hq : 0 < q := lt_of_lt_of_le h0 h
  have hz : (2 : Rat) ^ (-1074 : Int) = 1 / 2 ^ 1074 := by
    rw [zpow_neg, zpow_ofNat, one_div]
  unfold roundDouble
  rw [if_neg (ne_of_gt hq)]
  simp only
  rw [if_neg (not_lt.2 hq.le), if_neg (not_lt.2 hq.le)]
  have hl := ilog2_le q hq
  have hu1 : (2 : Rat) ^ (max (ilog2 q - 52) (-1074)) ≤ q := by
    rcases max_cases (ilog2 q - 52) (-1074) with ⟨e, _⟩ | ⟨e, _⟩
    · rw [e]
      exact le_trans (zpow_le_zpow_right₀ (by norm_num) (by omega)) hl
    · rw [e, hz]; exact h
  have hu2 : 1 / 2 ^ 1074 ≤ (2 : Rat) ^ (max (ilog2 q - 52) (-1074)) := by
    rw [← hz]
    exact zpow_le_zpow_right₀ (by norm_num) (le_max_right _ _)
  generalize (2 : Rat) ^ (max (ilog2 q - 52) (-1074)) = u at *
  have hu : 0 < u := lt_of_lt_of_le h0 hu2
  have hr : 1 ≤ roundEven (q / u) := roundEven_ge _ ((le_div_iff₀ hu).2 (by linarith))
  have hr' : (1 : Rat) ≤ (roundEven (q / u) : Rat) := by exact_mod_cast hr
  nlinarith

/-- Arithmetic of doubles that do not overflow; the mean is left open. -/
def doubleArith (mean : Rat → Rat → Rat) : Arith where
  add x y := roundDouble (x + y)
  sub x y := roundDouble (x - y)
  mul x y := roundDouble (x * y)
  mean := mean

theorem double_rounds (mean : Rat → Rat → Rat) (R : Rat) :
    Rounds (doubleArith mean) R (R / 2 ^ 53 + 1 / 2 ^ 1075) := by
  have key : ∀ q : Rat, |q| ≤ R → |roundDouble q - q| ≤ R / 2 ^ 53 + 1 / 2 ^ 1075 := by
    intro q hq
    refine le_trans (roundDouble_near q) ?_
    have : |q| / 2 ^ 53 ≤ R / 2 ^ 53 := div_le_div_of_nonneg_right hq (by positivity)
    linarith
  exact ⟨fun x y h => key _ h, fun x y h => key _ h, fun x y h => key _ h⟩

end Verif.Quick
