import Verif.Stellar.Spec
import Mathlib.Tactic.Ring
import Mathlib.Tactic.FieldSimp
import Mathlib.Tactic.Linarith
import Mathlib.Tactic.NormNum

/-!
# Lemmas on stellar angles and days
-/
namespace Verif.Stellar

theorem pmod_eq (x m : ℚ) (hm : 0 < m) : pmod x m = m * Int.fract (x / m) := by
  unfold pmod
  rw [← Int.self_sub_floor, mul_sub, mul_div_cancel₀ _ (ne_of_gt hm)]

theorem rint_near (x : ℚ) (n : ℤ) (h : |x - n| < 1 / 2) : rint x = n := by
  rw [abs_lt] at h
  have h1 := Int.floor_le x
  have h2 := Int.lt_floor_add_one x
  unfold rint
  by_cases hn : (n : ℚ) ≤ x
  · have hf : ⌊x⌋ = n := Int.floor_eq_iff.2 ⟨hn, by linarith⟩
    rw [hf, if_pos (by linarith)]
  · have hf : ⌊x⌋ = n - 1 := Int.floor_eq_iff.2 ⟨by push_cast; linarith, by push_cast; linarith⟩
    rw [hf, if_neg (by push_cast; linarith), if_pos (by push_cast; linarith)]
    omega

theorem rint_int (n : ℤ) : rint n = n := rint_near n n (by simp)

theorem stellarDay_pos : 0 < stellarDay := by norm_num [stellarDay, stellarSecond, ut1Second]

theorem lsa_eq (k : Sky) (o : Obs) (t : ℚ) : unixToLsa k o t = 360 * Int.fract (passed k o t) := by
  unfold unixToLsa unixToEra passed
  rw [pmod_eq _ _ (by norm_num)]
  congr 1
  have : (360 * Int.fract (k.turns (k.tt t)) + o.longitude) / 360 = k.turns (k.tt t) + o.longitude / 360 - ⌊k.turns (k.tt t)⌋ := by
    rw [← Int.self_sub_floor]
    ring
  rw [this, Int.fract_sub_intCast]

theorem fract_of (a b : ℚ) (n : ℤ) (h : a = b + n) : Int.fract a = Int.fract b := by
  rw [h, Int.fract_add_intCast]

variable {k : Sky} {leap : ℚ → ℤ} {c : ℚ}

theorem leaps_eq (hs : Steady k leap c) (a b : ℚ) : leapSecondsBetween k a b = .ok (leap b - leap a) := by
  unfold leapSecondsBetween
  have e : k.tt b - k.tt a - (b - a) = ((leap b - leap a : ℤ) : ℚ) := by
    rw [hs.tt, hs.tt]
    push_cast
    ring
  simp only [e, rint_int, sub_self, abs_zero]
  rw [if_neg (by norm_num)]

theorem passed_eq (hs : Steady k leap c) (o : Obs) (t : ℚ) :
    passed k o t = c + (t + leap t) / stellarDay + o.longitude / 360 := by
  unfold passed
  rw [hs.turns, hs.tt]

theorem passed_sub (hs : Steady k leap c) (o : Obs) (a b : ℚ) :
    (passed k o b - passed k o a) * stellarDay = b - a + (leap b - leap a) := by
  rw [passed_eq hs, passed_eq hs]
  have := ne_of_gt stellarDay_pos
  field_simp
  ring

theorem passed_lt (hs : Steady k leap c) (o : Obs) (a b : ℚ) (h : a < b) : passed k o a < passed k o b := by
  have h1 := passed_sub hs o a b
  have h2 := hs.mono a b h.le
  have h3 : (leap a : ℚ) ≤ leap b := by exact_mod_cast h2
  have hd := stellarDay_pos
  by_contra hc
  have : (passed k o b - passed k o a) * stellarDay ≤ 0 := mul_nonpos_of_nonpos_of_nonneg (by linarith) hd.le
  linarith

theorem stellarDay_le : stellarDay ≤ 86400 := by norm_num [stellarDay, stellarSecond, ut1Second]

/-- The main fact: the next time at which the angle is `a`. -/
theorem lsaToUnix_next (hs : Steady k leap c) (o : Obs) (a t0 t : ℚ) (h : Next k o a t0 t) : lsaToUnix k o a t0 = .ok t := by
  obtain ⟨h1, h2, n, h3⟩ := h
  have hd := stellarDay_pos
  have hle : passed k o t0 ≤ passed k o t := by
    rcases h1.lt_or_eq with h1 | h1
    · exact (passed_lt hs o _ _ h1).le
    · rw [h1]
  have hsub := passed_sub hs o t0 t
  have hm := hs.mono t0 t h1
  have hmq : (leap t0 : ℚ) ≤ leap t := by exact_mod_cast hm
  -- the angle to go
  have hdeg : pmod (pmod (a - o.longitude) 360 - unixToEra k t0) 360 = 360 * (passed k o t - passed k o t0) := by
    rw [pmod_eq _ _ (by norm_num), pmod_eq _ _ (by norm_num)]
    congr 1
    unfold unixToEra
    have e : (360 * Int.fract ((a - o.longitude) / 360) - 360 * Int.fract (k.turns (k.tt t0))) / 360 =
        passed k o t - passed k o t0 + ((⌊k.turns (k.tt t0)⌋ - ⌊(a - o.longitude) / 360⌋ - n : ℤ) : ℚ) := by
      rw [h3, ← Int.self_sub_floor, ← Int.self_sub_floor, passed]
      push_cast
      ring
    rw [e, Int.fract_add_intCast, Int.fract_eq_self]
    exact ⟨by linarith, by linarith⟩
  have htime : 360 * (passed k o t - passed k o t0) * 240 * stellarSecond = t - t0 + (leap t - leap t0) := by
    rw [← hsub, stellarDay]
    ring
  have hlt : t - t0 + ((leap t : ℚ) - leap t0) < 86400 := by
    rw [← hsub]
    have h4 : (passed k o t - passed k o t0) * stellarDay < 1 * stellarDay := mul_lt_mul_of_pos_right (by linarith) hd
    have := stellarDay_le
    linarith
  have hsame : leap (t0 + (t - t0 + ((leap t : ℚ) - leap t0))) = leap t := by
    apply le_antisymm
    · rcases hm.lt_or_eq with hlt' | heq
      · have := hs.seldom t0 (t0 + (t - t0 + ((leap t : ℚ) - leap t0))) (by linarith)
        omega
      · have e : t0 + (t - t0 + ((leap t : ℚ) - leap t0)) = t := by
          rw [heq]
          ring
        rw [e]
    · exact hs.mono _ _ (by linarith)
  unfold lsaToUnix eraToUnix
  simp only [hdeg, htime, leaps_eq hs, hsame]
  congr 1
  push_cast
  ring

end Verif.Stellar
