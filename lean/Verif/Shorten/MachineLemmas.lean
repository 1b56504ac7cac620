import Verif.Shorten.Lemmas
import Verif.Trunc.FloatProps
import Verif.Trunc.ArrProps
import Mathlib.Tactic.Positivity

/-!
# Lemmas for the truncation of single numbers
-/
namespace Verif.Shorten
open Verif.Trunc Verif.Trunc.Fmt

/-- C13 for both types: the kernel applied to bits of `v` gives a number close to it. -/
theorem through_close (F : Fmt) (f : BitVec F.w → Option (BitVec F.w)) (v e : ℚ) (hv : ∃ b, F.decode b = .fin v)
    (hf : ∀ b, F.decode b = .fin v → ∃ b' r, f b = some b' ∧ F.decode b' = .fin r ∧ |r - v| ≤ e) : |through F f v - v| ≤ e := by
  unfold through
  rw [dif_pos hv]
  obtain ⟨b', r, h1, h2, h3⟩ := hf hv.choose hv.choose_spec
  rw [h1]
  simp only [(finite_iff (F := F)).2 h2, Option.getD_some]
  exact h3

theorem close_at (k : Kind) (v tol e : ℚ) (hR : Room k v e) (h0 : 0 ≤ tol) (he : tol ≤ e) :
    match k with
    | .f32 => ∀ b, f32.decode b = .fin v → ∃ r, f32.decode (f32.bitTruncateFloat b tol) = .fin r ∧ |r - v| ≤ tol
    | .f64 => ∀ b, f64.decode b = .fin v → ∃ r, f64.decode (f64.bitTruncateFloat b tol) = .fin r ∧ |r - v| ≤ tol
    | .other => False := by
  obtain ⟨hh, hs, ht⟩ := hR
  cases k with
  | f32 =>
    intro b hb
    obtain ⟨r, h1, h2, -⟩ := Verif.Trunc.C13_float_partial b v tol hb h0 (lt_of_le_of_lt (by linarith) ht) hs
    exact ⟨r, h1, h2⟩
  | f64 =>
    intro b hb
    obtain ⟨r, h1, h2, -⟩ := Verif.Trunc.C13_double_partial b v tol hb h0 (lt_of_le_of_lt (by linarith) ht) hs
    exact ⟨r, h1, h2⟩
  | other => exact hh

theorem machine_rel (A : Arith) (k : Kind) (p v e : ℚ) (hR : Room k v e) (he : |A.rnd k (p * v)| ≤ e) :
    |(machine A).rel k p v - v| ≤ |A.rnd k (p * v)| := by
  have hc := close_at k v _ e hR (abs_nonneg (A.rnd k (p * v))) he
  cases k with
  | f32 =>
    have hh : ∃ b, f32.decode b = .fin v := hR.1
    have hm : (machine A).rel .f32 p v = through f32 (f32.relElem (A.rnd .f32) p) v := by simp only [machine]
    rw [hm]
    refine through_close f32 (f32.relElem (A.rnd .f32) p) v _ hh fun b hb => ?_
    obtain ⟨r, h1, h2⟩ := hc b hb
    exact ⟨_, r, by unfold Fmt.relElem; rw [(finite_iff (F := f32)).2 hb]; rfl, h1, h2⟩
  | f64 =>
    have hh : ∃ b, f64.decode b = .fin v := hR.1
    have hm : (machine A).rel .f64 p v = through f64 (f64.relElem (A.rnd .f64) p) v := by simp only [machine]
    rw [hm]
    refine through_close f64 (f64.relElem (A.rnd .f64) p) v _ hh fun b hb => ?_
    obtain ⟨r, h1, h2⟩ := hc b hb
    exact ⟨_, r, by unfold Fmt.relElem; rw [(finite_iff (F := f64)).2 hb]; rfl, h1, h2⟩
  | other => exact hc.elim

theorem machine_wt (A : Arith) (k : Kind) (p w inc v e : ℚ) (hR : Room k v e)
    (h0 : 0 ≤ weightTol (A.rnd k) (A.isq k) p v (A.rnd k (w / inc)))
    (he : weightTol (A.rnd k) (A.isq k) p v (A.rnd k (w / inc)) ≤ e) :
    |(machine A).wt k p w inc v - v| ≤ weightTol (A.rnd k) (A.isq k) p v (A.rnd k (w / inc)) := by
  have hc := close_at k v _ e hR h0 he
  cases k with
  | f32 =>
    have hh : ∃ b, f32.decode b = .fin v := hR.1
    have hm : (machine A).wt .f32 p w inc v =
        through f32 (fun b => f32.weightElem (A.rnd .f32) (A.isq .f32) p b (A.rnd .f32 (w / inc))) v := by simp only [machine]
    rw [hm]
    refine through_close f32 (fun b => f32.weightElem (A.rnd .f32) (A.isq .f32) p b (A.rnd .f32 (w / inc))) v _ hh fun b hb => ?_
    obtain ⟨r, h1, h2⟩ := hc b hb
    exact ⟨_, r, by unfold Fmt.weightElem; rw [(finite_iff (F := f32)).2 hb]; rfl, h1, h2⟩
  | f64 =>
    have hh : ∃ b, f64.decode b = .fin v := hR.1
    have hm : (machine A).wt .f64 p w inc v =
        through f64 (fun b => f64.weightElem (A.rnd .f64) (A.isq .f64) p b (A.rnd .f64 (w / inc))) v := by simp only [machine]
    rw [hm]
    refine through_close f64 (fun b => f64.weightElem (A.rnd .f64) (A.isq .f64) p b (A.rnd .f64 (w / inc))) v _ hh fun b hb => ?_
    obtain ⟨r, h1, h2⟩ := hc b hb
    exact ⟨_, r, by unfold Fmt.weightElem; rw [(finite_iff (F := f64)).2 hb]; rfl, h1, h2⟩
  | other => exact hc.elim

theorem tiny_pos (k : Kind) : 0 < tiny k := by
  cases k <;> (unfold tiny; positivity)

theorem machine_fixed (A : Arith) (δ : ℚ) (hA : A.Close δ) (k : Kind) (p v : ℚ) (hp : 0 ≤ p) :
    WithinFixed k δ p ((machine A).rel k p v) v := by
  intro hR
  have h1 : |A.rnd k (p * v)| ≤ (1 + δ) * (p * |v|) := by
    have := hA.above k (p * v)
    rwa [abs_mul, abs_of_nonneg hp] at this
  exact le_trans (machine_rel A k p v _ hR h1) h1

theorem machine_variance (A : Arith) (δ : ℚ) (hA : A.Close δ) (k : Kind) (p inc w v : ℚ) (hp : 0 ≤ p) (hinc : 0 < inc) :
    WithinVariance k δ p inc w ((machine A).wt k p w (inc * 3) v) v := by
  have hs := hA.small
  refine ⟨fun hw ht ht' ⟨e, he, hee, hR⟩ => ?_, fun hz hv hR => ?_⟩
  · have hx := hA.below k _ ht ht'
    have hx0 : 0 < w / (inc * 3) := lt_of_lt_of_le (tiny_pos k) ht
    have hq : 0 < A.rnd k (w / (inc * 3)) := by
      by_contra hn
      have : (1 + δ) * A.rnd k (w / (inc * 3)) ≤ 0 := mul_nonpos_of_nonneg_of_nonpos (by linarith) (not_lt.1 hn)
      linarith
    have htol : weightTol (A.rnd k) (A.isq k) p v (A.rnd k (w / (inc * 3))) = A.isq k (A.rnd k (w / (inc * 3))) := by
      unfold weightTol
      rw [if_pos (ne_of_gt hq)]
    obtain ⟨hi0, hi⟩ := hA.isq k _ hq
    have hm := machine_wt A k p w (inc * 3) v e hR
    rw [htol] at hm
    generalize A.rnd k (w / (inc * 3)) = q at *
    generalize A.isq k q = s at *
    have hsw : s ^ 2 * w ≤ 3 * inc * (1 + δ) ^ 3 := by
      have e1 : w = w / (inc * 3) * (inc * 3) := by field_simp
      have h1 : s ^ 2 * (w / (inc * 3)) ≤ (1 + δ) ^ 3 := by
        have h2 : s ^ 2 * (w / (inc * 3)) ≤ s ^ 2 * ((1 + δ) * q) := mul_le_mul_of_nonneg_left hx (sq_nonneg s)
        have h3 : (1 + δ) * (s ^ 2 * q) ≤ (1 + δ) * (1 + δ) ^ 2 := mul_le_mul_of_nonneg_left hi (by linarith)
        calc _ ≤ _ := h2
          _ = (1 + δ) * (s ^ 2 * q) := by ring
          _ ≤ _ := h3
          _ = _ := by ring
      calc s ^ 2 * w = s ^ 2 * (w / (inc * 3)) * (inc * 3) := by rw [mul_assoc, ← e1]
        _ ≤ (1 + δ) ^ 3 * (inc * 3) := mul_le_mul_of_nonneg_right h1 (by linarith)
        _ = _ := by ring
    have hse : s ≤ e := by
      by_contra hn
      have hlt : e ^ 2 < s ^ 2 := pow_lt_pow_left₀ (not_le.1 hn) he (by norm_num)
      have := mul_lt_mul_of_pos_right hlt hw
      linarith
    have hms := hm hi0 hse
    refine le_trans (mul_le_mul_of_nonneg_right ?_ hw.le) hsw
    rw [← sq_abs]
    exact pow_le_pow_left₀ (abs_nonneg _) hms 2
  · have hq : A.rnd k (w / (inc * 3)) = 0 := by
      have := hA.above k (w / (inc * 3))
      rw [hz, zero_div, abs_zero, mul_zero] at this
      rw [hz, zero_div]
      exact abs_eq_zero.1 (le_antisymm this (abs_nonneg _))
    have htol : weightTol (A.rnd k) (A.isq k) p v (A.rnd k (w / (inc * 3))) = A.rnd k (p * v) := by
      unfold weightTol
      rw [hq, if_neg (by simp)]
    have hpv : 0 ≤ p * v := mul_nonneg hp hv
    have h1 : A.rnd k (p * v) ≤ (1 + δ) * (p * v) := by
      have := hA.above k (p * v)
      rw [abs_of_nonneg hpv] at this
      exact le_trans (le_abs_self _) this
    have hm := machine_wt A k p w (inc * 3) v _ hR
    rw [htol] at hm
    exact le_trans (hm (hA.sign k _ hpv) h1) h1

end Verif.Shorten
