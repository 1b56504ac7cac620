import Verif.Bessel.CallLemmas

/-!
# Lemmas: the approximation for small arguments at order one
-/
namespace Verif.Bessel

open Real

theorem j_one_lower {j : ℕ → ℝ → ℝ} (hj : IsSphericalBessel j) {z : ℝ} (h0 : 0 < z) (h1 : z < 1 / 1000000) :
    0.333 * z ≤ j 1 z := by
  have hz : |z| = z := abs_of_pos h0
  have hs := sin_bound (x := z) (by rw [hz]; linarith)
  have hc := cos_bound (x := z) (by rw [hz]; linarith)
  rw [hz, abs_le] at hs hc
  rw [hj.one z h0.ne', show sin z / z ^ 2 - cos z / z = (sin z - z * cos z) / z ^ 2 by field_simp,
    le_div_iff₀ (by positivity)]
  have h2 : z * cos z ≤ z * (1 - z ^ 2 / 2 + z ^ 4 * (5 / 96)) := by
    apply mul_le_mul_of_nonneg_left _ h0.le; linarith [hc.2]
  have h3 : 0 ≤ z ^ 3 * (1 / 1000000 - z) := by
    have : 0 ≤ 1 / 1000000 - z := by linarith
    positivity
  have h4 : 0 ≤ z ^ 4 * (1 / 1000000 - z) := by
    have : 0 ≤ 1 / 1000000 - z := by linarith
    positivity
  have h5 : 0 < z ^ 3 := by positivity
  nlinarith [hs.1, h2, h3, h4, h5]

theorem lowz_one_upper {z : ℝ} (h0 : 0 < z) (h1 : z < 1 / 1000000) : lowz 1 z ≤ 0.29 * z := by
  obtain ⟨N, hN⟩ : ∃ N, N = √((3 / 2 : ℝ) * (3 / 2) - z * z) := ⟨_, rfl⟩
  have hpos : 0 ≤ (3 / 2 : ℝ) * (3 / 2) - z * z := by nlinarith
  have hN2 : N ^ 2 = 9 / 4 - z ^ 2 := by rw [hN, sq_sqrt hpos]; ring
  have hN0 : 0 ≤ N := hN ▸ sqrt_nonneg _
  have hNu : N ≤ 1.5 := by nlinarith
  have hNl : 1.4999 ≤ N := by nlinarith
  have hNp : 0 < N := by linarith
  -- the polynomial
  obtain ⟨F, hF⟩ : ∃ F, F = 1 + 1 / (8 * N) - 5 * (3 / 2 : ℝ) ^ 2 / (24 * N ^ 3) + 9 / (128 * N ^ 2)
      - 231 * (3 / 2 : ℝ) ^ 2 / (576 * N ^ 4) := ⟨_, rfl⟩
  have hF' : F = (N ^ 4 + N ^ 3 / 8 - 15 * N / 32 + 9 * N ^ 2 / 128 - 231 / 256) / N ^ 4 := by
    rw [hF]; field_simp; ring
  have p2u : N ^ 2 ≤ 2.25 := (pow_le_pow_left₀ hN0 hNu 2).trans (by norm_num)
  have p2l : 2.2497 ≤ N ^ 2 := le_trans (by norm_num) (pow_le_pow_left₀ (by norm_num) hNl 2)
  have p3u : N ^ 3 ≤ 3.375 := (pow_le_pow_left₀ hN0 hNu 3).trans (by norm_num)
  have p3l : 3.3743 ≤ N ^ 3 := le_trans (by norm_num) (pow_le_pow_left₀ (by norm_num) hNl 3)
  have p4u : N ^ 4 ≤ 5.0625 := (pow_le_pow_left₀ hN0 hNu 4).trans (by norm_num)
  have p4l : 5.061 ≤ N ^ 4 := le_trans (by norm_num) (pow_le_pow_left₀ (by norm_num) hNl 4)
  have hFu : F ≤ 0.8 := by
    rw [hF', div_le_iff₀ (by positivity)]; linarith
  have hF0 : 0 ≤ F := by
    rw [hF']; apply div_nonneg _ (by positivity); linarith
  -- the exponential
  have hx1 : 1 ≤ (3 / 2 : ℝ) / z := by rw [le_div_iff₀ h0]; linarith
  have hY : exp (arcosh (3 / 2 / z)) = (3 / 2 + N) / z := by
    rw [exp_arcosh hx1]
    have : √((3 / 2 / z) ^ 2 - 1) = N / z := by
      have e : (3 / 2 / z) ^ 2 - 1 = (N / z) ^ 2 := by
        rw [div_pow N, hN2]; field_simp; ring
      rw [e, sqrt_sq (by positivity)]
    rw [this]; ring
  have hval : lowz 1 z = exp (N - 3 / 2 * arcosh (3 / 2 / z)) * F / (2 * √(z * N)) := by
    unfold lowz
    rw [show (((1 : ℕ) : ℝ) + 0.5) = 3 / 2 by norm_num]
    simp only [← hN, hF]
  have hexp : exp (N - 3 / 2 * arcosh (3 / 2 / z)) ^ 2 = exp (2 * N) * z ^ 3 / (3 / 2 + N) ^ 3 := by
    rw [← exp_nat_mul, show ((2 : ℕ) : ℝ) * (N - 3 / 2 * arcosh (3 / 2 / z)) =
      2 * N - ((3 : ℕ) : ℝ) * arcosh (3 / 2 / z) by push_cast; ring, exp_sub, exp_nat_mul, hY]
    field_simp
  have hsq : lowz 1 z ^ 2 = z ^ 2 * (exp (2 * N) * F ^ 2 / (4 * N * (3 / 2 + N) ^ 3)) := by
    rw [hval, div_pow, mul_pow, hexp, mul_pow, sq_sqrt (by positivity)]
    field_simp
    ring
  have he : exp (2 * N) ≤ 20.1 := by
    calc exp (2 * N) ≤ exp (((3 : ℕ) : ℝ) * 1) := exp_le_exp.mpr (by push_cast; linarith)
      _ = exp 1 ^ 3 := exp_nat_mul 1 3
      _ ≤ 2.7182818286 ^ 3 := by
        gcongr
        exact exp_one_lt_d9.le
      _ ≤ 20.1 := by norm_num
  have hden : 161 ≤ 4 * N * (3 / 2 + N) ^ 3 := by
    have e : 4 * N * (3 / 2 + N) ^ 3 = 4 * N ^ 4 + 18 * N ^ 3 + 27 * N ^ 2 + 27 / 2 * N := by ring
    rw [e]; linarith
  have hq : exp (2 * N) * F ^ 2 / (4 * N * (3 / 2 + N) ^ 3) ≤ 0.29 ^ 2 := by
    rw [div_le_iff₀ (by linarith)]
    have hF2 : F ^ 2 ≤ 0.64 := by nlinarith
    calc exp (2 * N) * F ^ 2 ≤ 20.1 * 0.64 := by gcongr
      _ ≤ 0.29 ^ 2 * 161 := by norm_num
      _ ≤ 0.29 ^ 2 * (4 * N * (3 / 2 + N) ^ 3) := by gcongr
  refine abs_le_of_sq_le_sq' ?_ (by positivity) |>.2
  calc lowz 1 z ^ 2 = z ^ 2 * (exp (2 * N) * F ^ 2 / (4 * N * (3 / 2 + N) ^ 3)) := hsq
    _ ≤ z ^ 2 * 0.29 ^ 2 := by gcongr
    _ = (0.29 * z) ^ 2 := by ring

end Verif.Bessel
