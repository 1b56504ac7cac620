import Verif.Fourier.Pfb
import Verif.Fourier.Lemmas
import Mathlib.Algebra.BigOperators.Field
import Mathlib.Algebra.BigOperators.Intervals

/-!
# C82: the polyphase filter bank
-/
namespace Verif.Fourier

open Complex

/-! ### Specification -/

noncomputable section

/-- What a channel holds: the sum over its taps of the samples with the window, turned back by `k` times in each block. -/
def channel (ntap lblock : Nat) (w x : Nat → ℝ) (b k : Nat) : ℂ :=
  ∑ t ∈ Finset.range (ntap * lblock), (x (b * lblock + t) * w t : ℝ) * exp (-2 * Real.pi * I * ((k : ℂ) * t / lblock))

/-- The response of a channel at a frequency `f`, in units of the width of a channel. -/
def response (ntap lblock : Nat) (w : Nat → ℝ) (f : ℝ) : ℂ :=
  ∑ t ∈ Finset.range (ntap * lblock), (w t : ℂ) * exp (-2 * Real.pi * I * ((f : ℂ) * t / lblock))

/-- Correlation of the window with itself, moved by `s` samples. -/
def correlation (N : Nat) (w : Nat → ℝ) (s : Nat) : ℝ := ∑ t ∈ Finset.range (N - s), w t * w (t + s)

end

/-! ### Applying the filter bank -/

theorem blocks_ok {β : Type} (f : Nat → Except Err β) (g : Nat → β) (n : Nat) (h : ∀ i, i < n → f i = .ok (g i)) : blocks f n = .ok ((List.range n).map g) := by
  induction n with
  | zero => rfl
  | succ n ih =>
    rw [blocks, ih fun i hi => h i (by omega), h n (by omega), List.range_succ, List.map_append]
    rfl

theorem response_cis (ntap lblock : Nat) (w : Nat → ℝ) (f : ℝ) : response ntap lblock w f = ∑ t ∈ Finset.range (ntap * lblock), (w t : ℂ) * cis (-(f * t / lblock)) := by
  unfold response
  apply Finset.sum_congr rfl
  intro t _
  congr 1
  unfold cis
  congr 1
  push_cast
  ring

theorem channel_cis (ntap lblock : Nat) (w x : Nat → ℝ) (b k : Nat) :
    channel ntap lblock w x b k = ∑ t ∈ Finset.range (ntap * lblock), (x (b * lblock + t) * w t : ℝ) * cis (-((k : ℝ) * t / lblock)) := by
  unfold channel
  apply Finset.sum_congr rfl
  intro t _
  congr 1
  unfold cis
  congr 1
  push_cast
  ring

theorem blockOf_ok (ntap lblock : Nat) (w ts : Sig ℝ) (bi : Nat) (hL : 0 < lblock) (hn : 0 < ntap) (hw : w.len = ntap * lblock) (hb : bi + ntap ≤ ts.len / lblock) :
    ∃ row, blockOf ntap lblock w ts bi = .ok row ∧ row.len = lblock / 2 ∧ ∀ k, row.val k = channel ntap lblock w.val ts.val bi k := by
  have hle : (bi + ntap) * lblock ≤ ts.len := (Nat.le_div_iff_mul_le hL).1 hb
  have hle' : bi * lblock ≤ ts.len := le_trans (Nat.mul_le_mul_right _ (by omega)) hle
  have hsec : (ts.cut (bi * lblock) ((bi + ntap) * lblock)).len = ntap * lblock := by
    unfold Sig.cut
    simp only
    rw [min_eq_left hle, min_eq_left hle', ← Nat.sub_mul]
    congr 1
    omega
  have hpos : 0 < ntap * lblock := Nat.mul_pos hn hL
  unfold blockOf
  simp only
  rw [if_neg (by rw [hsec, hw]; simp), if_neg (by rw [hsec]; omega)]
  have hrow : ((rfft ⟨(ts.cut (bi * lblock) ((bi + ntap) * lblock)).len, fun t => (ts.cut (bi * lblock) ((bi + ntap) * lblock)).val t * w.val t⟩).every (lblock / 2 * ntap) ntap).len = lblock / 2 := by
    unfold Sig.every rfft
    simp only
    rw [hsec]
    have h1 : lblock / 2 * ntap ≤ ntap * lblock / 2 + 1 := by
      have : lblock / 2 * ntap ≤ ntap * lblock / 2 := by
        rw [Nat.le_div_iff_mul_le (by norm_num)]
        have := Nat.div_mul_le_self lblock 2
        calc lblock / 2 * ntap * 2 = lblock / 2 * 2 * ntap := by ring
          _ ≤ lblock * ntap := Nat.mul_le_mul_right _ this
          _ = ntap * lblock := by ring
      omega
    rw [min_eq_left h1]
    have : lblock / 2 * ntap + ntap - 1 = (ntap - 1) + ntap * (lblock / 2) := by
      rw [mul_comm]
      omega
    rw [this, Nat.add_mul_div_left _ _ hn, Nat.div_eq_of_lt (by omega)]
    omega
  rw [if_neg (by rw [hrow]; simp)]
  refine ⟨_, rfl, hrow, ?_⟩
  intro k
  unfold Sig.every rfft
  simp only
  rw [hsec, channel_cis]
  apply Finset.sum_congr rfl
  intro t _
  have hL' : (lblock : ℝ) ≠ 0 := by exact_mod_cast hL.ne'
  have hn' : (ntap : ℝ) ≠ 0 := by exact_mod_cast hn.ne'
  have hE : (((k * ntap : ℕ) : ℝ) * t / ((ntap * lblock : ℕ) : ℝ)) = (k : ℝ) * t / lblock := by
    push_cast
    field_simp
  rw [hE]
  rfl

/-- **C82** `apply` gives one row for every run of `ntap` whole blocks of the samples, and in it all `lblock // 2` channels. Fewer than `ntap - 1` whole blocks are a `ValueError`. -/
theorem C82_apply (ntap lblock : Nat) (w ts : Sig ℝ) (hL : 0 < lblock) (hn : 0 < ntap) (hw : w.len = ntap * lblock) :
    (ntap - 1 ≤ ts.len / lblock → ∃ spec, apply ntap lblock w ts = .ok spec ∧ spec.length = ts.len / lblock - (ntap - 1) ∧
      ∀ b, b < spec.length → ∃ row, spec[b]? = some row ∧ row.len = lblock / 2 ∧ ∀ k, k < lblock / 2 → row.val k = channel ntap lblock w.val ts.val b k) ∧
      (ts.len / lblock < ntap - 1 → apply ntap lblock w ts = .error .valueError) := by
  constructor
  · intro h
    unfold apply
    rw [if_neg hL.ne']
    simp only
    rw [if_neg (by omega)]
    have hnb : (((ts.len / lblock : ℕ) : Int) - ((ntap : Int) - 1)).toNat = ts.len / lblock - (ntap - 1) := by omega
    rw [hnb]
    have hg : ∀ i, i < ts.len / lblock - (ntap - 1) → ∃ row, blockOf ntap lblock w ts i = .ok row ∧ row.len = lblock / 2 ∧ ∀ k, row.val k = channel ntap lblock w.val ts.val i k :=
      fun i hi => blockOf_ok ntap lblock w ts i hL hn hw (by omega)
    have : Nonempty (Sig ℂ) := ⟨⟨0, fun _ => 0⟩⟩
    choose! g hg1 hg2 hg3 using hg
    refine ⟨_, blocks_ok _ g _ hg1, by simp, ?_⟩
    intro b hb
    rw [List.length_map, List.length_range] at hb
    refine ⟨g b, ?_, hg2 b hb, fun k _ => hg3 b hb k⟩
    rw [List.getElem?_map, List.getElem?_range hb]
    rfl
  · intro h
    unfold apply
    rw [if_neg hL.ne']
    simp only
    rw [if_pos (by omega)]

/-- Two taps of four samples, and eleven samples: one row of two channels. -/
example : (2 - 1 : Nat) ≤ 11 / 4 ∧ 11 / 4 - (2 - 1) = 1 := by decide

theorem sum_blocks (a b : Nat) (f : Nat → ℂ) : ∑ t ∈ Finset.range (a * b), f t = ∑ p ∈ Finset.range a, ∑ j ∈ Finset.range b, f (p * b + j) := by
  induction a with
  | zero => simp
  | succ a ih => rw [Nat.succ_mul, Finset.sum_range_add, ih, Finset.sum_range_succ]

/-- **C82** A channel is a component of the Fourier transform of one block, into which the taps have been added: the filter bank is polyphase. -/
theorem C82_polyphase (ntap lblock : Nat) (w x : Nat → ℝ) (b k : Nat) (hL : 0 < lblock) :
    channel ntap lblock w x b k =
      ∑ j ∈ Finset.range lblock, ((∑ p ∈ Finset.range ntap, x ((b + p) * lblock + j) * w (p * lblock + j) : ℝ) : ℂ) * exp (-2 * Real.pi * I * ((k : ℂ) * j / lblock)) := by
  have hL' : (lblock : ℝ) ≠ 0 := by exact_mod_cast hL.ne'
  rw [channel_cis, sum_blocks, Finset.sum_comm]
  apply Finset.sum_congr rfl
  intro j _
  push_cast
  rw [Finset.sum_mul]
  apply Finset.sum_congr rfl
  intro p _
  have h1 : b * lblock + (p * lblock + j) = (b + p) * lblock + j := by ring
  have h2 : cis (-((k : ℝ) * ((p * lblock + j : ℕ) : ℝ) / lblock)) = exp (-2 * Real.pi * I * ((k : ℂ) * j / lblock)) := by
    have : (-((k : ℝ) * ((p * lblock + j : ℕ) : ℝ) / lblock)) = ((-(k * p : ℕ) : ℤ) : ℝ) + -((k : ℝ) * j / lblock) := by
      push_cast
      field_simp
      ring
    rw [this, cis_add, cis_int, one_mul]
    unfold cis
    congr 1
    push_cast
    ring
  have h3 : (-((k : ℝ) * ((p : ℝ) * lblock + j) / lblock)) = -((k : ℝ) * ((p * lblock + j : ℕ) : ℝ) / lblock) := by push_cast; ring
  rw [h1]
  simp only [h3, h2]

/-- **C82** A channel answers to a tone by the response of its window: to `cos(2 π ν t / lblock + δ)`, of frequency `ν` in units of the width of a channel, by the sum of the responses at `k - ν` and `k + ν`. -/
theorem C82_tone (ntap lblock : Nat) (w : Nat → ℝ) (ν δ : ℝ) (b k : Nat) (hL : 0 < lblock) :
    channel ntap lblock w (fun t => Real.cos (2 * Real.pi * (ν * t / lblock) + δ)) b k =
      (exp (I * (2 * Real.pi * ν * b + δ)) * response ntap lblock w (k - ν) + exp (-I * (2 * Real.pi * ν * b + δ)) * response ntap lblock w (k + ν)) / 2 := by
  have hL' : (lblock : ℂ) ≠ 0 := by exact_mod_cast hL.ne'
  unfold channel response
  rw [Finset.mul_sum, Finset.mul_sum, ← Finset.sum_add_distrib, Finset.sum_div]
  apply Finset.sum_congr rfl
  intro t _
  push_cast
  rw [Complex.cos]
  have e1 : exp ((2 * Real.pi * (ν * ((b : ℂ) * lblock + t) / lblock) + δ) * I) * exp (-2 * Real.pi * I * ((k : ℂ) * t / lblock)) =
      exp (I * (2 * Real.pi * ν * b + δ)) * exp (-2 * Real.pi * I * (((k : ℂ) - ν) * t / lblock)) := by
    rw [← exp_add, ← exp_add]
    congr 1
    field_simp
    ring
  have e2 : exp (-(2 * Real.pi * (ν * ((b : ℂ) * lblock + t) / lblock) + δ) * I) * exp (-2 * Real.pi * I * ((k : ℂ) * t / lblock)) =
      exp (-I * (2 * Real.pi * ν * b + δ)) * exp (-2 * Real.pi * I * (((k : ℂ) + ν) * t / lblock)) := by
    rw [← exp_add, ← exp_add]
    congr 1
    field_simp
    ring
  linear_combination (w t : ℂ) / 2 * e1 + (w t : ℂ) / 2 * e2

/-! ### The profile -/

theorem freqNum_shift (n i : Nat) (hi : i < n) : freqNum n (((i : Int) - (n / 2 : Nat)) % n).toNat = (i : Int) - (n / 2 : Nat) := by
  unfold freqNum
  by_cases h : n / 2 ≤ i
  · rw [Int.emod_eq_of_lt (by omega) (by omega), if_pos (by omega)]
    omega
  · have : ((i : Int) - (n / 2 : Nat)) % n = (i : Int) - (n / 2 : Nat) + n := by
      rw [← Int.add_emod_right, Int.emod_eq_of_lt (by omega) (by omega)]
    rw [this, if_neg (by omega)]
    omega

/-- **C82** `compute_channel_profile` gives the frequencies in order, in steps of one over `ntap * oversample` of the width of a channel, on both sides of its centre, and the response at each of
them, with `norm` divided by the largest real part. -/
theorem C82_profile (ntap lblock oversample : Nat) (w : Sig ℝ) (norm : Bool) (hw : w.len = ntap * lblock) (h : 0 < ntap * lblock * oversample) :
    ∃ fs ps m, profile ntap lblock oversample w norm = .ok (fs, ps) ∧ fs.len = ntap * lblock * oversample ∧ ps.len = ntap * lblock * oversample ∧
      (∀ i, i < ntap * lblock * oversample → fs.val i = ((i : ℝ) - (ntap * lblock * oversample / 2 : ℕ)) / (ntap * oversample)) ∧
      (norm = false → ∀ i, i < ntap * lblock * oversample → ps.val i = some (response ntap lblock w.val (fs.val i))) ∧
      IsGreatest {r | ∃ i, i < ntap * lblock * oversample ∧ r = (response ntap lblock w.val (fs.val i)).re} m ∧
      (norm = true → m ≠ 0 → ∀ i, i < ntap * lblock * oversample → ps.val i = some (response ntap lblock w.val (fs.val i) / m)) := by
  have hnt : 0 < ntap := Nat.pos_of_ne_zero (by rintro rfl; simp at h)
  have hlb : 0 < lblock := Nat.pos_of_ne_zero (by rintro rfl; simp at h)
  have hos : 0 < oversample := Nat.pos_of_ne_zero (by rintro rfl; simp at h)
  have hnt' : (ntap : ℝ) ≠ 0 := by exact_mod_cast hnt.ne'
  have hlb' : (lblock : ℝ) ≠ 0 := by exact_mod_cast hlb.ne'
  have hos' : (oversample : ℝ) ≠ 0 := by exact_mod_cast hos.ne'
  set n := ntap * lblock * oversample with hn
  have hnR : (n : ℝ) = ntap * lblock * oversample := by
    rw [hn]
    push_cast
    ring
  have hnR0 : (n : ℝ) ≠ 0 := by exact_mod_cast h.ne'
  have hf : ∀ i, i < n → (fftshift (fftfreq n (1 / lblock))).val i = ((i : ℝ) - (n / 2 : ℕ)) / (ntap * oversample) := by
    intro i hi
    unfold fftshift fftfreq
    simp only
    rw [freqNum_shift n i hi, hnR]
    generalize n / 2 = q
    push_cast
    field_simp
  have hv : ∀ i, i < n → (fftshift (fftPad w n)).val i = response ntap lblock w.val ((fftshift (fftfreq n (1 / lblock))).val i) := by
    intro i hi
    rw [hf i hi, response_cis]
    unfold fftshift fftPad
    simp only
    rw [hw, min_eq_left (by rw [hn]; exact Nat.le_mul_of_pos_right _ hos)]
    apply Finset.sum_congr rfl
    intro t _
    congr 1
    obtain ⟨c, hc⟩ : ∃ c : ℤ, ((i : Int) - (n / 2 : Nat)) % n = (i : Int) - (n / 2 : Nat) + n * c := by
      refine ⟨-(((i : Int) - (n / 2 : Nat)) / n), ?_⟩
      have := Int.emod_add_mul_ediv ((i : Int) - (n / 2 : Nat)) n
      linarith
    have h0 : 0 ≤ ((i : Int) - (n / 2 : Nat)) % n := Int.emod_nonneg _ (by omega)
    have hk : (((((i : Int) - (n / 2 : Nat)) % n).toNat : ℕ) : ℝ) = (i : ℝ) - (n / 2 : ℕ) + n * c := by
      have : (((((i : Int) - (n / 2 : Nat)) % n).toNat : ℕ) : ℤ) = (i : Int) - (n / 2 : Nat) + n * c := by
        rw [Int.toNat_of_nonneg h0, hc]
      exact_mod_cast this
    rw [hk]
    have : -(((i : ℝ) - (n / 2 : ℕ) + n * c) * t / n) = ((-(c * t) : ℤ) : ℝ) + -(((i : ℝ) - (n / 2 : ℕ)) / (ntap * oversample) * t / lblock) := by
      rw [hnR]
      push_cast
      field_simp
      ring
    rw [this, cis_add, cis_int, one_mul]
  unfold profile
  simp only
  rw [dif_pos h]
  refine ⟨_, _, maxRe (fftshift (fftPad w n)) h, rfl, rfl, rfl, hf, ?_, ?_, ?_⟩
  · rintro rfl i hi
    simp only [Bool.false_eq_true, if_false]
    rw [hv i hi]
  · constructor
    · obtain ⟨i, hi, he⟩ := Finset.exists_mem_eq_sup' (s := Finset.range (fftshift (fftPad w n)).len) ⟨0, Finset.mem_range.2 h⟩ fun i => ((fftshift (fftPad w n)).val i).re
      have hi' : i < n := Finset.mem_range.1 hi
      refine ⟨i, hi', ?_⟩
      unfold maxRe
      rw [he, hv i hi']
    · rintro r ⟨i, hi, rfl⟩
      rw [← hv i hi]
      unfold maxRe
      exact Finset.le_sup' (fun i => ((fftshift (fftPad w n)).val i).re) (Finset.mem_range.2 hi)
  · rintro rfl hm i hi
    simp only [if_true]
    rw [if_neg hm, hv i hi]

example : 0 < 4 * 2048 * 16 := by decide

/-- **C82** (partial) `evaluate_channel_profile` uses the profile with the `norm` given if it is the same in all calls.

Missing: calls with different `norm` (`C82_norm_violated`). -/
theorem C82_evaluate_partial (norm : Bool) (calls : List Bool) (h : ∀ b ∈ calls, b = norm) :
    (evaluate (calls.foldl (fun s b => (evaluate s b).1) none) norm).2 = norm := by
  have : ∀ s, (s = none ∨ s = some norm) → (calls.foldl (fun s b => (evaluate s b).1) s = none ∨ calls.foldl (fun s b => (evaluate s b).1) s = some norm) := by
    induction calls with
    | nil => exact fun s hs => hs
    | cons b l ih =>
      intro s hs
      rw [List.foldl_cons]
      apply ih fun c hc => h c (List.mem_cons_of_mem _ hc)
      have hb := h b List.mem_cons_self
      rcases hs with rfl | rfl
      · right
        rw [evaluate, hb]
      · exact .inr rfl
  rcases this none (.inl rfl) with h | h
  · rw [h]
    rfl
  · rw [h]
    rfl

/-- **C82 fails** if `norm` changes: the profile of the first call is used. -/
theorem C82_norm_violated (b : Bool) : (evaluate (evaluate none b).1 (!b)).2 = b := rfl

/-! ### Decorrelation -/

theorem cis_conj (x : ℝ) : (starRingEnd ℂ) (cis x) = cis (-x) := by
  unfold cis
  rw [← exp_conj]
  congr 1
  have h2 : (starRingEnd ℂ) (2 : ℂ) = 2 := by exact_mod_cast conj_natCast 2
  rw [map_mul, map_mul, map_mul, conj_ofReal, conj_ofReal, conj_I, h2]
  push_cast
  ring

theorem cis_re (x : ℝ) : (cis x).re = Real.cos (2 * Real.pi * x) := by
  unfold cis
  rw [show (2 * (Real.pi : ℂ) * x * I) = ((2 * Real.pi * x : ℝ) : ℂ) * I by push_cast; ring, exp_ofReal_mul_I_re]

/-- The transform of the window, of length `M`. -/
noncomputable def spectrum (N M : Nat) (w : Nat → ℝ) (j : Nat) : ℂ := ∑ t ∈ Finset.range N, (w t : ℂ) * cis (-((j : ℝ) * t / M))

theorem power_eq (N os : Nat) (w : Sig ℝ) (j : Nat) (hos : 0 < os) : power N os w j = if j ≤ N * os / 2 then normSq (spectrum N (N * os) w.val j) else 0 := by
  unfold power rfft spectrum
  simp only
  split
  · congr 1
    have hle : N ≤ N * os := Nat.le_mul_of_pos_right _ hos
    rw [← Finset.sum_subset (Finset.range_subset_range.2 hle)]
    · apply Finset.sum_congr rfl
      intro t ht
      rw [if_pos (Finset.mem_range.1 ht)]
    · intro t _ ht
      rw [if_neg (by simpa using ht)]
      simp
  · rfl

theorem spectrum_sq (N M : Nat) (w : Nat → ℝ) (j : Nat) :
    (normSq (spectrum N M w j) : ℂ) = ∑ t ∈ Finset.range N, ∑ s ∈ Finset.range N, (w t * w s : ℝ) * cis ((j : ℝ) * ((s : ℤ) - t : ℤ) / M) := by
  rw [← mul_conj]
  unfold spectrum
  rw [map_sum, Finset.sum_mul_sum]
  apply Finset.sum_congr rfl
  intro t _
  apply Finset.sum_congr rfl
  intro s _
  rw [map_mul, cis_conj, conj_ofReal]
  have : (j : ℝ) * ((s : ℤ) - t : ℤ) / M = -((j : ℝ) * t / M) + -(-((j : ℝ) * s / M)) := by
    push_cast
    ring
  rw [this, cis_add]
  push_cast
  ring

theorem spectrum_mirror (N M : Nat) (w : Nat → ℝ) (j : Nat) (hj : j ≤ M) (hM : 0 < M) : normSq (spectrum N M w (M - j)) = normSq (spectrum N M w j) := by
  rw [← normSq_conj (spectrum N M w j)]
  congr 1
  unfold spectrum
  rw [map_sum]
  apply Finset.sum_congr rfl
  intro t _
  rw [map_mul, cis_conj, conj_ofReal]
  congr 1
  have hM' : (M : ℝ) ≠ 0 := by exact_mod_cast hM.ne'
  have : -(((M - j : ℕ) : ℝ) * t / M) = ((-(t : ℤ) : ℤ) : ℝ) + -(-((j : ℝ) * t / M)) := by
    push_cast [Nat.cast_sub hj]
    field_simp
    ring
  rw [this, cis_add, cis_int, one_mul]

/-- The transform of the power spectrum is the correlation. -/
theorem wiener (N M : Nat) (w : Nat → ℝ) (d : Nat) (hd : d ≤ N) (hM : 2 * N ≤ M) (hN : 0 < N) :
    ∑ j ∈ Finset.range M, normSq (spectrum N M w j) * Real.cos (2 * Real.pi * ((j : ℝ) * d / M)) = M * correlation N w d := by
  have hC : ∑ j ∈ Finset.range M, (normSq (spectrum N M w j) : ℂ) * cis ((j : ℝ) * d / M) = ((M * correlation N w d : ℝ) : ℂ) := by
    have h1 : ∀ j ∈ Finset.range M, (normSq (spectrum N M w j) : ℂ) * cis ((j : ℝ) * d / M) =
        ∑ s ∈ Finset.range N, ∑ t ∈ Finset.range N, (w t * w s : ℝ) * cis ((j : ℝ) * ((d : ℤ) - t + s : ℤ) / M) := by
      intro j _
      rw [spectrum_sq, Finset.sum_mul, Finset.sum_comm]
      apply Finset.sum_congr rfl
      intro s _
      rw [Finset.sum_mul]
      apply Finset.sum_congr rfl
      intro t _
      rw [mul_assoc, ← cis_add]
      congr 2
      push_cast
      ring
    rw [Finset.sum_congr rfl h1, Finset.sum_comm]
    have h2 : ∀ s ∈ Finset.range N, ∑ j ∈ Finset.range M, ∑ t ∈ Finset.range N, ((w t * w s : ℝ) : ℂ) * cis ((j : ℝ) * ((d : ℤ) - t + s : ℤ) / M) =
        if s < N - d then (M : ℂ) * ((w s * w (s + d) : ℝ) : ℂ) else 0 := by
      intro s hs
      have hs' := Finset.mem_range.1 hs
      rw [Finset.sum_comm]
      have h3 : ∀ t ∈ Finset.range N, ∑ j ∈ Finset.range M, ((w t * w s : ℝ) : ℂ) * cis ((j : ℝ) * ((d : ℤ) - t + s : ℤ) / M) =
          if t = s + d then (M : ℂ) * ((w s * w t : ℝ) : ℂ) else 0 := by
        intro t ht
        have ht' := Finset.mem_range.1 ht
        rw [← Finset.mul_sum, period_sum M (by omega)]
        by_cases he : t = s + d
        · rw [if_pos he, if_pos]
          · push_cast
            ring
          · rw [he]
            push_cast
            ring_nf
            exact dvd_zero _
        · rw [if_neg he, if_neg, mul_zero]
          intro hdv
          have := Int.eq_zero_of_abs_lt_dvd hdv (by rw [abs_lt]; omega)
          omega
      rw [Finset.sum_congr rfl h3, Finset.sum_ite_eq']
      by_cases hsd : s < N - d
      · rw [if_pos hsd, if_pos (Finset.mem_range.2 (by omega))]
      · rw [if_neg hsd, if_neg (by rw [Finset.mem_range]; omega)]
    rw [Finset.sum_congr rfl h2, ← Finset.sum_filter]
    have h4 : (Finset.range N).filter (fun s => s < N - d) = Finset.range (N - d) := by
      ext s
      simp only [Finset.mem_filter, Finset.mem_range]
      omega
    rw [h4, ← Finset.mul_sum]
    unfold correlation
    push_cast
    rfl
  have := congrArg Complex.re hC
  rw [ofReal_re, re_sum] at this
  rw [← this]
  apply Finset.sum_congr rfl
  intro j _
  rw [re_ofReal_mul, cis_re]

/-- A sum that is the same from both ends. -/
theorem sum_mirror (h : Nat) (hh : 0 < h) (g : Nat → ℝ) (hg : ∀ j, 0 < j → j < h → g (2 * h - j) = g j) :
    ∑ j ∈ Finset.range (2 * h), g j = g 0 + ∑ j ∈ Finset.Ico 1 h, 2 * g j + g h := by
  have h1 : ∑ j ∈ Finset.range h, g j = g 0 + ∑ j ∈ Finset.Ico 1 h, g j := by
    rw [Finset.range_eq_Ico, Finset.sum_eq_sum_Ico_succ_bot hh]
  have h2 : ∑ j ∈ Finset.range h, g (h + j) = g h + ∑ j ∈ Finset.Ico 1 h, g j := by
    rw [Finset.range_eq_Ico, Finset.sum_eq_sum_Ico_succ_bot hh, add_zero]
    congr 1
    apply Finset.sum_nbij' (fun j => h - j) (fun j => h - j)
    · intro j hj
      rw [Finset.mem_Ico] at *
      omega
    · intro j hj
      rw [Finset.mem_Ico] at *
      omega
    · intro j hj
      rw [Finset.mem_Ico] at hj
      omega
    · intro j hj
      rw [Finset.mem_Ico] at hj
      omega
    · intro j hj
      rw [Finset.mem_Ico] at hj
      rw [← hg (h - j) (by omega) (by omega)]
      congr 1
      omega
  rw [two_mul, Finset.sum_range_add, h1, h2, ← Finset.mul_sum]
  ring

/-- Nothing is at the highest frequency if neighbours cancel. -/
theorem nyquist (N h : Nat) (w : Nat → ℝ) (hh : 0 < h) (h0 : ∑ t ∈ Finset.range N, (-1) ^ t * w t = 0) : spectrum N (2 * h) w h = 0 := by
  have hh' : (h : ℝ) ≠ 0 := by exact_mod_cast hh.ne'
  have : spectrum N (2 * h) w h = ((∑ t ∈ Finset.range N, (-1) ^ t * w t : ℝ) : ℂ) := by
    unfold spectrum
    push_cast
    apply Finset.sum_congr rfl
    intro t _
    rw [mul_comm]
    congr 1
    have : -((h : ℝ) * t / (2 * h)) = (t : ℝ) * (-(1 / 2)) := by
      field_simp
    rw [this, cis_nat_mul]
    congr 1
    unfold cis
    rw [show (2 * (Real.pi : ℂ) * ((-(1 / 2) : ℝ) : ℂ) * I) = -(Real.pi * I) by push_cast; ring, exp_neg, exp_pi_mul_I]
    norm_num
  rw [this, h0]
  simp

/-- The correlation comes out at every whole delay. -/
theorem irfft_at (N os h : Nat) (w : Sig ℝ) (hN : 0 < N) (hos : 2 ≤ os) (hh : N * os = 2 * h) (h0 : ∑ t ∈ Finset.range N, (-1) ^ t * w.val t = 0) (d : Nat) (hd : d ≤ N) :
    irfftAt (power N os w) (N * os ^ 2) (d * os) = (N * os : ℕ) * correlation N w.val d / (N * os ^ 2 : ℕ) := by
  have hpos : 0 < N * os := Nat.mul_pos hN (by omega)
  have hhp : 0 < h := by omega
  have hos' : (os : ℝ) ≠ 0 := by exact_mod_cast (by omega : os ≠ 0)
  have hh' : (h : ℝ) ≠ 0 := by exact_mod_cast hhp.ne'
  have hP : N * os ^ 2 = 2 * (h * os) := by
    rw [pow_two, ← mul_assoc, hh]
    ring
  have hP2 : N * os ^ 2 / 2 = h * os := by omega
  have hlt : h < h * os := by
    have : h * 2 ≤ h * os := Nat.mul_le_mul_left h hos
    omega
  have h2N : 2 * N ≤ 2 * h := by
    rw [← hh]
    have : N * 2 ≤ N * os := Nat.mul_le_mul_left N hos
    omega
  have hpw : ∀ j, power N os w j = if j ≤ h then normSq (spectrum N (2 * h) w.val j) else 0 := by
    intro j
    rw [power_eq N os w j (by omega), hh]
    congr 2
    simp
  have hny : normSq (spectrum N (2 * h) w.val h) = 0 := by
    rw [nyquist N h w.val hhp h0, map_zero]
  have hW := wiener N (2 * h) w.val d hd h2N hN
  rw [sum_mirror h hhp] at hW
  · unfold irfftAt
    rw [hP2, hpw 0, hpw (h * os), if_neg (show ¬h * os ≤ h by omega), if_pos (Nat.zero_le h), zero_mul, add_zero, hh]
    congr 1
    rw [hny, zero_mul, add_zero] at hW
    rw [← hW]
    congr 1
    · simp
    · have hsub : Finset.Ico 1 h ⊆ Finset.Ico 1 (h * os) := Finset.Ico_subset_Ico_right (by omega)
      rw [← Finset.sum_subset hsub]
      · apply Finset.sum_congr rfl
        intro j hj
        rw [Finset.mem_Ico] at hj
        rw [hpw j, if_pos (by omega)]
        have : (j : ℝ) * ((d * os : ℕ) : ℝ) / ((N * os ^ 2 : ℕ) : ℝ) = (j : ℝ) * d / ((2 * h : ℕ) : ℝ) := by
          rw [hP]
          push_cast
          field_simp
        rw [this]
        ring
      · intro j hj hj'
        rw [Finset.mem_Ico] at hj hj'
        rw [hpw j]
        by_cases hjh : j ≤ h
        · have : j = h := by omega
          rw [if_pos hjh, this, hny]
          ring
        · rw [if_neg hjh]
          ring
  · intro j hj1 hj2
    rw [spectrum_mirror N (2 * h) w.val j (by omega) (by omega)]
    congr 1
    have : 2 * Real.pi * (((2 * h - j : ℕ) : ℝ) * d / ((2 * h : ℕ) : ℝ)) = (d : ℕ) * (2 * Real.pi) - 2 * Real.pi * ((j : ℝ) * d / ((2 * h : ℕ) : ℝ)) := by
      push_cast [Nat.cast_sub (by omega : j ≤ 2 * h)]
      field_simp
    rw [this, Real.cos_nat_mul_two_pi_sub]

/-- Delays forwards and backwards. -/
theorem irfft_mirror (c : Nat → ℝ) (q t : Nat) (hq : 0 < q) (ht : t ≤ 2 * q) : irfftAt c (2 * q) (2 * q - t) = irfftAt c (2 * q) t := by
  have hq' : (q : ℝ) ≠ 0 := by exact_mod_cast hq.ne'
  unfold irfftAt
  congr 2
  · congr 1
    apply Finset.sum_congr rfl
    intro j _
    congr 1
    have : 2 * Real.pi * ((j : ℝ) * ((2 * q - t : ℕ) : ℝ) / ((2 * q : ℕ) : ℝ)) = (j : ℕ) * (2 * Real.pi) - 2 * Real.pi * ((j : ℝ) * t / ((2 * q : ℕ) : ℝ)) := by
      push_cast [Nat.cast_sub ht]
      field_simp
    rw [this, Real.cos_nat_mul_two_pi_sub]
  · congr 1
    have : Real.pi * ((2 * q - t : ℕ) : ℝ) = (q : ℕ) * (2 * Real.pi) - Real.pi * t := by
      push_cast [Nat.cast_sub ht]
      ring
    rw [this, Real.cos_nat_mul_two_pi_sub]

/-- **C82** (partial) `decorrelation_ratio` at a whole number of samples, forwards or backwards, is the correlation of the window with itself moved by that number, divided by that without moving;
with `oversample` at least two, an even number of samples in the padded window, and neighbours in the window that cancel.

Missing: odd numbers of samples (`C82_odd_violated`), windows with something at the highest frequency (`C82_nyquist_violated`), and `oversample` of one (`C82_oversample_violated`). -/
theorem C82_decorrelation_partial (ntap lblock os : Nat) (w : Sig ℝ) (m : ℤ) (hw : w.len = ntap * lblock) (hN : 0 < ntap * lblock) (hos : 2 ≤ os) (heven : ntap * lblock * os % 2 = 0)
    (h0 : ∑ t ∈ Finset.range (ntap * lblock), (-1) ^ t * w.val t = 0) (hne : correlation (ntap * lblock) w.val 0 ≠ 0) :
    decorrelation ntap lblock os w m = .ok (some (correlation (ntap * lblock) w.val m.natAbs / correlation (ntap * lblock) w.val 0)) := by
  set N := ntap * lblock with hNd
  obtain ⟨h, hh⟩ : ∃ h, N * os = 2 * h := ⟨N * os / 2, by omega⟩
  have hpos : 0 < N * os := Nat.mul_pos hN (by omega)
  have hP : N * os ^ 2 = 2 * (h * os) := by
    rw [pow_two, ← mul_assoc, hh]
    ring
  have h2 : h * 2 ≤ h * os := Nat.mul_le_mul_left h hos
  have hos' : (os : ℝ) ≠ 0 := by exact_mod_cast (by omega : os ≠ 0)
  have hosp : (0 : ℝ) < os := by exact_mod_cast (by omega : 0 < os)
  have hPne : ((N * os ^ 2 : ℕ) : ℝ) ≠ 0 := by exact_mod_cast (by omega : N * os ^ 2 ≠ 0)
  have hMne : ((N * os : ℕ) : ℝ) ≠ 0 := by exact_mod_cast hpos.ne'
  have hout0 : irfftAt (power N os w) (N * os ^ 2) 0 = (N * os : ℕ) * correlation N w.val 0 / (N * os ^ 2 : ℕ) := by
    have := irfft_at N os h w hN hos hh h0 0 (Nat.zero_le _)
    rw [zero_mul] at this
    exact this
  have hout0ne : irfftAt (power N os w) (N * os ^ 2) 0 ≠ 0 := by
    rw [hout0]
    exact div_ne_zero (mul_ne_zero hMne hne) hPne
  have hratio : ∀ k, ratioAt N os w k = some (irfftAt (power N os w) (N * os ^ 2) (k % (N * os ^ 2 : ℕ)).toNat / irfftAt (power N os w) (N * os ^ 2) 0) := by
    intro k
    unfold ratioAt
    simp only
    rw [if_neg hout0ne]
  unfold decorrelation
  simp only [← hNd]
  rw [if_neg (by rw [hw]; omega), if_neg (by omega), if_neg (by omega)]
  have hlo : max (-((N * os : ℕ) : Int)) (-((N * os ^ 2 / 2 : ℕ) : Int)) = -((N * os : ℕ) : Int) := by
    rw [max_eq_left]
    omega
  rw [hlo]
  have hu : (m : ℝ) * os = ((m * os : ℤ) : ℝ) := by push_cast; ring
  by_cases hout : (m : ℝ) * os < ((-((N * os : ℕ) : Int) : ℤ) : ℝ) ∨ ((min ((N * os : ℕ) : Int) (((N * os ^ 2 - 1) / 2 : ℕ) : Int) : ℤ) : ℝ) < (m : ℝ) * os
  · rw [if_pos hout]
    have hge : N ≤ m.natAbs := by
      rw [hu, Int.cast_lt, Int.cast_lt] at hout
      rcases hout with hout | hout
      · have : m < -(N : ℤ) := by
          by_contra hn
          push Not at hn
          have : -(N : ℤ) * os ≤ m * os := mul_le_mul_of_nonneg_right hn (by omega)
          push_cast at hout
          linarith
        omega
      · have : ((N * os : ℕ) : ℤ) ≤ m * os := by
          have h3 : ((N * os : ℕ) : ℤ) - 1 ≤ min ((N * os : ℕ) : Int) (((N * os ^ 2 - 1) / 2 : ℕ) : Int) := by
            rw [le_min_iff]
            omega
          omega
        have : (N : ℤ) ≤ m := by
          by_contra hn
          push Not at hn
          have h4 : m * os < (N : ℤ) * os := mul_lt_mul_of_pos_right hn (by omega)
          push_cast at this
          linarith
        omega
    have hz : correlation N w.val m.natAbs = 0 := by
      unfold correlation
      rw [Nat.sub_eq_zero_of_le hge]
      simp
    rw [hz, zero_div]
  · rw [if_neg hout]
    push Not at hout
    have hle : m.natAbs ≤ N := by
      rw [hu, Int.cast_le, Int.cast_le] at hout
      have h5 : m * os ≤ (N : ℤ) * os := by
        have := le_trans hout.2 (min_le_left _ _)
        push_cast at this
        exact this
      have h6 : -(N : ℤ) * os ≤ m * os := by
        have := hout.1
        push_cast at this
        linarith
      have h7 := le_of_mul_le_mul_right h5 (by omega : (0 : ℤ) < os)
      have h8 := le_of_mul_le_mul_right h6 (by omega : (0 : ℤ) < os)
      omega
    have hfl : ⌊(m : ℝ) * os⌋ = m * os := by
      rw [hu, Int.floor_intCast]
    rw [hfl, hratio, hratio]
    simp only
    rw [if_pos hu]
    have hval : irfftAt (power N os w) (N * os ^ 2) ((m * os) % ((N * os ^ 2 : ℕ) : ℤ)).toNat = (N * os : ℕ) * correlation N w.val m.natAbs / (N * os ^ 2 : ℕ) := by
      rw [← irfft_at N os h w hN hos hh h0 m.natAbs hle]
      have hb : m.natAbs * os ≤ h * os := by
        apply Nat.mul_le_mul_right
        have : N * 2 ≤ N * os := Nat.mul_le_mul_left N hos
        omega
      have hhp : 0 < h * os := by omega
      rcases le_or_gt 0 m with hm | hm
      · have h9 : m * os = ((m.natAbs * os : ℕ) : ℤ) := by
          push_cast
          rw [abs_of_nonneg hm]
        rw [h9, Int.emod_eq_of_lt (by omega) (by omega), Int.toNat_natCast]
      · have h9 : m * os = -((m.natAbs * os : ℕ) : ℤ) := by
          push_cast
          rw [abs_of_neg hm]
          ring
        have hmp : 0 < m.natAbs * os := Nat.mul_pos (by omega) (by omega)
        have h10 : (m * os) % ((N * os ^ 2 : ℕ) : ℤ) = ((N * os ^ 2 - m.natAbs * os : ℕ) : ℤ) := by
          rw [h9, ← Int.add_emod_right, Int.emod_eq_of_lt (by omega) (by omega)]
          omega
        rw [h10, Int.toNat_natCast, hP]
        exact irfft_mirror _ (h * os) (m.natAbs * os) hhp (by omega)
    rw [hval, hout0]
    congr 2
    field_simp

/-- A window of two equal samples. -/
example : decorrelation 1 2 2 ⟨2, fun _ => 1⟩ ((-1 : ℤ) : ℝ) = .ok (some (1 / 2)) := by
  have h := C82_decorrelation_partial 1 2 2 ⟨2, fun _ => 1⟩ (-1) rfl (by norm_num) le_rfl rfl (by simp [Finset.sum_range_succ]) (by simp [correlation])
  rw [h]
  simp [correlation]

/-- What is found at a delay within the grid. -/
theorem decorrelation_inside (ntap lblock os : Nat) (w : Sig ℝ) (hw : w.len = ntap * lblock) (hN : 0 < ntap * lblock) (hos : 2 ≤ os) (heven : ntap * lblock * os % 2 = 0)
    (hne : irfftAt (power (ntap * lblock) os w) (ntap * lblock * os ^ 2) 0 ≠ 0) (u : ℝ) (h1 : -((ntap * lblock * os : ℕ) : ℝ) ≤ u) (h2 : u + 1 ≤ ((ntap * lblock * os : ℕ) : ℝ)) :
    ∃ f : ℤ → ℝ, (∀ k, ratioAt (ntap * lblock) os w k = some (f k)) ∧
      decorrelation ntap lblock os w (u / os) = .ok (some (if u = ⌊u⌋ then f ⌊u⌋ else (1 - (u - ⌊u⌋)) * f ⌊u⌋ + (u - ⌊u⌋) * f (⌊u⌋ + 1))) := by
  set N := ntap * lblock with hNd
  obtain ⟨h, hh⟩ : ∃ h, N * os = 2 * h := ⟨N * os / 2, by omega⟩
  have hpos : 0 < N * os := Nat.mul_pos hN (by omega)
  have hP : N * os ^ 2 = 2 * (h * os) := by
    rw [pow_two, ← mul_assoc, hh]
    ring
  have h2' : h * 2 ≤ h * os := Nat.mul_le_mul_left h hos
  have hos' : (os : ℝ) ≠ 0 := by exact_mod_cast (by omega : os ≠ 0)
  have hratio : ∀ k, ratioAt N os w k = some (irfftAt (power N os w) (N * os ^ 2) (k % (N * os ^ 2 : ℕ)).toNat / irfftAt (power N os w) (N * os ^ 2) 0) := by
    intro k
    unfold ratioAt
    simp only
    rw [if_neg hne]
  refine ⟨_, hratio, ?_⟩
  unfold decorrelation
  simp only [← hNd]
  rw [if_neg (by rw [hw]; omega), if_neg (by omega), if_neg (by omega), div_mul_cancel₀ _ hos']
  have hlo : max (-((N * os : ℕ) : Int)) (-((N * os ^ 2 / 2 : ℕ) : Int)) = -((N * os : ℕ) : Int) := by
    rw [max_eq_left]
    omega
  have hhi : (((N * os : ℕ) : Int) : ℝ) - 1 ≤ ((min ((N * os : ℕ) : Int) (((N * os ^ 2 - 1) / 2 : ℕ) : Int) : ℤ) : ℝ) := by
    have : ((N * os : ℕ) : ℤ) - 1 ≤ min ((N * os : ℕ) : Int) (((N * os ^ 2 - 1) / 2 : ℕ) : Int) := by
      rw [le_min_iff]
      omega
    exact_mod_cast this
  rw [hlo, if_neg]
  · simp only [hratio]
  · push Not
    constructor
    · rw [Int.cast_neg, Int.cast_natCast]
      exact h1
    · rw [Int.cast_natCast] at hhi
      linarith

/-- **C82** Between two neighbouring points of the grid of delays, `decorrelation_ratio` is on the straight line between its values there. -/
theorem C82_between (ntap lblock os : Nat) (w : Sig ℝ) (hw : w.len = ntap * lblock) (hN : 0 < ntap * lblock) (hos : 2 ≤ os) (heven : ntap * lblock * os % 2 = 0) (j : ℤ) (θ : ℝ) (h0 : 0 ≤ θ) (h1 : θ ≤ 1)
    (hlo : -((ntap * lblock * os : ℕ) : ℤ) ≤ j) (hhi : j + 2 ≤ ((ntap * lblock * os : ℕ) : ℤ)) (a b : ℝ) (ha : decorrelation ntap lblock os w (j / os) = .ok (some a))
    (hb : decorrelation ntap lblock os w ((j + 1) / os) = .ok (some b)) : decorrelation ntap lblock os w ((j + θ) / os) = .ok (some ((1 - θ) * a + θ * b)) := by
  have hlo' : -((ntap * lblock * os : ℕ) : ℝ) ≤ j := by exact_mod_cast hlo
  have hhi' : (j : ℝ) + 2 ≤ ((ntap * lblock * os : ℕ) : ℝ) := by exact_mod_cast hhi
  have hne : irfftAt (power (ntap * lblock) os w) (ntap * lblock * os ^ 2) 0 ≠ 0 := by
    intro hz
    have hr : ∀ k, ratioAt (ntap * lblock) os w k = none := by
      intro k
      unfold ratioAt
      simp only
      rw [if_pos hz]
    have hpos : 0 < ntap * lblock * os := Nat.mul_pos hN (by omega)
    have hos' : (os : ℝ) ≠ 0 := by exact_mod_cast (by omega : os ≠ 0)
    unfold decorrelation at ha
    simp only [hr] at ha
    rw [div_mul_cancel₀ _ hos'] at ha
    obtain ⟨h, hh⟩ : ∃ h, ntap * lblock * os = 2 * h := ⟨ntap * lblock * os / 2, by omega⟩
    have hP : ntap * lblock * os ^ 2 = 2 * (h * os) := by
      rw [pow_two, ← mul_assoc, hh]
      ring
    have h2' : h * 2 ≤ h * os := Nat.mul_le_mul_left h hos
    split_ifs at ha with c1 c2 c3 c4
    · rcases c4 with c4 | c4
      · have c5 := Int.cast_lt.1 c4
        omega
      · have c5 := Int.cast_lt.1 c4
        omega
    · simp at ha
  obtain ⟨f, hf, e1⟩ := decorrelation_inside ntap lblock os w hw hN hos heven hne j hlo' (by linarith)
  obtain ⟨g, hg, e2⟩ := decorrelation_inside ntap lblock os w hw hN hos heven hne (j + 1) (by linarith) (by linarith)
  obtain ⟨k, hk, e3⟩ := decorrelation_inside ntap lblock os w hw hN hos heven hne (j + θ) (by linarith) (by linarith)
  have hgf : g = f := funext fun i => Option.some.inj ((hg i).symm.trans (hf i))
  have hkf : k = f := funext fun i => Option.some.inj ((hk i).symm.trans (hf i))
  subst hgf hkf
  have hj1 : ⌊(j : ℝ) + 1⌋ = j + 1 := by
    rw [Int.floor_add_one, Int.floor_intCast]
  rw [Int.floor_intCast, if_pos rfl, ha] at e1
  rw [hj1, if_pos (by push_cast; rfl), hb] at e2
  have ea : a = k j := by simpa using e1
  have eb : b = k (j + 1) := by simpa using e2
  rw [e3, ea, eb]
  rcases eq_or_lt_of_le h1 with rfl | hlt
  · rw [hj1, if_pos (by push_cast; rfl)]
    congr 2
    ring
  · have hfl : ⌊(j : ℝ) + θ⌋ = j := by
      rw [Int.floor_eq_iff]
      constructor <;> linarith
    rw [hfl]
    by_cases hz : θ = 0
    · subst hz
      rw [if_pos (by ring)]
      congr 2
      ring
    · rw [if_neg fun e => hz (by linarith)]
      congr 2
      ring

/-- Half way between a shift of one sample and its neighbour on the grid. -/
example (b : ℝ) (hb : decorrelation 1 2 2 ⟨2, fun _ => 1⟩ (((-2 : ℤ) + 1 : ℝ) / (2 : ℕ)) = .ok (some b)) :
    decorrelation 1 2 2 ⟨2, fun _ => 1⟩ (((-2 : ℤ) + 1 / 2 : ℝ) / (2 : ℕ)) = .ok (some ((1 - 1 / 2) * (1 / 2) + 1 / 2 * b)) := by
  refine C82_between 1 2 2 ⟨2, fun _ => 1⟩ rfl (by norm_num) le_rfl rfl (-2) (1 / 2) (by norm_num) (by norm_num) (by norm_num) (by norm_num) (1 / 2) b ?_ hb
  have h := C82_decorrelation_partial 1 2 2 ⟨2, fun _ => 1⟩ (-1) rfl (by norm_num) le_rfl rfl (by simp [Finset.sum_range_succ]) (by simp [correlation])
  have e : (((-2 : ℤ) : ℝ) / (2 : ℕ)) = ((-1 : ℤ) : ℝ) := by norm_num
  rw [e, h]
  simp [correlation]

/-- **C82 fails** for an odd number of samples in the padded window. -/
theorem C82_odd_violated (w : Sig ℝ) (hw : w.len = 3) (delay : ℝ) : decorrelation 1 3 3 w delay = .error .indexError := by
  unfold decorrelation
  simp [hw]

/-- **C82 fails** for a window with something at the highest frequency: the ratio is -1/3 instead of zero one sample back, and it is not the same forwards and backwards. -/
theorem C82_nyquist_violated : decorrelation 1 1 2 ⟨1, fun _ => 1⟩ (-1) = .ok (some (-(1 / 3))) ∧ decorrelation 1 1 2 ⟨1, fun _ => 1⟩ 1 = .ok (some 0) ∧ correlation 1 (fun _ => 1) 1 = 0 := by
  have hp : ∀ j, power 1 2 ⟨1, fun _ => 1⟩ j = if j ≤ 1 then 1 else 0 := by
    intro j
    rw [power_eq 1 2 _ j (by norm_num)]
    split
    · simp [spectrum, cis_zero]
    · rfl
  have hv : ∀ t : ℕ, irfftAt (power 1 2 ⟨1, fun _ => 1⟩) 4 t = (1 + 2 * Real.cos (2 * Real.pi * ((t : ℝ) / 4))) / 4 := by
    intro t
    unfold irfftAt
    simp [hp]
  have h0 : irfftAt (power 1 2 ⟨1, fun _ => 1⟩) 4 0 = 3 / 4 := by
    rw [hv]
    simp
    norm_num
  have h2 : irfftAt (power 1 2 ⟨1, fun _ => 1⟩) 4 2 = -1 / 4 := by
    rw [hv, show 2 * Real.pi * (((2 : ℕ) : ℝ) / 4) = Real.pi by push_cast; ring, Real.cos_pi]
    norm_num
  have hr : ∀ k, ratioAt 1 2 ⟨1, fun _ => 1⟩ k = some (irfftAt (power 1 2 ⟨1, fun _ => 1⟩) 4 (k % 4).toNat / (3 / 4)) := by
    intro k
    unfold ratioAt
    simp only [show 1 * 2 ^ 2 = 4 by norm_num]
    rw [if_neg (by rw [h0]; norm_num), h0]
    rfl
  refine ⟨?_, ?_, ?_⟩
  · have hfl : ⌊(-1 : ℝ) * ((2 : ℕ) : ℝ)⌋ = -2 := by
      rw [show (-1 : ℝ) * ((2 : ℕ) : ℝ) = ((-2 : ℤ) : ℝ) by norm_num, Int.floor_intCast]
    unfold decorrelation
    simp only [show 1 * 1 = 1 by norm_num, show 1 * 2 = 2 by norm_num, show 1 * 2 ^ 2 = 4 by norm_num]
    rw [if_neg (by norm_num), if_neg (by norm_num), if_neg (by norm_num), if_neg (by norm_num), hfl, hr, hr]
    simp only
    rw [if_pos (by norm_num), show ((-2 : ℤ) % 4).toNat = 2 from rfl, h2]
    norm_num
  · unfold decorrelation
    simp only [show 1 * 1 = 1 by norm_num, show 1 * 2 = 2 by norm_num, show 1 * 2 ^ 2 = 4 by norm_num]
    rw [if_neg (by norm_num), if_neg (by norm_num), if_neg (by norm_num), if_pos (by norm_num)]
  · simp [correlation]

/-- **C82 fails** with `oversample` one: two equal samples moved by one are fully correlated. -/
theorem C82_oversample_violated : decorrelation 1 2 1 ⟨2, fun _ => 1⟩ (-1) = .ok (some 1) ∧ correlation 2 (fun _ => 1) 1 / correlation 2 (fun _ => 1) 0 = 1 / 2 := by
  constructor
  · have hv : ∀ t : ℕ, irfftAt (power 2 1 ⟨2, fun _ => 1⟩) 2 t = 2 := by
      intro t
      have hn : spectrum 2 (2 * 1) (fun _ => 1) 1 = 0 := nyquist 2 1 (fun _ => 1) one_pos (by simp [Finset.sum_range_succ])
      have h0 : power 2 1 ⟨2, fun _ => 1⟩ 0 = 4 := by
        rw [power_eq 2 1 _ 0 one_pos, if_pos (by norm_num)]
        simp [spectrum, cis_zero]
        norm_num
      have h1 : power 2 1 ⟨2, fun _ => 1⟩ 1 = 0 := by
        rw [power_eq 2 1 _ 1 one_pos, if_pos (by norm_num)]
        rw [show 2 * 1 = 2 * 1 from rfl, hn, map_zero]
      unfold irfftAt
      simp [h0, h1]
      norm_num
    have hr : ∀ k, ratioAt 2 1 ⟨2, fun _ => 1⟩ k = some 1 := by
      intro k
      unfold ratioAt
      simp only [show 2 * 1 ^ 2 = 2 by norm_num]
      rw [if_neg (by rw [hv]; norm_num), hv, hv]
      norm_num
    have hfl : ⌊(-1 : ℝ) * ((1 : ℕ) : ℝ)⌋ = -1 := by
      rw [show (-1 : ℝ) * ((1 : ℕ) : ℝ) = ((-1 : ℤ) : ℝ) by norm_num, Int.floor_intCast]
    unfold decorrelation
    simp only [show 1 * 2 = 2 by norm_num, show 2 * 1 ^ 2 = 2 by norm_num]
    rw [if_neg (by norm_num), if_neg (by norm_num), if_neg (by norm_num), if_neg (by norm_num), hfl, hr, hr]
    simp only
    rw [if_pos (by norm_num)]
  · simp [correlation]

end Verif.Fourier
