import Verif.Bessel.Lemmas

/-!
# Lemmas about the calls and the formulas of the approximations
-/
namespace Verif.Bessel

open Real

theorem jlAt_plain (sp : ℕ → ℝ → ℝ) (h0 : ∀ l, 0 < l → sp l 0 = 0) {l : ℕ} {z : ℝ} (h : Plain l z) :
    jlAt sp l z = sp l z := by
  unfold Plain at h
  have hl : (0 : ℝ) ≤ l := Nat.cast_nonneg l
  have hlow : ¬ isLow l z := by
    rintro ⟨h1, h2⟩
    rcases h with h | ⟨ha, hb⟩
    · linarith
    · rcases h1 with ⟨h3, h4⟩ | h3
      · linarith [(hb h3).1]
      · norm_num at h3; linarith
  have hhigh : ¬ isHigh l z := by
    rintro ⟨h1, h2⟩
    rcases h with h | ⟨ha, hb⟩
    · linarith
    · linarith [(hb h1).2]
  unfold jlAt
  by_cases hz : isZero l z
  · rw [if_neg (by simp [hz]), if_neg hhigh, if_neg hlow, hz.1, h0 l hz.2]
  · rw [if_pos (by simp [hz, hlow, hhigh])]

theorem jl_num (sp : ℕ → ℝ → ℝ) (l : ℕ) (z : ℝ) : jl sp (.num l) (.num z) = .ok (.num (jlAt sp l z)) := by
  simp [jl, Arg.vals, broadcast, Arg.isArray]

theorem jl_arrays (sp : ℕ → ℝ → ℝ) (ls : List ℕ) (zs : List ℝ) (h : ls.length = zs.length) :
    jl sp (.array ls) (.array zs) = .ok (.array ((ls.zip zs).map fun p => jlAt sp p.1 p.2)) := by
  simp [jl, Arg.vals, broadcast, Arg.isArray, h]

theorem broadcast_num_left {α β : Type} (x : α) (ys : List β) :
    broadcast [x] ys = .ok (ys.map fun y => (x, y)) := by
  unfold broadcast
  split
  · rename_i h
    match ys, h with
    | [y], _ => rfl
  · rfl

theorem broadcast_num_right {α β : Type} (xs : List α) (y : β) :
    broadcast xs [y] = .ok (xs.map fun x => (x, y)) := by
  unfold broadcast
  split
  · rename_i h
    match xs, h with
    | [x], _ => rfl
  · rename_i h
    match xs, h with
    | [], _ => rfl
    | _ :: _ :: _, _ => rfl

theorem broadcast_error {α β : Type} (xs : List α) (ys : List β) (h : xs.length ≠ ys.length)
    (hx : xs.length ≠ 1) (hy : ys.length ≠ 1) : broadcast xs ys = .error .valueError := by
  unfold broadcast
  rw [if_neg h]
  split
  · simp at hx
  · simp at hy
  · rfl

/-! ### The formulas -/

theorem low_domain {l : ℕ} {z : ℝ} (h : isLow l z) : 0 < z ∧ z < l + 1 / 2 := by
  obtain ⟨h1, h2⟩ := h
  refine ⟨h2, ?_⟩
  have hl : (0 : ℝ) ≤ l := Nat.cast_nonneg l
  rcases h1 with ⟨_, h⟩ | h
  · linarith
  · norm_num at h; linarith

theorem high_domain {l : ℕ} {z : ℝ} (h : isHigh l z) : (l : ℝ) + 1 / 2 < z := by
  obtain ⟨h1, h2⟩ := h
  have hl : (20 : ℝ) < l := by exact_mod_cast h1
  linarith

theorem lowz_eq (l : ℕ) {z : ℝ} (h0 : 0 < z) (h1 : z < l + 1 / 2) :
    ∃ α, 0 < α ∧ z * cosh α = l + 1 / 2 ∧ lowz l z = debyeLow l z α := by
  set nu : ℝ := l + 1 / 2 with hnu
  have hx : 1 < nu / z := (one_lt_div h0).mpr h1
  have hc : cosh (arcosh (nu / z)) = nu / z := cosh_arcosh hx.le
  have hα : 0 < arcosh (nu / z) := arcosh_pos hx
  refine ⟨arcosh (nu / z), hα, ?_, ?_⟩
  · rw [hc]; field_simp
  · have hs : 0 < sinh (arcosh (nu / z)) := sinh_pos_iff.mpr hα
    set α := arcosh (nu / z) with hαdef
    have hcosh : nu = z * cosh α := by rw [hc]; field_simp
    have hsq : nu * nu - z * z = (z * sinh α) ^ 2 := by
      rw [hcosh]
      have := cosh_sq α
      linear_combination z ^ 2 * this
    have hroot : √(nu * nu - z * z) = nu * tanh α := by
      rw [hsq, sqrt_sq (by positivity), tanh_eq_sinh_div_cosh, hcosh]
      have := cosh_pos α
      field_simp
    have hT : 0 < tanh α := by
      rw [tanh_eq_sinh_div_cosh]; have := cosh_pos α; positivity
    have hnupos : 0 < nu := by linarith
    unfold lowz debyeLow
    rw [show ((l : ℝ) + 0.5) = nu by rw [hnu]; norm_num]
    simp only [← hnu, hroot, ← hαdef]
    rw [show nu * tanh α - nu * α = nu * (tanh α - α) by ring]
    field_simp
    ring

theorem highz_eq (l : ℕ) {z : ℝ} (h1 : (l : ℝ) + 1 / 2 < z) :
    ∃ β, 0 < β ∧ β < π / 2 ∧ z * cos β = l + 1 / 2 ∧ highz l z = debyeHigh l z β := by
  set nu : ℝ := l + 1 / 2 with hnu
  have hl : (0 : ℝ) ≤ l := Nat.cast_nonneg l
  have hnupos : 0 < nu := by linarith
  have hz : 0 < z := by linarith
  have hx0 : 0 < nu / z := by positivity
  have hx1 : nu / z < 1 := (div_lt_one hz).mpr h1
  have hb0 : 0 < arccos (nu / z) := arccos_pos.mpr hx1
  have hb1 : arccos (nu / z) < π / 2 := arccos_lt_pi_div_two.mpr hx0
  have hc : cos (arccos (nu / z)) = nu / z := cos_arccos (by linarith) hx1.le
  refine ⟨arccos (nu / z), hb0, hb1, ?_, ?_⟩
  · rw [hc]; field_simp
  · have hsin : √(1 - nu * nu / (z * z)) = sin (arccos (nu / z)) := by
      rw [sin_arccos]; congr 1; field_simp
    have harc : π / 2 - arcsin (nu / z) = arccos (nu / z) := by rw [arccos]
    have hs : 0 < sin (arccos (nu / z)) := sin_pos_of_pos_of_lt_pi hb0 (by linarith [pi_pos])
    have hco : 0 < cos (arccos (nu / z)) := by rw [hc]; exact hx0
    unfold highz debyeHigh
    rw [show ((l : ℝ) + 0.5) = nu by rw [hnu]; norm_num]
    simp only [← hnu, hsin, harc]
    set β := arccos (nu / z) with hβ
    have hzc : z * cos β = nu := by rw [hc]; field_simp
    have hzs : z * sin β = nu * tan β := by
      rw [tan_eq_sin_div_cos, ← hzc]; field_simp
    have hT : 0 < tan β := by rw [tan_eq_sin_div_cos]; positivity
    rw [hzs, show nu * tan β - nu * β - π / 4 = nu * (tan β - β) - π / 4 by ring]
    have e1 : nu / (nu * tan β) = 1 / tan β := by field_simp
    rw [e1]
    congr 2
    · congr 1
      field_simp
    · congr 1
      field_simp

end Verif.Bessel
