import Verif.Bessel.Model
import Verif.Bessel.Spec
import Mathlib.Analysis.SpecialFunctions.Trigonometric.Deriv
import Mathlib.Analysis.SpecialFunctions.Trigonometric.Bounds
import Mathlib.Analysis.Calculus.MeanValue
import Mathlib.Analysis.Complex.ExponentialBounds
import Mathlib.Tactic.FieldSimp
import Mathlib.Tactic.LinearCombination

/-!
# Lemmas about spherical Bessel functions
-/
namespace Verif.Bessel

open Real

/-! ### The functions times a power -/

/-- `z ^ (l + 1) * j l z`, which is smooth everywhere. -/
noncomputable def g : ℕ → ℝ → ℝ
  | 0, z => sin z
  | 1, z => sin z - z * cos z
  | l + 2, z => (2 * l + 3) * g (l + 1) z - z ^ 2 * g l z

theorem g_deriv0 (z : ℝ) : HasDerivAt (g 0) (cos z) z := by
  have : g 0 = fun z => sin z := by funext z; simp [g]
  rw [this]; exact hasDerivAt_sin z

theorem g_deriv1 (z : ℝ) : HasDerivAt (g 1) (z * g 0 z) z := by
  have : g 1 = fun z => sin z - z * cos z := by funext z; simp [g]
  rw [this]
  have h := (hasDerivAt_sin z).sub ((hasDerivAt_id z).mul (hasDerivAt_cos z))
  refine h.congr_deriv ?_
  simp [g]

theorem g_step (l : ℕ) : g (l + 2) = fun z => (2 * l + 3) * g (l + 1) z - z ^ 2 * g l z := by
  funext z; rw [g]

theorem g_deriv : ∀ (l : ℕ) (z : ℝ), HasDerivAt (g (l + 1)) (z * g l z) z
  | 0, z => g_deriv1 z
  | 1, z => by
    rw [g_step 0]
    have h := ((g_deriv1 z).const_mul (2 * (0 : ℕ) + 3 : ℝ)).sub (((hasDerivAt_id z).pow 2).mul (g_deriv0 z))
    refine h.congr_deriv ?_
    simp [g]; ring
  | l + 2, z => by
    rw [g_step (l + 1)]
    have h := ((g_deriv (l + 1) z).const_mul (2 * (l + 1 : ℕ) + 3 : ℝ)).sub
      (((hasDerivAt_id z).pow 2).mul (g_deriv l z))
    refine h.congr_deriv ?_
    rw [g_step l]
    simp; ring

theorem g_cont : ∀ l, Continuous (g l)
  | 0 => continuous_iff_continuousAt.mpr fun z => (g_deriv0 z).continuousAt
  | l + 1 => continuous_iff_continuousAt.mpr fun z => (g_deriv l z).continuousAt

theorem g_zero : ∀ l, g l 0 = 0
  | 0 => by simp [g]
  | 1 => by simp [g]
  | l + 2 => by rw [g_step]; simp [g_zero (l + 1)]

theorem g_bound : ∀ (l : ℕ) (z : ℝ), |g l z| ≤ |z| ^ (2 * l + 1)
  | 0, z => by simpa [g] using abs_sin_le_abs
  | l + 1, z => by
    have hb : ∀ x ∈ Set.Icc (-|z|) |z|, ‖x * g l x‖ ≤ |z| ^ (2 * l + 2) := by
      intro x hx
      have hx' : |x| ≤ |z| := abs_le.mpr hx
      rw [Real.norm_eq_abs, abs_mul]
      calc |x| * |g l x| ≤ |x| * |x| ^ (2 * l + 1) := by gcongr; exact g_bound l x
        _ = |x| ^ (2 * l + 2) := by ring
        _ ≤ |z| ^ (2 * l + 2) := by gcongr
    have h := (convex_Icc (-|z|) |z|).norm_image_sub_le_of_norm_hasDerivWithin_le
      (f := g (l + 1)) (f' := fun x => x * g l x) (x := 0) (y := z)
      (fun x _ => (g_deriv l x).hasDerivWithinAt) hb
      ⟨by simp, by simp⟩ ⟨neg_abs_le z, le_abs_self z⟩
    rw [g_zero] at h
    simp only [sub_zero, Real.norm_eq_abs] at h
    calc |g (l + 1) z| ≤ |z| ^ (2 * l + 2) * |z| := h
      _ = |z| ^ (2 * (l + 1) + 1) := by ring

/-! ### The functions -/

theorem j_eq {j : ℕ → ℝ → ℝ} (hj : IsSphericalBessel j) {z : ℝ} (hz : z ≠ 0) :
    ∀ l, j l z = g l z / z ^ (l + 1)
  | 0 => by rw [hj.zero z hz]; simp [g]
  | 1 => by rw [hj.one z hz]; simp [g]; field_simp
  | l + 2 => by
    rw [hj.step l z hz, j_eq hj hz (l + 1), j_eq hj hz l, g_step]
    field_simp
    ring

theorem j_bound {j : ℕ → ℝ → ℝ} (hj : IsSphericalBessel j) (l : ℕ) {z : ℝ} (hz : z ≠ 0) :
    |j l z| ≤ |z| ^ l := by
  rw [j_eq hj hz, abs_div, abs_pow, div_le_iff₀ (by positivity)]
  calc |g l z| ≤ |z| ^ (2 * l + 1) := g_bound l z
    _ = |z| ^ l * |z| ^ (l + 1) := by ring

theorem j_origin {j : ℕ → ℝ → ℝ} (hj : IsSphericalBessel j) {l : ℕ} (hl : 0 < l) : j l 0 = 0 := by
  have h1 : Filter.Tendsto (j l) (nhdsWithin 0 {0}ᶜ) (nhds (j l 0)) :=
    ((hj.cont l).tendsto 0).mono_left nhdsWithin_le_nhds
  have h2 : Filter.Tendsto (j l) (nhdsWithin 0 {0}ᶜ) (nhds 0) := by
    have h3 : Filter.Tendsto (fun z : ℝ => |z| ^ l) (nhdsWithin 0 {0}ᶜ) (nhds 0) := by
      have : Continuous fun z : ℝ => |z| ^ l := by fun_prop
      have h := (this.tendsto 0).mono_left (nhdsWithin_le_nhds (s := {0}ᶜ))
      simpa [hl.ne'] using h
    refine squeeze_zero_norm' ?_ h3
    filter_upwards [self_mem_nhdsWithin] with z hz
    exact j_bound hj l hz
  exact tendsto_nhds_unique h1 h2

/-- The family exists. -/
noncomputable def bes (l : ℕ) (z : ℝ) : ℝ :=
  if z = 0 then (if l = 0 then 1 else 0) else g l z / z ^ (l + 1)

theorem bes_is : IsSphericalBessel bes := by
  refine ⟨?_, ?_, ?_, ?_⟩
  · intro l
    rw [continuous_iff_continuousAt]
    intro z
    by_cases hz : z = 0
    · subst hz
      rw [continuousAt_iff_punctured_nhds]
      have hb : bes l 0 = if l = 0 then 1 else 0 := by simp [bes]
      rw [hb]
      by_cases hl : l = 0
      · subst hl
        have hs := (hasDerivAt_sin 0).tendsto_slope
        simp only [cos_zero] at hs
        refine hs.congr' ?_
        filter_upwards [self_mem_nhdsWithin] with z hz
        have hz' : z ≠ 0 := hz
        simp [bes, hz', g, slope_def_field]
      · rw [if_neg hl]
        have h3 : Filter.Tendsto (fun z : ℝ => |z| ^ l) (nhdsWithin 0 {0}ᶜ) (nhds 0) := by
          have : Continuous fun z : ℝ => |z| ^ l := by fun_prop
          have h := (this.tendsto 0).mono_left (nhdsWithin_le_nhds (s := {0}ᶜ))
          simpa [hl] using h
        refine squeeze_zero_norm' ?_ h3
        filter_upwards [self_mem_nhdsWithin] with z hz
        have hz' : z ≠ 0 := hz
        simp only [bes, if_neg hz', Real.norm_eq_abs]
        rw [abs_div, abs_pow, div_le_iff₀ (by positivity)]
        calc |g l z| ≤ |z| ^ (2 * l + 1) := g_bound l z
          _ = |z| ^ l * |z| ^ (l + 1) := by ring
    · have h : ContinuousAt (fun z => g l z / z ^ (l + 1)) z :=
        ((g_cont l).continuousAt).div (by fun_prop) (pow_ne_zero _ hz)
      refine h.congr ?_
      filter_upwards [isOpen_ne.mem_nhds hz] with w hw
      simp [bes, show w ≠ 0 from hw]
  · intro z hz; simp [bes, hz, g]
  · intro z hz; simp [bes, hz, g]; field_simp
  · intro l z hz
    simp only [bes, if_neg hz, g_step]
    field_simp
    ring

theorem bes_unique {j k : ℕ → ℝ → ℝ} (hj : IsSphericalBessel j) (hk : IsSphericalBessel k) : j = k := by
  funext l
  have hd : Dense ({0}ᶜ : Set ℝ) := dense_compl_singleton 0
  refine Continuous.ext_on hd (hj.cont l) (hk.cont l) ?_
  intro z hz
  rw [j_eq hj hz, j_eq hk hz]

theorem j_deriv {j : ℕ → ℝ → ℝ} (hj : IsSphericalBessel j) (l : ℕ) {z : ℝ} (hz : z ≠ 0) :
    HasDerivAt (j l) (l / z * j l z - j (l + 1) z) z := by
  have hev : (fun z => g l z / z ^ (l + 1)) =ᶠ[nhds z] j l := by
    filter_upwards [isOpen_ne.mem_nhds hz] with w hw
    exact (j_eq hj hw l).symm
  refine HasDerivAt.congr_of_eventuallyEq ?_ hev.symm
  rw [j_eq hj hz, j_eq hj hz]
  cases l with
  | zero =>
    have h := (g_deriv0 z).div ((hasDerivAt_id z).pow 1) (by simpa using hz)
    simp only [zero_add]
    refine h.congr_deriv ?_
    simp [g]
    field_simp
    ring
  | succ l =>
    have h := (g_deriv l z).div ((hasDerivAt_id z).pow (l + 2)) (by simpa using hz)
    refine h.congr_deriv ?_
    rw [g_step l]
    simp
    field_simp
    ring

theorem j_deriv2 {j : ℕ → ℝ → ℝ} (hj : IsSphericalBessel j) (l : ℕ) {z : ℝ} (hz : z ≠ 0) :
    HasDerivAt (deriv (j l))
      (((l : ℝ) ^ 2 - l) / z ^ 2 * j l z - (2 * l + 1) / z * j (l + 1) z + j (l + 2) z) z := by
  have hev : deriv (j l) =ᶠ[nhds z] fun w => l / w * j l w - j (l + 1) w := by
    filter_upwards [isOpen_ne.mem_nhds hz] with w hw
    exact (j_deriv hj l hw).deriv
  refine HasDerivAt.congr_of_eventuallyEq ?_ hev
  have h1 : HasDerivAt (fun w : ℝ => (l : ℝ) / w) (-(l / z ^ 2)) z := by
    have := (hasDerivAt_inv hz).const_mul (l : ℝ)
    simp only [← div_eq_mul_inv] at this
    refine this.congr_deriv ?_
    field_simp
  have h := (h1.mul (j_deriv hj l hz)).sub (j_deriv hj (l + 1) hz)
  refine h.congr_deriv ?_
  push_cast
  field_simp
  ring

end Verif.Bessel
