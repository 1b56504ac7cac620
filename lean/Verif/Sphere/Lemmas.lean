import Verif.Sphere.Spec
import Mathlib.Analysis.SpecialFunctions.Trigonometric.Deriv
import Mathlib.Tactic.Ring
import Mathlib.Tactic.Linarith
import Mathlib.Tactic.LinearCombination
import Mathlib.Tactic.FieldSimp
import Mathlib.Tactic.Positivity

/-!
# Lemmas about coordinates on the sphere
-/
namespace Verif.Sphere

open Real

theorem inner3_eq (u v : V3) : inner3 u v = dot u v := rfl

theorem s2c_unit (θ φ : ℝ) : Unit (s2c θ φ) := by
  unfold Unit dot s2c
  have h1 := sin_sq_add_cos_sq θ
  have h2 := sin_sq_add_cos_sq φ
  simp only
  linear_combination h1 + sin θ ^ 2 * h2

/-- `arctan2` gives the direction of a vector. -/
theorem arctan2_spec (y x : ℝ) :
    -π < arctan2 y x ∧ arctan2 y x ≤ π ∧ √(x ^ 2 + y ^ 2) * cos (arctan2 y x) = x ∧ √(x ^ 2 + y ^ 2) * sin (arctan2 y x) = y := by
  unfold arctan2
  have hn : ‖(⟨x, y⟩ : ℂ)‖ = √(x ^ 2 + y ^ 2) := by
    rw [Complex.norm_def, Complex.normSq_apply]
    simp only
    congr 1
    ring
  refine ⟨Complex.neg_pi_lt_arg _, Complex.arg_le_pi _, ?_, ?_⟩
  · rw [← hn]
    exact Complex.norm_mul_cos_arg _
  · rw [← hn]
    exact Complex.norm_mul_sin_arg _

theorem arctan2_of (r φ : ℝ) (hr : 0 < r) (h1 : -π < φ) (h2 : φ ≤ π) : arctan2 (r * sin φ) (r * cos φ) = φ := by
  unfold arctan2
  have := Complex.arg_mul_cos_add_sin_mul_I hr (θ := φ) ⟨h1, h2⟩
  refine Eq.trans (congrArg Complex.arg ?_) this
  apply Complex.ext
  · simp [← Complex.ofReal_cos, ← Complex.ofReal_sin]
  · simp [← Complex.ofReal_cos, ← Complex.ofReal_sin]

theorem arctan2_zero : arctan2 0 0 = 0 := by
  unfold arctan2
  exact Complex.arg_zero

theorem radius_sq (v : V3) : √(v.x ^ 2 + v.y ^ 2 + v.z ^ 2) ^ 2 = v.x ^ 2 + v.y ^ 2 + v.z ^ 2 := sq_sqrt (by positivity)

theorem radius_pos (v : V3) (h : v ≠ ⟨0, 0, 0⟩) : 0 < √(v.x ^ 2 + v.y ^ 2 + v.z ^ 2) := by
  apply sqrt_pos.2
  by_contra hn
  apply h
  have h1 := sq_nonneg v.x
  have h2 := sq_nonneg v.y
  have h3 := sq_nonneg v.z
  have hx : v.x ^ 2 = 0 := by linarith
  have hy : v.y ^ 2 = 0 := by linarith
  have hz : v.z ^ 2 = 0 := by linarith
  ext
  · exact pow_eq_zero_iff (two_ne_zero) |>.1 hx
  · exact pow_eq_zero_iff (two_ne_zero) |>.1 hy
  · exact pow_eq_zero_iff (two_ne_zero) |>.1 hz

theorem ratio_bound (v : V3) (h : v ≠ ⟨0, 0, 0⟩) : -1 ≤ v.z / √(v.x ^ 2 + v.y ^ 2 + v.z ^ 2) ∧ v.z / √(v.x ^ 2 + v.y ^ 2 + v.z ^ 2) ≤ 1 := by
  have hr := radius_pos v h
  have h2 := radius_sq v
  have habs : |v.z| ≤ √(v.x ^ 2 + v.y ^ 2 + v.z ^ 2) := by
    apply abs_le_of_sq_le_sq _ hr.le
    rw [h2]
    have h1 := sq_nonneg v.x
    have h2 := sq_nonneg v.y
    linarith
  have := abs_le.1 habs
  constructor
  · rw [le_div_iff₀ hr]
    linarith
  · rw [div_le_one hr]
    exact this.2

/-- The computed coordinates of a vector are its polar coordinates. -/
theorem cartToSph_spec (v : V3) (h : v ≠ ⟨0, 0, 0⟩) :
    ∃ r θ φ, cartToSph v = ⟨r, some θ, φ⟩ ∧ 0 < r ∧ 0 ≤ θ ∧ θ ≤ π ∧ -π < φ ∧ φ ≤ π ∧ Polar v r θ φ := by
  have hr := radius_pos v h
  have h2 := radius_sq v
  obtain ⟨hb1, hb2⟩ := ratio_bound v h
  obtain ⟨ha1, ha2, ha3, ha4⟩ := arctan2_spec v.y v.x
  refine ⟨_, _, _, by unfold cartToSph; simp only; rw [if_neg hr.ne'], hr, arccos_nonneg _, arccos_le_pi _, ha1, ha2, ⟨?_, ?_⟩, ?_, ?_⟩
  · exact hr.le
  · rw [h2]
    unfold dot
    ring
  · rw [cos_arccos hb1 hb2]
    field_simp
  · have hs : √(v.x ^ 2 + v.y ^ 2 + v.z ^ 2) * sin (arccos (v.z / √(v.x ^ 2 + v.y ^ 2 + v.z ^ 2))) = √(v.x ^ 2 + v.y ^ 2) := by
      rw [sin_arccos]
      rw [← sqrt_sq hr.le, ← sqrt_mul (sq_nonneg _)]
      congr 1
      rw [sqrt_sq hr.le]
      field_simp
      rw [h2]
      ring
    rw [hs]
    exact ⟨ha3.symm, ha4.symm⟩

/-- Polar coordinates are unique away from the axis. -/
theorem cartToSph_of (v : V3) (r θ φ : ℝ) (hr : 0 < r) (h1 : 0 < θ) (h2 : θ < π) (h3 : -π < φ) (h4 : φ ≤ π) (h : Polar v r θ φ) : cartToSph v = ⟨r, some θ, φ⟩ := by
  have hrad : √(v.x ^ 2 + v.y ^ 2 + v.z ^ 2) = r := by
    rw [← sqrt_sq hr.le, h.radius.2]
    unfold dot
    congr 1
    ring
  have hs : 0 < sin θ := sin_pos_of_pos_of_lt_pi h1 h2
  unfold cartToSph
  simp only [hrad]
  rw [if_neg hr.ne', h.height, mul_div_cancel_left₀ _ hr.ne', arccos_cos h1.le h2.le, h.around.1, h.around.2, arctan2_of _ _ (mul_pos hr hs) h3 h4]

/-- A point other than the origin is a multiple of the unit vector in its direction. -/
theorem polar_scale (v : V3) (r θ φ : ℝ) (h : Polar v r θ φ) : v = (s2c θ φ).scale r := by
  ext
  · rw [h.around.1]
    simp only [V3.scale, s2c]
    ring
  · rw [h.around.2]
    simp only [V3.scale, s2c]
    ring
  · rw [h.height]
    simp only [V3.scale, s2c]

theorem polar_of (r θ φ : ℝ) (hr : 0 ≤ r) : Polar ((s2c θ φ).scale r) r θ φ := by
  have hu := s2c_unit θ φ
  refine ⟨⟨hr, ?_⟩, rfl, ?_, ?_⟩
  · unfold Unit dot at hu
    unfold dot V3.scale
    simp only
    linear_combination -(r ^ 2) * hu
  · simp only [V3.scale, s2c]
    ring
  · simp only [V3.scale, s2c]
    ring

theorem dot_comm (u v : V3) : dot u v = dot v u := by
  unfold dot
  ring

theorem dot_scale (u v : V3) (c : ℝ) : dot u (v.scale c) = c * dot u v := by
  unfold dot V3.scale
  ring

/-- The product of unit vectors is at most one. -/
theorem dot_bound (u v : V3) (hu : Unit u) (hv : Unit v) : -1 ≤ dot u v ∧ dot u v ≤ 1 := by
  unfold Unit at hu hv
  have h1 : 0 ≤ (u.x - v.x) ^ 2 + (u.y - v.y) ^ 2 + (u.z - v.z) ^ 2 := by positivity
  have h2 : 0 ≤ (u.x + v.x) ^ 2 + (u.y + v.y) ^ 2 + (u.z + v.z) ^ 2 := by positivity
  unfold dot at *
  constructor <;> nlinarith

/-- Two unit vectors with product one are the same. -/
theorem eq_of_dot (u v : V3) (hu : Unit u) (hv : Unit v) (h : dot u v = 1) : u = v := by
  unfold Unit at hu hv
  have h0 : (u.x - v.x) ^ 2 + (u.y - v.y) ^ 2 + (u.z - v.z) ^ 2 = 0 := by
    unfold dot at *
    linear_combination hu + hv - 2 * h
  have h1 := sq_nonneg (u.x - v.x)
  have h2 := sq_nonneg (u.y - v.y)
  have h3 := sq_nonneg (u.z - v.z)
  ext
  · have : (u.x - v.x) ^ 2 = 0 := by linarith
    have := pow_eq_zero_iff two_ne_zero |>.1 this
    linarith
  · have : (u.y - v.y) ^ 2 = 0 := by linarith
    have := pow_eq_zero_iff two_ne_zero |>.1 this
    linarith
  · have : (u.z - v.z) ^ 2 = 0 := by linarith
    have := pow_eq_zero_iff two_ne_zero |>.1 this
    linarith

theorem angle_arccos (u v : V3) (hu : Unit u) (hv : Unit v) : Angle u v (arccos (dot u v)) :=
  ⟨arccos_nonneg _, arccos_le_pi _, cos_arccos (dot_bound u v hu hv).1 (dot_bound u v hu hv).2⟩

theorem angle_unique (u v : V3) (γ : ℝ) (h : Angle u v γ) : γ = arccos (dot u v) := by
  rw [← h.2.2, arccos_cos h.1 h.2.1]

/-- The angles of three directions. -/
theorem angle_triangle (u v w : V3) (hu : Unit u) (hv : Unit v) (hw : Unit w) (a b c : ℝ) (ha : Angle u v a) (hb : Angle v w b) (hc : Angle u w c) : c ≤ a + b := by
  rcases le_or_gt π (a + b) with h | h
  · exact hc.2.1.trans h
  have hgram : 0 ≤ 1 + 2 * dot u v * dot v w * dot u w - dot u v ^ 2 - dot v w ^ 2 - dot u w ^ 2 := by
    have : (dot u (cross v w)) ^ 2 = dot u u * (dot v v * dot w w - dot v w ^ 2) - dot u v * (dot u v * dot w w - dot v w * dot u w) +
        dot u w * (dot u v * dot v w - dot v v * dot u w) := by
      unfold dot cross
      ring
    rw [hu, hv, hw] at this
    have hsq := sq_nonneg (dot u (cross v w))
    nlinarith
  rw [← ha.2.2, ← hb.2.2, ← hc.2.2] at hgram
  have hsa : 0 ≤ sin a := sin_nonneg_of_nonneg_of_le_pi ha.1 ha.2.1
  have hsb : 0 ≤ sin b := sin_nonneg_of_nonneg_of_le_pi hb.1 hb.2.1
  have h1 : (cos c - cos a * cos b) ^ 2 ≤ (sin a * sin b) ^ 2 := by
    have e1 := sin_sq_add_cos_sq a
    have e2 := sin_sq_add_cos_sq b
    have e3 : (sin a * sin b) ^ 2 = (1 - cos a ^ 2) * (1 - cos b ^ 2) := by
      rw [mul_pow]
      rw [show sin a ^ 2 = 1 - cos a ^ 2 by linarith, show sin b ^ 2 = 1 - cos b ^ 2 by linarith]
    rw [e3]
    nlinarith
  have h2 : -(sin a * sin b) ≤ cos c - cos a * cos b := (abs_le.1 (abs_le_of_sq_le_sq h1 (mul_nonneg hsa hsb))).1
  have h3 : cos (a + b) ≤ cos c := by
    rw [cos_add]
    linarith
  by_contra hn
  have := cos_lt_cos_of_nonneg_of_le_pi (x := a + b) (y := c) (add_nonneg ha.1 hb.1) hc.2.1 (not_le.1 hn)
  linarith

/-! ### Great circles -/

theorem sin_arccos_half (D : ℝ) (h1 : -1 ≤ D) (h2 : D ≤ 1) : √(2 - 2 * D) = 2 * sin (arccos D / 2) := by
  have h0 : 0 ≤ sin (arccos D / 2) := by
    apply sin_nonneg_of_nonneg_of_le_pi
    · have := arccos_nonneg D
      linarith
    · have := arccos_le_pi D
      have := pi_pos
      linarith
  have hc : D = 1 - 2 * sin (arccos D / 2) ^ 2 := by
    have h3 := cos_arccos h1 h2
    have h4 := cos_two_mul (arccos D / 2)
    rw [show 2 * (arccos D / 2) = arccos D by ring, h3] at h4
    have h5 := sin_sq_add_cos_sq (arccos D / 2)
    linarith
  rw [show 2 - 2 * D = (2 * sin (arccos D / 2)) ^ 2 by linear_combination (-2) * hc, sqrt_sq (by linarith)]

/-- A point on the chord, in terms of half the angle `a` and of the angle `u` from the middle. -/
theorem chord (c1 c2 : V3) (h1 : Unit c1) (h2 : Unit c2) (a u : ℝ) (hD : dot c1 c2 = cos (2 * a)) (hs : sin a ≠ 0) (hc : 0 < cos a) (hu : 0 < cos u) (p : V3)
    (hp : p = (c1.scale 1).add ((c2.sub c1).scale (sin (u + a) / cos u / (2 * sin a)))) :
    dot p p = (cos a / cos u) ^ 2 ∧ dot c1 p = cos a / cos u * cos (u + a) ∧ dot p c2 = cos a / cos u * cos (a - u) := by
  unfold Unit at h1 h2
  have hD' : dot c1 c2 = 1 - 2 * sin a ^ 2 := by
    rw [hD, cos_two_mul]
    have := sin_sq_add_cos_sq a
    linarith
  have e1 := sin_sq_add_cos_sq a
  have e2 := sin_sq_add_cos_sq u
  set t := sin (u + a) / cos u / (2 * sin a) with ht
  have htm : t * (2 * sin a * cos u) = sin u * cos a + cos u * sin a := by
    rw [ht, ← sin_add]
    field_simp
  clear_value t
  clear ht
  have hpp : dot p p = 1 - 2 * t * (2 * sin a ^ 2) + t ^ 2 * (4 * sin a ^ 2) := by
    rw [hp]
    unfold dot V3.add V3.scale V3.sub at *
    simp only
    linear_combination (1 - t) ^ 2 * h1 + t ^ 2 * h2 + 2 * t * (1 - t) * hD'
  have hc1 : dot c1 p = 1 - t * (2 * sin a ^ 2) := by
    rw [hp]
    unfold dot V3.add V3.scale V3.sub at *
    simp only
    linear_combination (1 - t) * h1 + t * hD'
  have hc2 : dot p c2 = 1 - 2 * sin a ^ 2 + t * (2 * sin a ^ 2) := by
    rw [hp]
    unfold dot V3.add V3.scale V3.sub at *
    simp only
    linear_combination (1 - t) * hD' + t * h2
  refine ⟨?_, ?_, ?_⟩
  · rw [hpp, div_pow, eq_div_iff (pow_ne_zero 2 hu.ne')]
    have h3 : (1 - 2 * t * (2 * sin a ^ 2) + t ^ 2 * (4 * sin a ^ 2)) * cos u ^ 2 =
        cos u ^ 2 - 2 * (t * (2 * sin a * cos u)) * sin a * cos u + (t * (2 * sin a * cos u)) ^ 2 := by ring
    rw [h3, htm]
    linear_combination (-cos u ^ 2) * e1 + cos a ^ 2 * e2
  · rw [hc1, div_mul_eq_mul_div, eq_div_iff hu.ne', cos_add]
    have h3 : (1 - t * (2 * sin a ^ 2)) * cos u = cos u - (t * (2 * sin a * cos u)) * sin a := by ring
    rw [h3, htm]
    linear_combination (-cos u) * e1
  · rw [hc2, div_mul_eq_mul_div, eq_div_iff hu.ne', cos_sub]
    have h3 : (1 - 2 * sin a ^ 2 + t * (2 * sin a ^ 2)) * cos u = cos u - 2 * sin a ^ 2 * cos u + (t * (2 * sin a * cos u)) * sin a := by ring
    rw [h3, htm]
    linear_combination (-cos u) * e1

end Verif.Sphere
