import Verif.Sphere.Lemmas
import Mathlib.Data.List.Forall2
import Mathlib.Analysis.Real.Pi.Bounds

/-!
# C79: spherical polar coordinates
-/
namespace Verif.Sphere

open Real

/-! ### To Cartesian coordinates and back -/

theorem s2cRows_spec (rows : List (List ℝ)) (h : ∀ p ∈ rows, p.length = 2 ∨ p.length = 3) :
    ∃ vs, s2cRows rows = .ok vs ∧ List.Forall₂ (fun p v => (∀ θ φ, p = [θ, φ] → v = s2c θ φ) ∧ ∀ r θ φ, p = [r, θ, φ] → v = (s2c θ φ).scale r) rows vs := by
  induction rows with
  | nil => exact ⟨[], rfl, .nil⟩
  | cons p ps ih =>
    obtain ⟨vs, h1, h2⟩ := ih fun q hq => h q (List.mem_cons_of_mem _ hq)
    rcases h p List.mem_cons_self with hp | hp
    · obtain ⟨θ, φ, rfl⟩ := List.length_eq_two.1 hp
      refine ⟨s2c θ φ :: vs, ?_, .cons ⟨?_, ?_⟩ h2⟩
      · rw [s2cRows]
        simp only [s2cRow, h1]
      · intro θ' φ' he
        simp only [List.cons.injEq, and_true] at he
        rw [he.1, he.2]
      · intro r θ' φ' he
        simp at he
    · obtain ⟨r, θ, φ, rfl⟩ := List.length_eq_three.1 hp
      refine ⟨(s2c θ φ).scale r :: vs, ?_, .cons ⟨?_, ?_⟩ h2⟩
      · rw [s2cRows]
        simp only [s2cRow, h1]
        congr 2
        simp only [V3.scale, V3.mk.injEq]
        refine ⟨?_, ?_, ?_⟩ <;> ring
      · intro θ' φ' he
        simp at he
      · intro r' θ' φ' he
        simp only [List.cons.injEq, and_true] at he
        rw [he.1, he.2.1, he.2.2]

/-- **C79** `sph_to_cart` of an array of vectors, all given by radius and angles or all by angles only, gives the vectors with those polar coordinates, the radius being one in the
second case. Other numbers of coordinates, and what is not an array, are a `ValueError`. -/
theorem C79_to_cartesian (nd : Nat) (rows : List (List ℝ)) (h : ∀ p ∈ rows, p.length = nd) :
    (nd = 2 ∨ nd = 3 → ∃ vs, sphToCart true nd rows = .ok vs ∧
      List.Forall₂ (fun p v => (∀ θ φ, p = [θ, φ] → Polar v 1 θ φ) ∧ ∀ r θ φ, p = [r, θ, φ] → 0 ≤ r → Polar v r θ φ) rows vs) ∧
      (nd ≠ 2 → nd ≠ 3 → sphToCart true nd rows = .error .valueError) ∧ sphToCart false nd rows = .error .valueError := by
  refine ⟨?_, ?_, ?_⟩
  · intro hnd
    obtain ⟨vs, h1, h2⟩ := s2cRows_spec rows (by
      intro p hp
      rw [h p hp]
      exact hnd)
    refine ⟨vs, ?_, ?_⟩
    · unfold sphToCart
      rw [if_neg (by simp), if_neg (by omega), h1]
    · apply h2.imp
      rintro p v ⟨h3, h4⟩
      refine ⟨?_, ?_⟩
      · intro θ φ hp
        rw [h3 θ φ hp]
        have := polar_of 1 θ φ zero_le_one
        simpa [V3.scale] using this
      · intro r θ φ hp hr
        rw [h4 r θ φ hp]
        exact polar_of r θ φ hr
  · intro h1 h2
    unfold sphToCart
    rw [if_neg (by simp), if_pos ⟨h1, h2⟩]
  · unfold sphToCart
    rw [if_pos rfl]

/-- **C79** `cart_to_sph` gives the polar coordinates of every vector of floating point numbers that is not zero, with the angles in their ranges; `sph_to_cart` gives the vector
back. -/
theorem C79_there_and_back_partial (v : V3) (h : v ≠ ⟨0, 0, 0⟩) :
    ∃ r θ φ, cartToSph v = ⟨r, some θ, φ⟩ ∧ 0 < r ∧ 0 ≤ θ ∧ θ ≤ π ∧ -π < φ ∧ φ ≤ π ∧ Polar v r θ φ ∧ sphToCart true 3 [[r, θ, φ]] = .ok [v] := by
  obtain ⟨r, θ, φ, h1, h2, h3, h4, h5, h6, h7⟩ := cartToSph_spec v h
  refine ⟨r, θ, φ, h1, h2, h3, h4, h5, h6, h7, ?_⟩
  have hv := polar_scale v r θ φ h7
  unfold sphToCart
  rw [if_neg (by simp), if_neg (by simp)]
  simp only [s2cRows, s2cRow]
  congr 2
  rw [hv]
  simp only [V3.scale, V3.mk.injEq]
  refine ⟨?_, ?_, ?_⟩ <;> ring

/-- **C79** The other way round: polar coordinates come back from the vector that has them, away from the axis; on the axis the radius and the angle to the axis do. -/
theorem C79_back_and_there (v : V3) (r θ φ : ℝ) (hr : 0 < r) (h3 : -π < φ) (h4 : φ ≤ π) (h : Polar v r θ φ) :
    (0 < θ → θ < π → cartToSph v = ⟨r, some θ, φ⟩) ∧ (θ = 0 ∨ θ = π → cartToSph v = ⟨r, some θ, 0⟩) := by
  refine ⟨fun h1 h2 => cartToSph_of v r θ φ hr h1 h2 h3 h4 h, ?_⟩
  intro hθ
  have hrad : √(v.x ^ 2 + v.y ^ 2 + v.z ^ 2) = r := by
    rw [← sqrt_sq hr.le, h.radius.2]
    unfold dot
    congr 1
    ring
  have hs : sin θ = 0 := by
    rcases hθ with rfl | rfl
    · exact sin_zero
    · exact sin_pi
  have hb : 0 ≤ θ ∧ θ ≤ π := by
    have := pi_pos
    rcases hθ with rfl | rfl
    · exact ⟨le_refl _, this.le⟩
    · exact ⟨this.le, le_refl _⟩
  unfold cartToSph
  simp only [hrad]
  rw [if_neg hr.ne', h.height, mul_div_cancel_left₀ _ hr.ne', arccos_cos hb.1 hb.2, h.around.1, h.around.2, hs]
  simp only [mul_zero, zero_mul, arctan2_zero]

/-- The vector (0, 1, 0). -/
example : cartToSph ⟨0, 1, 0⟩ = ⟨1, some (π / 2), π / 2⟩ := by
  have hp := pi_pos
  refine (C79_back_and_there ⟨0, 1, 0⟩ 1 (π / 2) (π / 2) one_pos (by linarith) (by linarith) ⟨⟨zero_le_one, by simp [dot]⟩, by simp, by simp, by simp⟩).1 (by linarith) (by linarith)

example : (⟨0, 1, 0⟩ : V3) ≠ ⟨0, 0, 0⟩ := by simp

/-- **C79 fails** at the origin, which has no angles: one is `nan`. -/
theorem C79_origin_violated : cartToSph ⟨0, 0, 0⟩ = ⟨0, none, 0⟩ := by
  unfold cartToSph
  simp [arctan2_zero]

theorem trunc_of (x : ℝ) (n : ℤ) (h0 : 0 ≤ x) (h1 : (n : ℝ) ≤ x) (h2 : x < n + 1) : trunc x = n := by
  unfold trunc
  rw [if_neg (not_lt.2 h0)]
  exact Int.floor_eq_iff.2 ⟨h1, h2⟩

/-- **C79 fails** for arrays of integers, which the types in the documentation allow: the vector (0, 1, 1), half way between the plane and the axis, is at radius one and on the axis. -/
theorem C79_integers_violated : cartToSphInt 0 1 1 = (1, some 0, 1) := by
  have hr : trunc √2 = 1 := by
    apply trunc_of
    · exact sqrt_nonneg _
    · rw [Int.cast_one]
      exact one_le_sqrt.2 (by norm_num)
    · have : √2 < √4 := sqrt_lt_sqrt (by norm_num) (by norm_num)
      have h4 : √4 = 2 := by
        rw [show (4 : ℝ) = 2 ^ 2 by norm_num, sqrt_sq (by norm_num)]
      rw [h4] at this
      push_cast
      linarith
  have ha : trunc (arctan2 1 0) = 1 := by
    have : arctan2 1 0 = π / 2 := by
      have hp := pi_pos
      have := arctan2_of 1 (π / 2) one_pos (by linarith) (by linarith)
      simpa using this
    rw [this]
    have h3 := pi_gt_three
    have h4 := pi_lt_four
    apply trunc_of
    · linarith
    · push_cast; linarith
    · push_cast; linarith
  have hz : trunc 0 = 0 := trunc_of 0 0 le_rfl (by simp) (by norm_num)
  unfold cartToSphInt
  have hs : ((0 : ℤ) : ℝ) ^ 2 + ((1 : ℤ) : ℝ) ^ 2 + ((1 : ℤ) : ℝ) ^ 2 = 2 := by norm_num
  simp only [hs, hr, if_neg (show ¬ (1 : ℤ) = 0 by decide)]
  have hd : ((1 : ℤ) : ℝ) / ((1 : ℤ) : ℝ) = 1 := by norm_num
  simp only [hd, arccos_one, hz]
  rw [show ((1 : ℤ) : ℝ) = 1 by norm_num, show ((0 : ℤ) : ℝ) = 0 by norm_num, ha]

/-! ### Products -/

/-- **C79** (partial) `sph_dot` of one vector with one vector is their product: the radii times the cosine of the angle between them. For arrays it gives the products of all vectors of one
array with all of the other.

Missing: the documentation has arrays broadcast against each other (`C79_dot_violated`). -/
theorem C79_dot_partial (arr1 arr2 : List (List ℝ)) (h1 : ∀ p ∈ arr1, p.length = 3) (h2 : ∀ p ∈ arr2, p.length = 3) :
    ∃ m, sphDot 3 3 arr1 arr2 = .ok m ∧ List.Forall₂ (fun p row => List.Forall₂ (fun q d => ∀ r θ φ r' θ' φ', p = [r, θ, φ] → q = [r', θ', φ'] →
      d = r * r' * (cos θ * cos θ' + sin θ * sin θ' * cos (φ - φ'))) arr2 row) arr1 m := by
  obtain ⟨us, hu1, hu2⟩ := s2cRows_spec arr1 fun p hp => .inr (h1 p hp)
  obtain ⟨vs, hv1, hv2⟩ := s2cRows_spec arr2 fun p hp => .inr (h2 p hp)
  refine ⟨us.map fun u => vs.map fun v => inner3 u v, ?_, ?_⟩
  · unfold sphDot sphToCart
    simp only [hu1, hv1]
    simp
  · rw [List.forall₂_map_right_iff]
    apply hu2.imp
    rintro p u ⟨-, hu⟩
    rw [List.forall₂_map_right_iff]
    apply hv2.imp
    rintro q v ⟨-, hv⟩
    intro r θ φ r' θ' φ' hp hq
    rw [hu r θ φ hp, hv r' θ' φ' hq, cos_sub]
    simp only [inner3, V3.scale, s2c]
    ring

/-- **C79 fails** for two arrays of two vectors: there are four products instead of two. -/
theorem C79_dot_violated :
    sphDot 2 2 [[0, 0], [π, 0]] [[0, 0], [π, 0]] = .ok [[1, -1], [-1, 1]] := by
  simp [sphDot, sphToCart, s2cRows, s2cRow, s2c, inner3]

/-! ### Unit vectors -/

/-- **C79** The two vectors of `thetaphi_plane`, with the direction of the point itself, are unit vectors at right angles, in right-handed order, and they point where `theta` and `phi`
grow: they are the derivatives of the point by the angles, the second per angle around the axis. `thetaphi_plane_cart` gives the same vectors. -/
theorem C79_plane (θ φ : ℝ) :
    ∃ t p tc pc, thetaphiPlane false [θ, φ] = .ok (t, p) ∧ s2cRow t = .ok tc ∧ s2cRow p = .ok pc ∧ thetaphiPlaneCart true [θ, φ] = .ok (tc, pc) ∧
      (∀ r, ∃ t' p', thetaphiPlane false [r, θ, φ] = .ok (t', p') ∧ s2cRow t' = .ok tc ∧ s2cRow p' = .ok pc) ∧
      RightHanded (s2c θ φ) tc pc ∧
      (HasDerivAt (fun t => (s2c t φ).x) tc.x θ ∧ HasDerivAt (fun t => (s2c t φ).y) tc.y θ ∧ HasDerivAt (fun t => (s2c t φ).z) tc.z θ) ∧
      (HasDerivAt (fun t => (s2c θ t).x) (sin θ * pc.x) φ ∧ HasDerivAt (fun t => (s2c θ t).y) (sin θ * pc.y) φ ∧ HasDerivAt (fun t => (s2c θ t).z) (sin θ * pc.z) φ) := by
  have e1 := sin_sq_add_cos_sq θ
  have e2 := sin_sq_add_cos_sq φ
  refine ⟨_, _, s2c (θ + π / 2) φ, s2c (π / 2) (φ + π / 2), rfl, rfl, rfl, rfl, ?_, ⟨s2c_unit _ _, s2c_unit _ _, s2c_unit _ _, ?_, ?_, ?_, ?_⟩, ⟨?_, ?_, ?_⟩, ?_, ?_, ?_⟩
  · intro r
    refine ⟨_, _, rfl, ?_, ?_⟩
    · simp only [s2cRow, mul_one]
    · simp only [s2cRow, mul_one]
  · simp only [dot, s2c, sin_add_pi_div_two, cos_add_pi_div_two]
    linear_combination sin θ * cos θ * e2
  · simp only [dot, s2c, sin_add_pi_div_two, cos_add_pi_div_two, sin_pi_div_two, cos_pi_div_two]
    ring
  · simp only [dot, s2c, sin_add_pi_div_two, cos_add_pi_div_two, sin_pi_div_two, cos_pi_div_two]
    ring
  · simp only [cross, s2c, sin_add_pi_div_two, cos_add_pi_div_two, sin_pi_div_two, cos_pi_div_two, V3.mk.injEq]
    refine ⟨?_, ?_, ?_⟩
    · linear_combination (-sin φ) * e1
    · linear_combination cos φ * e1
    · ring
  · simp only [s2c, sin_add_pi_div_two]
    exact (hasDerivAt_sin θ).mul_const _
  · simp only [s2c, sin_add_pi_div_two]
    exact (hasDerivAt_sin θ).mul_const _
  · simp only [s2c, cos_add_pi_div_two]
    exact hasDerivAt_cos θ
  · simp only [s2c, sin_pi_div_two, cos_add_pi_div_two, one_mul]
    exact (hasDerivAt_cos φ).const_mul _
  · simp only [s2c, sin_pi_div_two, sin_add_pi_div_two, one_mul]
    exact (hasDerivAt_sin φ).const_mul _
  · simp only [s2c, cos_pi_div_two, mul_zero]
    exact hasDerivAt_const φ _

/-- **C79 fails** for vectors with a radius, which `thetaphi_plane_cart` is said to take: a `ValueError`. -/
theorem C79_plane_radius_violated (r θ φ : ℝ) : thetaphiPlaneCart true [r, θ, φ] = .error .valueError := rfl

/-! ### Two dimensions -/

/-- **C79** `norm_vec2` gives every vector, none of which is zero, length one and leaves its direction. -/
theorem C79_normalise (rows : List (ℝ × ℝ)) :
    ((∀ v ∈ rows, v ≠ (0, 0)) → ∃ ws, normVec2 rows = .ok ws ∧
      List.Forall₂ (fun v w => w.1 ^ 2 + w.2 ^ 2 = 1 ∧ ∃ s : ℝ, 0 < s ∧ v = (s * w.1, s * w.2)) rows ws) ∧
      ((0, 0) ∈ rows → normVec2 rows = .error .zeroDivision) := by
  have key : ∀ v : ℝ × ℝ, √(v.1 ^ 2 + v.2 ^ 2) = 0 ↔ v = (0, 0) := by
    intro v
    rw [sqrt_eq_zero (by positivity)]
    constructor
    · intro h
      have h1 := sq_nonneg v.1
      have h2 := sq_nonneg v.2
      have ha : v.1 ^ 2 = 0 := by linarith
      have hb : v.2 ^ 2 = 0 := by linarith
      exact Prod.ext (pow_eq_zero_iff two_ne_zero |>.1 ha) (pow_eq_zero_iff two_ne_zero |>.1 hb)
    · rintro rfl
      simp
  constructor
  · intro h
    unfold normVec2
    rw [if_neg]
    · refine ⟨_, rfl, ?_⟩
      rw [List.forall₂_map_right_iff, List.forall₂_same]
      intro v hv
      have hne : √(v.1 ^ 2 + v.2 ^ 2) ≠ 0 := fun h0 => h v hv ((key v).1 h0)
      have hsq : √(v.1 ^ 2 + v.2 ^ 2) ^ 2 = v.1 ^ 2 + v.2 ^ 2 := sq_sqrt (by positivity)
      refine ⟨?_, √(v.1 ^ 2 + v.2 ^ 2), lt_of_le_of_ne (sqrt_nonneg _) (Ne.symm hne), ?_⟩
      · simp only
        rw [div_pow, div_pow, ← add_div, hsq, div_self (hsq ▸ pow_ne_zero 2 hne)]
      · ext
        · simp only
          field_simp
        · simp only
          field_simp
    · rintro ⟨v, hv, h0⟩
      exact h v hv ((key v).1 h0)
  · intro h
    unfold normVec2
    rw [if_pos ⟨_, h, (key _).2 rfl⟩]

/-- The vectors (3, 4) and (0, -2). -/
example : ∀ v ∈ [((3, 4) : ℝ × ℝ), (0, -2)], v ≠ (0, 0) := by
  intro v hv
  simp only [List.mem_cons, List.not_mem_nil, or_false] at hv
  rcases hv with rfl | rfl <;> simp

/-! ### Great circles -/

theorem linspace_length (n : Nat) : (linspace n).length = n := by
  unfold linspace
  split
  · simp_all
  · simp

theorem linspace_get (n k : Nat) (hn : 2 ≤ n) (hk : k < n) : (linspace n)[k]? = some ((k : ℝ) / ((n : ℝ) - 1)) := by
  unfold linspace
  rw [if_neg (by omega), List.getElem?_map, List.getElem?_range hk]
  rfl

theorem linspace_range (n : Nat) (f : ℝ) (h : f ∈ linspace n) : 0 ≤ f ∧ f ≤ 1 := by
  unfold linspace at h
  split at h
  · simp only [List.mem_singleton] at h
    subst h
    exact ⟨le_refl _, zero_le_one⟩
  · obtain ⟨k, hk, rfl⟩ := List.mem_map.1 h
    rw [List.mem_range] at hk
    have h1 : (1 : ℝ) ≤ n := by exact_mod_cast (by omega : 1 ≤ n)
    have h2 : (k : ℝ) ≤ (n : ℝ) - 1 := by
      have : (k : ℝ) + 1 ≤ n := by exact_mod_cast (by omega : k + 1 ≤ n)
      linarith
    have h3 : (0 : ℝ) ≤ k := Nat.cast_nonneg k
    exact ⟨div_nonneg h3 (by linarith), div_le_one_of_le₀ h2 (by linarith)⟩

/-- One point on a great circle. -/
theorem circle_point (c1 c2 : V3) (h1 : Unit c1) (h2 : Unit c2) (hD1 : dot c1 c2 ≠ 1) (hD2 : dot c1 c2 ≠ -1) (f : ℝ) (hf0 : 0 ≤ f) (hf1 : f ≤ 1) :
    ∃ θ φ, (let dc := c2.sub c1
      let d := √(inner3 dc dc)
      let dcn : V3 := ⟨dc.x / d, dc.y / d, dc.z / d⟩
      let thc := arccos (inner3 c1 c2)
      let alp := arccos (-inner3 c1 dcn)
      let x := sin (f * thc) / sin (f * thc + alp)
      let s := cartToSph ⟨x * dcn.x + c1.x, x * dcn.y + c1.y, x * dcn.z + c1.z⟩
      (s.θ, some s.φ)) = (some θ, some φ) ∧ 0 ≤ θ ∧ θ ≤ π ∧ -π < φ ∧ φ ≤ π ∧
      Angle c1 (s2c θ φ) (f * arccos (dot c1 c2)) ∧ Angle (s2c θ φ) c2 ((1 - f) * arccos (dot c1 c2)) := by
  obtain ⟨hb1, hb2⟩ := dot_bound c1 c2 h1 h2
  have hlt1 : dot c1 c2 < 1 := lt_of_le_of_ne hb2 hD1
  have hgt1 : -1 < dot c1 c2 := lt_of_le_of_ne hb1 (Ne.symm hD2)
  set D := dot c1 c2 with hDdef
  set thc := arccos D with hthc
  have ht0 : 0 < thc := arccos_pos.2 hlt1
  have htpi : thc < π := by
    rw [hthc]
    exact lt_of_le_of_ne (arccos_le_pi D) fun h => by
      have := arccos_eq_pi.1 h
      linarith
  have hpi := pi_pos
  have hsa : 0 < sin (thc / 2) := sin_pos_of_pos_of_lt_pi (by linarith) (by linarith)
  have hca : 0 < cos (thc / 2) := cos_pos_of_mem_Ioo ⟨by linarith, by linarith⟩
  have hcosD : D = cos (2 * (thc / 2)) := by
    rw [show 2 * (thc / 2) = thc by ring, hthc, cos_arccos hb1 hb2]
  have hd : √(inner3 (c2.sub c1) (c2.sub c1)) = 2 * sin (thc / 2) := by
    rw [← sin_arccos_half D hb1 hb2]
    congr 1
    unfold Unit at h1 h2
    unfold dot at h1 h2 hDdef
    unfold inner3 V3.sub
    simp only
    linear_combination h1 + h2 + 2 * hDdef
  have halp : arccos (-inner3 c1 ⟨(c2.sub c1).x / (2 * sin (thc / 2)), (c2.sub c1).y / (2 * sin (thc / 2)), (c2.sub c1).z / (2 * sin (thc / 2))⟩) = π / 2 - thc / 2 := by
    have : -inner3 c1 ⟨(c2.sub c1).x / (2 * sin (thc / 2)), (c2.sub c1).y / (2 * sin (thc / 2)), (c2.sub c1).z / (2 * sin (thc / 2))⟩ = sin (thc / 2) := by
      have h3 : inner3 c1 ⟨(c2.sub c1).x / (2 * sin (thc / 2)), (c2.sub c1).y / (2 * sin (thc / 2)), (c2.sub c1).z / (2 * sin (thc / 2))⟩ = (D - 1) / (2 * sin (thc / 2)) := by
        unfold Unit at h1
        unfold dot at h1 hDdef
        unfold inner3 V3.sub
        simp only
        rw [eq_div_iff (by positivity)]
        field_simp
        linear_combination -h1 - hDdef
      rw [h3]
      have h4 := cos_two_mul (thc / 2)
      rw [← hcosD] at h4
      have h5 := sin_sq_add_cos_sq (thc / 2)
      rw [← neg_div, div_eq_iff (by positivity)]
      nlinarith
    rw [this, ← cos_pi_div_two_sub, arccos_cos (by linarith) (by linarith)]
  have hu : 0 < cos (f * thc - thc / 2) := by
    apply cos_pos_of_mem_Ioo
    have := mul_nonneg hf0 ht0.le
    have := mul_le_of_le_one_left ht0.le hf1
    constructor <;> linarith
  have hsin : sin (f * thc + (π / 2 - thc / 2)) = cos (f * thc - thc / 2) := by
    rw [show f * thc + (π / 2 - thc / 2) = (f * thc - thc / 2) + π / 2 by ring, sin_add_pi_div_two]
  simp only [hd]
  rw [inner3_eq c1 c2, ← hDdef, ← hthc, halp, hsin]
  set u := f * thc - thc / 2 with hudef
  have hfu : f * thc = u + thc / 2 := by
    rw [hudef]
    ring
  rw [hfu]
  set p : V3 := ⟨sin (u + thc / 2) / cos u * ((c2.sub c1).x / (2 * sin (thc / 2))) + c1.x, sin (u + thc / 2) / cos u * ((c2.sub c1).y / (2 * sin (thc / 2))) + c1.y,
    sin (u + thc / 2) / cos u * ((c2.sub c1).z / (2 * sin (thc / 2))) + c1.z⟩ with hp
  obtain ⟨hpp, hp1, hp2⟩ := chord c1 c2 h1 h2 (thc / 2) u (by rw [← hDdef]; exact hcosD) hsa.ne' hca hu p (by
    rw [hp]
    simp only [V3.add, V3.scale, V3.mk.injEq]
    refine ⟨?_, ?_, ?_⟩ <;> ring)
  have hq : 0 < cos (thc / 2) / cos u := div_pos hca hu
  have hpne : p ≠ ⟨0, 0, 0⟩ := by
    intro h0
    rw [h0] at hpp
    have : (cos (thc / 2) / cos u) ^ 2 = 0 := by
      rw [← hpp]
      simp [dot]
    exact hq.ne' (pow_eq_zero_iff two_ne_zero |>.1 this)
  obtain ⟨r, θ, φ, hs, hr, hθ0, hθ1, hφ0, hφ1, hpol⟩ := cartToSph_spec p hpne
  have hreq : r = cos (thc / 2) / cos u := by
    have h3 := hpol.radius.2
    rw [hpp] at h3
    exact (sq_eq_sq₀ hr.le hq.le).1 h3
  have hps := polar_scale p r θ φ hpol
  refine ⟨θ, φ, by rw [hs], hθ0, hθ1, hφ0, hφ1, ⟨?_, ?_, ?_⟩, ?_, ?_, ?_⟩
  · rw [← hfu]
    exact mul_nonneg hf0 ht0.le
  · rw [← hfu]
    exact (mul_le_of_le_one_left ht0.le hf1).trans htpi.le
  · rw [hps, dot_scale, hreq] at hp1
    exact (mul_left_cancel₀ hq.ne' hp1).symm
  · exact mul_nonneg (by linarith) ht0.le
  · exact (mul_le_of_le_one_left ht0.le (by linarith)).trans htpi.le
  · rw [dot_comm, hps, dot_scale, hreq] at hp2
    have := mul_left_cancel₀ hq.ne' hp2
    rw [dot_comm, this]
    congr 1
    rw [hudef]
    ring

/-- **C79** (partial) `great_circle_points` between two points that are neither the same nor opposite gives `n` points, the one with number `k` at the fraction `k / (n - 1)` of the angle from
the first point to the second, on the shortest way: the angles to both ends add up. For opposite points it is an exception.

Missing: for equal points everything is `nan` (`C79_equal_violated`). -/
theorem C79_circle_partial (θ₁ φ₁ θ₂ φ₂ : ℝ) (n : Nat) (hD1 : s2c θ₁ φ₁ ≠ s2c θ₂ φ₂) :
    (dot (s2c θ₁ φ₁) (s2c θ₂ φ₂) ≠ -1 → ∃ ps, greatCirclePoints [θ₁, φ₁] [θ₂, φ₂] n = .ok ps ∧ ps.length = n ∧
      ∀ γ, Angle (s2c θ₁ φ₁) (s2c θ₂ φ₂) γ → ∀ k, k < n → 2 ≤ n → ∃ θ φ, ps[k]? = some (some θ, some φ) ∧ 0 ≤ θ ∧ θ ≤ π ∧ -π < φ ∧ φ ≤ π ∧
        Angle (s2c θ₁ φ₁) (s2c θ φ) ((k : ℝ) / ((n : ℝ) - 1) * γ) ∧ Angle (s2c θ φ) (s2c θ₂ φ₂) ((1 - (k : ℝ) / ((n : ℝ) - 1)) * γ)) ∧
      (dot (s2c θ₁ φ₁) (s2c θ₂ φ₂) = -1 → greatCirclePoints [θ₁, φ₁] [θ₂, φ₂] n = .error .antipodal) := by
  set c1 := s2c θ₁ φ₁ with hc1
  set c2 := s2c θ₂ φ₂ with hc2
  have h1 : Unit c1 := s2c_unit _ _
  have h2 : Unit c2 := s2c_unit _ _
  have hdd : (c2.sub c1).x ^ 2 + (c2.sub c1).y ^ 2 + (c2.sub c1).z ^ 2 = 2 - 2 * dot c1 c2 := by
    unfold Unit dot at h1 h2
    unfold V3.sub dot
    simp only
    linear_combination h1 + h2
  have hgc : greatCirclePoints [θ₁, φ₁] [θ₂, φ₂] n = circleOf c1 c2 n := rfl
  rw [hgc]
  have hD1' : dot c1 c2 ≠ 1 := fun h => hD1 (eq_of_dot c1 c2 h1 h2 h)
  constructor
  · intro hD2
    have hb := dot_bound c1 c2 h1 h2
    unfold circleOf
    simp only
    have hz : ¬ (c2.sub c1).x ^ 2 + (c2.sub c1).y ^ 2 + (c2.sub c1).z ^ 2 = 4 := by
      rw [hdd]
      intro h
      apply hD2
      linarith
    have hd : ¬ √(inner3 (c2.sub c1) (c2.sub c1)) = 0 := by
      have : inner3 (c2.sub c1) (c2.sub c1) = 2 - 2 * dot c1 c2 := by
        rw [← hdd]
        unfold inner3
        ring
      rw [this]
      have h3 : dot c1 c2 < 1 := lt_of_le_of_ne hb.2 hD1'
      exact (sqrt_pos.2 (by linarith)).ne'
    rw [if_neg hz, if_neg hd]
    refine ⟨_, rfl, ?_, ?_⟩
    · rw [List.length_map, linspace_length]
    · intro γ hγ k hk hn
      have hf := linspace_get n k hn hk
      obtain ⟨hf0, hf1⟩ := linspace_range n _ (List.mem_of_getElem? hf)
      obtain ⟨θ, φ, hp, h3⟩ := circle_point c1 c2 h1 h2 hD1' hD2 _ hf0 hf1
      rw [angle_unique c1 c2 γ hγ]
      refine ⟨θ, φ, ?_, h3⟩
      rw [List.getElem?_map, hf]
      exact congrArg some hp
  · intro hD
    unfold circleOf
    simp only
    rw [if_pos]
    rw [hdd, hD]
    norm_num

/-- From the pole to the equator in three points: the one in the middle is at 45 degrees. -/
example : ∃ ps θ φ, greatCirclePoints [0, 0] [π / 2, 0] 3 = .ok ps ∧ ps[1]? = some (some θ, some φ) ∧ Angle (s2c 0 0) (s2c θ φ) (π / 4) ∧ Angle (s2c θ φ) (s2c (π / 2) 0) (π / 4) := by
  have hne : s2c 0 0 ≠ s2c (π / 2) 0 := by simp [s2c]
  obtain ⟨ps, h1, -, h3⟩ := (C79_circle_partial 0 0 (π / 2) 0 3 hne).1 (by simp [s2c, dot])
  have hp := pi_pos
  obtain ⟨θ, φ, h4, -, -, -, -, h5, h6⟩ := h3 (π / 2) ⟨by linarith, by linarith, by simp [s2c, dot]⟩ 1 (by norm_num) (by norm_num)
  refine ⟨ps, θ, φ, h1, h4, ?_, ?_⟩
  · convert h5 using 1
    push_cast
    ring
  · convert h6 using 1
    push_cast
    ring

/-- **C79 fails** for equal points: every point is `nan`. -/
theorem C79_equal_violated (θ φ : ℝ) (n : Nat) : greatCirclePoints [θ, φ] [θ, φ] n = .ok (List.replicate n (none, none)) := by
  have : greatCirclePoints [θ, φ] [θ, φ] n = circleOf (s2c θ φ) (s2c θ φ) n := rfl
  rw [this]
  unfold circleOf
  simp only [V3.sub, sub_self]
  rw [if_neg (by norm_num), if_pos (by simp [inner3])]
  congr 1
  rw [List.map_const', linspace_length]

/-! ### The cosine rule -/

/-- **C79** `cosine_rule` gives the distance of two points at the radii given, with the cosine of their angle given, for all combinations. -/
theorem C79_cosine (mu x1 x2 : List ℝ) (i j k : Nat) (m a b : ℝ) (hi : mu[i]? = some m) (hj : x1[j]? = some a) (hk : x2[k]? = some b) (u v : V3) (hu : Unit u) (hv : Unit v)
    (hm : dot u v = m) : ∃ p r, (cosineRule mu x1 x2)[i]? = some p ∧ p.length = x1.length ∧ p[j]? = some r ∧ r.length = x2.length ∧ r[k]? = some (distance (u.scale a) (v.scale b)) := by
  unfold cosineRule
  refine ⟨x1.map fun a => x2.map fun b => √((a - b) ^ 2 + 2 * a * b * (1 - m)), x2.map fun b => √((a - b) ^ 2 + 2 * a * b * (1 - m)), ?_, by simp, ?_, by simp, ?_⟩
  · rw [List.getElem?_map, hi]
    rfl
  · rw [List.getElem?_map, hj]
    rfl
  · rw [List.getElem?_map, hk]
    simp only [Option.map_some, Option.some.injEq]
    unfold distance
    congr 1
    unfold Unit dot at hu hv
    unfold dot at hm
    simp only [V3.scale]
    linear_combination (-a ^ 2) * hu - b ^ 2 * hv + 2 * a * b * hm

/-- At right angles. -/
example : ∃ p r, (cosineRule [0] [3] [4])[0]? = some p ∧ p.length = 1 ∧ p[0]? = some r ∧ r.length = 1 ∧ r[0]? = some (distance ((V3.mk 1 0 0).scale 3) ((V3.mk 0 1 0).scale 4)) :=
  C79_cosine [0] [3] [4] 0 0 0 0 3 4 rfl rfl rfl _ _ (by simp [Unit, dot]) (by simp [Unit, dot]) (by simp [dot])

end Verif.Sphere
