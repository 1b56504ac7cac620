import Verif.Sphere.Lemmas
import Mathlib.Data.List.Forall2

/-!
# C80: directions seen from the ground, angles on the sphere, and rotations
-/
namespace Verif.Sphere

open Real

/-! ### Specification -/

noncomputable section

/-- A direction by longitude and latitude. -/
def direction (long lat : ℝ) : V3 := ⟨cos lat * cos long, cos lat * sin long, sin lat⟩

/-- The direction of a source by hour angle, which grows towards the west, and declination. The axes point to the meridian on the equator, to the east, and to the pole. -/
def source (ha dec : ℝ) : V3 := direction (-ha) dec

/-- The directions east, north and up at a latitude. -/
def east : V3 := ⟨0, 1, 0⟩
def north (lat : ℝ) : V3 := ⟨-sin lat, 0, cos lat⟩
def up (lat : ℝ) : V3 := ⟨cos lat, 0, sin lat⟩

end

/-! ### Ground coordinates -/

theorem direction_unit (long lat : ℝ) : Unit (direction long lat) := by
  unfold Unit dot direction
  have h1 := sin_sq_add_cos_sq long
  have h2 := sin_sq_add_cos_sq lat
  simp only
  linear_combination h2 + cos lat ^ 2 * h1

/-- East, north and up are at right angles, in this order; up is the direction of the zenith. -/
example (lat : ℝ) : RightHanded east (north lat) (up lat) ∧ up lat = source 0 lat := by
  have h := sin_sq_add_cos_sq lat
  refine ⟨⟨?_, ?_, ?_, ?_, ?_, ?_, ?_⟩, ?_⟩
  · simp [Unit, dot, east]
  · simp only [Unit, dot, north]
    linear_combination h
  · simp only [Unit, dot, up]
    linear_combination h
  · simp [dot, east, north]
  · simp only [dot, north, up]
    ring
  · simp [dot, east, up]
  · simp [cross, east, north, up]
  · simp [up, source, direction]

/-- **C80** `sph_to_ground` gives how far the direction of the source reaches to the east, to the north, and up. -/
theorem C80_ground (ha lat dec : ℝ) :
    sphToGround ha lat dec = ⟨dot (source ha dec) east, dot (source ha dec) (north lat), dot (source ha dec) (up lat)⟩ ∧ Unit (sphToGround ha lat dec) := by
  have h : sphToGround ha lat dec = ⟨dot (source ha dec) east, dot (source ha dec) (north lat), dot (source ha dec) (up lat)⟩ := by
    simp only [sphToGround, source, direction, dot, east, north, up, cos_neg, sin_neg, V3.mk.injEq]
    refine ⟨?_, ?_, ?_⟩ <;> ring
  refine ⟨h, ?_⟩
  unfold Unit dot sphToGround
  have h1 := sin_sq_add_cos_sq ha
  have h2 := sin_sq_add_cos_sq lat
  have h3 := sin_sq_add_cos_sq dec
  simp only
  linear_combination (cos dec ^ 2) * h1 + (sin dec ^ 2 + cos dec ^ 2 * cos ha ^ 2) * h2 + h3

/-- A source on the horizon in the east: rising on the equator of the sky. -/
example (lat : ℝ) : sphToGround (-(π / 2)) lat 0 = ⟨1, 0, 0⟩ := by
  simp [sphToGround]

/-- What `ground_to_sph` computes on the way, for a unit vector. -/
theorem groundToSph_eq (x y z lat : ℝ) (hz : 0 ≤ z) (h : x ^ 2 + y ^ 2 + z ^ 2 = 1) :
    groundToSph x y lat = some (-1 * arctan2 x (z * cos lat - y * sin lat), arctan2 (y * cos lat + z * sin lat) √((z * cos lat - y * sin lat) ^ 2 + x ^ 2)) := by
  have hz2 : 1 - x ^ 2 - y ^ 2 = z ^ 2 := by linarith
  unfold groundToSph
  rw [hz2, if_neg (not_lt.2 (sq_nonneg z)), sqrt_sq hz]

/-- **C80** (partial) `ground_to_sph` gives hour angle and declination back, for a source that is not below the horizon; at the poles of the sky, where there is no hour angle, it is zero.

Missing: sources below the horizon (`C80_horizon_violated`). -/
theorem C80_ground_back_partial (ha lat dec : ℝ) (h1 : -π ≤ ha) (h2 : ha < π) (h3 : -(π / 2) ≤ dec) (h4 : dec ≤ π / 2) (hz : 0 ≤ dot (source ha dec) (up lat)) :
    groundToSph (sphToGround ha lat dec).x (sphToGround ha lat dec).y lat = some (if dec = π / 2 ∨ dec = -(π / 2) then 0 else ha, dec) := by
  obtain ⟨hg, hu⟩ := C80_ground ha lat dec
  have hzz : (sphToGround ha lat dec).z = dot (source ha dec) (up lat) := by rw [hg]
  rw [← hzz] at hz
  have hpi := pi_pos
  have e2 := sin_sq_add_cos_sq lat
  rw [groundToSph_eq _ _ (sphToGround ha lat dec).z lat hz (by
    unfold Unit dot at hu
    linear_combination hu)]
  have hxe : (sphToGround ha lat dec).z * cos lat - (sphToGround ha lat dec).y * sin lat = cos dec * cos (-ha) := by
    simp only [sphToGround, cos_neg]
    linear_combination (cos dec * cos ha) * e2
  have hye : (sphToGround ha lat dec).x = cos dec * sin (-ha) := by
    simp only [sphToGround, sin_neg]
    ring
  have hze : (sphToGround ha lat dec).y * cos lat + (sphToGround ha lat dec).z * sin lat = sin dec := by
    simp only [sphToGround]
    linear_combination (sin dec) * e2
  have hc : 0 ≤ cos dec := cos_nonneg_of_mem_Icc ⟨by linarith, h4⟩
  have hsq : √((cos dec * cos (-ha)) ^ 2 + (cos dec * sin (-ha)) ^ 2) = cos dec := by
    have : (cos dec * cos (-ha)) ^ 2 + (cos dec * sin (-ha)) ^ 2 = cos dec ^ 2 := by
      have := sin_sq_add_cos_sq (-ha)
      linear_combination (cos dec ^ 2) * this
    rw [this, sqrt_sq hc]
  rw [hxe, hye, hze, hsq]
  have hdec : arctan2 (sin dec) (cos dec) = dec := by
    have := arctan2_of 1 dec one_pos (by linarith) (by linarith)
    simpa using this
  rw [hdec]
  congr 2
  by_cases hp : dec = π / 2 ∨ dec = -(π / 2)
  · rw [if_pos hp]
    have h0 : cos dec = 0 := by
      rcases hp with rfl | rfl
      · exact cos_pi_div_two
      · rw [cos_neg, cos_pi_div_two]
    rw [h0, zero_mul, zero_mul, arctan2_zero, mul_zero]
  · rw [if_neg hp]
    push Not at hp
    have hcp : 0 < cos dec := cos_pos_of_mem_Ioo ⟨lt_of_le_of_ne h3 (Ne.symm hp.2), lt_of_le_of_ne h4 hp.1⟩
    rw [arctan2_of (cos dec) (-ha) hcp (by linarith) (by linarith)]
    ring

/-- A source one sixth of a turn from the meridian on the equator, seen from the equator. -/
example : 0 ≤ dot (source (π / 3) 0) (up 0) := by
  simp [source, direction, up, dot]

/-- **C80** The other way round: for every point in the unit circle `ground_to_sph` gives the hour angle and the declination of the direction above the horizon that is there, and `nan` outside of
the circle. -/
theorem C80_point (x y lat : ℝ) :
    (x ^ 2 + y ^ 2 ≤ 1 → ∃ ha dec, groundToSph x y lat = some (ha, dec) ∧ -π ≤ ha ∧ ha < π ∧ -(π / 2) ≤ dec ∧ dec ≤ π / 2 ∧
      dot (source ha dec) east = x ∧ dot (source ha dec) (north lat) = y ∧ 0 ≤ dot (source ha dec) (up lat)) ∧
      (1 < x ^ 2 + y ^ 2 → groundToSph x y lat = none) := by
  constructor
  · intro h
    have hz0 : 0 ≤ 1 - x ^ 2 - y ^ 2 := by linarith
    set z := √(1 - x ^ 2 - y ^ 2) with hz
    have hzn : 0 ≤ z := sqrt_nonneg _
    have hz2 : z ^ 2 = 1 - x ^ 2 - y ^ 2 := sq_sqrt hz0
    rw [groundToSph_eq x y z lat hzn (by rw [hz2]; ring)]
    set xe := z * cos lat - y * sin lat with hxe
    set ze := y * cos lat + z * sin lat with hze
    have e2 := sin_sq_add_cos_sq lat
    have hunit : xe ^ 2 + x ^ 2 + ze ^ 2 = 1 := by
      rw [hxe, hze]
      linear_combination (z ^ 2 + y ^ 2) * e2 + hz2
    set ρ := √(xe ^ 2 + x ^ 2) with hρ
    have hρ2 : ρ ^ 2 = xe ^ 2 + x ^ 2 := sq_sqrt (by positivity)
    have hρ0 : 0 ≤ ρ := sqrt_nonneg _
    obtain ⟨ha1, ha2, ha3, ha4⟩ := arctan2_spec x xe
    obtain ⟨hd1, hd2, hd3, hd4⟩ := arctan2_spec ze ρ
    have hone : √(ρ ^ 2 + ze ^ 2) = 1 := by
      rw [hρ2, hunit, sqrt_one]
    rw [hone, one_mul] at hd3 hd4
    rw [← hρ] at ha3 ha4
    set t := arctan2 x xe with ht
    set d := arctan2 ze ρ with hd
    have hdb : -(π / 2) ≤ d ∧ d ≤ π / 2 := by
      have : 0 ≤ cos d := by
        rw [hd3]
        exact hρ0
      constructor
      · by_contra hn
        push Not at hn
        have := cos_neg_of_pi_div_two_lt_of_lt (x := -d) (by linarith) (by linarith)
        rw [cos_neg] at this
        linarith
      · by_contra hn
        push Not at hn
        have := cos_neg_of_pi_div_two_lt_of_lt (x := d) (by linarith) (by linarith [pi_pos])
        linarith
    refine ⟨-1 * t, d, rfl, by linarith, by linarith, hdb.1, hdb.2, ?_, ?_, ?_⟩
    · simp only [dot, source, direction, east, hd3, neg_mul, one_mul, neg_neg, ha3, ha4]
      ring
    · simp only [dot, source, direction, north, hd3, hd4, neg_mul, one_mul, neg_neg, ha3, ha4]
      rw [hxe, hze]
      linear_combination y * e2
    · have : dot (source (-1 * t) d) (up lat) = z := by
        simp only [dot, source, direction, up, hd3, hd4, neg_mul, one_mul, neg_neg, ha3, ha4]
        rw [hxe, hze]
        linear_combination z * e2
      rw [this]
      exact hzn
  · intro h
    unfold groundToSph
    rw [if_pos (by linarith)]

example : ((3 : ℝ) / 5) ^ 2 + ((4 : ℝ) / 5) ^ 2 ≤ 1 := by norm_num

/-- **C80 fails** below the horizon: a source under one's feet comes back overhead. -/
theorem C80_horizon_violated : groundToSph (sphToGround (-π) 0 0).x (sphToGround (-π) 0 0).y 0 = some (0, 0) := by
  have hx : (sphToGround (-π) 0 0).x = 0 := by simp [sphToGround]
  have hy : (sphToGround (-π) 0 0).y = 0 := by simp [sphToGround]
  rw [hx, hy, groundToSph_eq 0 0 1 0 zero_le_one (by norm_num)]
  have h1 := arctan2_of 1 0 one_pos (by linarith [pi_pos]) pi_pos.le
  simp only [sin_zero, cos_zero, mul_zero, mul_one] at h1
  simp [h1]

/-! ### Projected distances -/

/-- **C80** `projected_distance` of a point is how far it reaches in the direction of the source. -/
theorem C80_projected (ha lat dec x y z : ℝ) :
    projectedDistance ha lat dec x y z = x * dot (source ha dec) east + y * dot (source ha dec) (north lat) + z * dot (source ha dec) (up lat) := by
  simp only [projectedDistance, source, direction, dot, east, north, up, cos_neg, sin_neg]
  ring

/-- **C80** (partial) For arrays of `n` coordinates to the east and to the north, and one height or `n` of them, it gives the projected distance of every point.

Missing: arrays of different lengths that can be broadcast (`C80_broadcast_violated`). -/
theorem C80_projected_arrays_partial (ha lat dec : ℝ) (xs ys zs : List ℝ) (z : ℝ) (hy : ys.length = xs.length) (hz : zs.length = xs.length) :
    (∃ l, projectedDistances ha lat dec (.arr xs) (.arr ys) (.one z) = .ok (.arr l) ∧ l.length = xs.length ∧
      ∀ (i : Nat) (x y : ℝ), xs[i]? = some x → ys[i]? = some y → l[i]? = some (projectedDistance ha lat dec x y z)) ∧
      ∃ l, projectedDistances ha lat dec (.arr xs) (.arr ys) (.arr zs) = .ok (.arr l) ∧ l.length = xs.length ∧
      ∀ (i : Nat) (x y z : ℝ), xs[i]? = some x → ys[i]? = some y → zs[i]? = some z → l[i]? = some (projectedDistance ha lat dec x y z) := by
  constructor
  · refine ⟨(List.zipWith (· + ·) (xs.map (· * (-1 * cos dec * sin ha))) (ys.map (· * (cos lat * sin dec - sin lat * cos dec * cos ha)))).map
      (· + z * (sin lat * sin dec + cos lat * cos dec * cos ha)), ?_, ?_, ?_⟩
    · simp only [projectedDistances, Val.times, Val.addInto]
      rw [if_pos (by simp [hy])]
    · simp [hy]
    · intro i x y hx hy'
      rw [List.getElem?_map, List.getElem?_zipWith, List.getElem?_map, List.getElem?_map, hx, hy']
      rfl
  · refine ⟨List.zipWith (· + ·) (List.zipWith (· + ·) (xs.map (· * (-1 * cos dec * sin ha))) (ys.map (· * (cos lat * sin dec - sin lat * cos dec * cos ha))))
      (zs.map (· * (sin lat * sin dec + cos lat * cos dec * cos ha))), ?_, ?_, ?_⟩
    · simp only [projectedDistances, Val.times, Val.addInto]
      rw [if_pos (by simp [hy])]
      simp only
      rw [if_pos (by simp [hy, hz])]
    · simp [hy, hz]
    · intro i x y z hx hy' hz'
      rw [List.getElem?_zipWith, List.getElem?_zipWith, List.getElem?_map, List.getElem?_map, List.getElem?_map, hx, hy', hz']
      rfl

example : ([1, 2] : List ℝ).length = ([3, 4] : List ℝ).length := rfl

/-- **C80 fails** for one coordinate to the east in an array and several to the north, although the other way round the array with one is broadcast. -/
theorem C80_broadcast_violated (ha lat dec : ℝ) :
    projectedDistances ha lat dec (.arr [1]) (.arr [1, 2]) (.one 0) = .error .valueError ∧
      ∃ l, projectedDistances ha lat dec (.arr [1, 2]) (.arr [1]) (.one 0) = .ok (.arr l) := by
  constructor
  · simp [projectedDistances, Val.times, Val.addInto]
  · exact ⟨_, rfl⟩

/-! ### Angles -/

/-- **C80** `sphdist` is the angle between the directions. -/
theorem C80_angle (long1 lat1 long2 lat2 : ℝ) : Angle (direction long1 lat1) (direction long2 lat2) (sphdist long1 lat1 long2 lat2) := by
  have hb := dot_bound _ _ (direction_unit long1 lat1) (direction_unit long2 lat2)
  have hD : cos lat1 * cos lat2 * sin ((long1 - long2) / 2) ^ 2 + sin ((lat1 - lat2) / 2) ^ 2 = (1 - dot (direction long1 lat1) (direction long2 lat2)) / 2 := by
    have h1 := sin_sq_eq_half_sub ((long1 - long2) / 2)
    have h2 := sin_sq_eq_half_sub ((lat1 - lat2) / 2)
    rw [show 2 * ((long1 - long2) / 2) = long1 - long2 by ring, cos_sub] at h1
    rw [show 2 * ((lat1 - lat2) / 2) = lat1 - lat2 by ring, cos_sub] at h2
    rw [h1, h2]
    simp only [dot, direction]
    ring
  unfold sphdist
  simp only
  rw [hD]
  set D := dot (direction long1 lat1) (direction long2 lat2) with hDd
  have hs0 : 0 ≤ (1 - D) / 2 := by linarith
  have hs1 : √((1 - D) / 2) ≤ 1 := by
    rw [sqrt_le_one]
    linarith
  have h0 : 0 ≤ √((1 - D) / 2) := sqrt_nonneg _
  refine ⟨?_, ?_, ?_⟩
  · have := arcsin_nonneg.2 h0
    linarith
  · have := arcsin_le_pi_div_two √((1 - D) / 2)
    linarith
  · rw [cos_two_mul, cos_arcsin, sq_sqrt hs0, sq_sqrt (by linarith)]
    ring

/-- **C80** `sphdist` is a distance between directions: zero exactly for equal ones, the same both ways, and no shorter by a detour. -/
theorem C80_metric (long1 lat1 long2 lat2 long3 lat3 : ℝ) :
    (sphdist long1 lat1 long2 lat2 = 0 ↔ direction long1 lat1 = direction long2 lat2) ∧ sphdist long1 lat1 long2 lat2 = sphdist long2 lat2 long1 lat1 ∧
      sphdist long1 lat1 long3 lat3 ≤ sphdist long1 lat1 long2 lat2 + sphdist long2 lat2 long3 lat3 := by
  have h12 := C80_angle long1 lat1 long2 lat2
  have h21 := C80_angle long2 lat2 long1 lat1
  have h23 := C80_angle long2 lat2 long3 lat3
  have h13 := C80_angle long1 lat1 long3 lat3
  refine ⟨⟨?_, ?_⟩, ?_, ?_⟩
  · intro h
    have := h12.2.2
    rw [h, cos_zero] at this
    exact eq_of_dot _ _ (direction_unit _ _) (direction_unit _ _) this.symm
  · intro h
    have hu := angle_unique _ _ _ h12
    have h1 : dot (direction long1 lat1) (direction long2 lat2) = 1 := by
      rw [h]
      exact direction_unit _ _
    rw [h1, arccos_one] at hu
    exact hu
  · rw [angle_unique _ _ _ h12, angle_unique _ _ _ h21, dot_comm]
  · exact angle_triangle _ _ _ (direction_unit _ _) (direction_unit _ _) (direction_unit _ _) _ _ _ h12 h23 h13

/-- From the equator to the pole. -/
example : sphdist 0 0 1 (π / 2) = π / 2 := by
  have h := angle_unique _ _ _ (C80_angle 0 0 1 (π / 2))
  rw [h]
  have : dot (direction 0 0) (direction 1 (π / 2)) = 0 := by simp [dot, direction]
  rw [this, arccos_zero]

/-! ### Rotations -/

theorem rightHanded_next (a b c : V3) (h : RightHanded a b c) : RightHanded b c a := by
  refine ⟨h.unit2, h.unit3, h.unit1, h.perp23, h.perp31, h.perp12, ?_⟩
  have h2 := h.unit2
  have h12 := h.perp12
  rw [← h.hand]
  unfold Unit at h2
  unfold dot at h2 h12
  ext
  · simp only [cross]
    linear_combination a.x * h2 - b.x * h12
  · simp only [cross]
    linear_combination a.y * h2 - b.y * h12
  · simp only [cross]
    linear_combination a.z * h2 - b.z * h12

/-- A turn about the first of three vectors. -/
theorem turn_basis (a b c : V3) (h : RightHanded a b c) (t : ℝ) :
    turn a t a = a ∧ turn a t b = (b.scale (cos t)).add (c.scale (sin t)) ∧ turn a t c = (b.scale (-sin t)).add (c.scale (cos t)) := by
  have h1 : dot a a = 1 := h.unit1
  have h31 : dot a c = 0 := by
    rw [dot_comm]
    exact h.perp31
  have hca := (rightHanded_next _ _ _ (rightHanded_next _ _ _ h)).hand
  have hac : cross a c = b.scale (-1) := by
    rw [← hca]
    simp only [cross, V3.scale, V3.mk.injEq]
    refine ⟨?_, ?_, ?_⟩ <;> ring
  refine ⟨?_, ?_, ?_⟩
  · unfold turn
    rw [h1]
    simp only [cross, V3.scale, V3.add]
    ext <;> simp only <;> ring
  · unfold turn
    rw [h.perp12, h.hand]
    simp only [V3.scale, V3.add]
    ext <;> simp only <;> ring
  · unfold turn
    rw [h31, hac]
    simp only [V3.scale, V3.add]
    ext <;> simp only <;> ring

theorem turned_rightHanded (a b c : V3) (h : RightHanded a b c) (t : ℝ) :
    RightHanded a ((b.scale (cos t)).add (c.scale (sin t))) ((b.scale (-sin t)).add (c.scale (cos t))) := by
  have e := sin_sq_add_cos_sq t
  have h1 := h.unit1
  have h2 := h.unit2
  have h3 := h.unit3
  have h12 := h.perp12
  have h23 := h.perp23
  have h31 := h.perp31
  have hand1 := h.hand
  have hand2 := (rightHanded_next _ _ _ (rightHanded_next _ _ _ h)).hand
  unfold Unit at h1 h2 h3
  refine ⟨h1, ?_, ?_, ?_, ?_, ?_, ?_⟩
  · unfold Unit
    unfold dot at *
    simp only [V3.scale, V3.add]
    linear_combination (cos t ^ 2) * h2 + (sin t ^ 2) * h3 + 2 * cos t * sin t * h23 + e
  · unfold Unit
    unfold dot at *
    simp only [V3.scale, V3.add]
    linear_combination (sin t ^ 2) * h2 + (cos t ^ 2) * h3 - 2 * cos t * sin t * h23 + e
  · unfold dot at *
    simp only [V3.scale, V3.add]
    linear_combination cos t * h12 + sin t * h31
  · unfold dot at *
    simp only [V3.scale, V3.add]
    linear_combination (-cos t * sin t) * h2 + cos t * sin t * h3 + (cos t ^ 2 - sin t ^ 2) * h23
  · unfold dot at *
    simp only [V3.scale, V3.add]
    linear_combination (-sin t) * h12 + cos t * h31
  · have x1 := congrArg V3.x hand1
    have y1 := congrArg V3.y hand1
    have z1 := congrArg V3.z hand1
    have x2 := congrArg V3.x hand2
    have y2 := congrArg V3.y hand2
    have z2 := congrArg V3.z hand2
    simp only [cross] at x1 y1 z1 x2 y2 z2
    simp only [cross, V3.scale, V3.add]
    ext
    · simp only
      linear_combination cos t * x1 - sin t * x2
    · simp only
      linear_combination cos t * y1 - sin t * y2
    · simp only
      linear_combination cos t * z1 - sin t * z2

/-- **C80** `rotate_ypr` turns three vectors at right angles like a rigid body: about the third one by minus the yaw, then about the first one, where it is then, by the pitch, and then about the
second one by the roll. They stay at right angles and right-handed; without angles they stay as they are. -/
theorem C80_rotate (yaw pitch roll : ℝ) (a b c : V3) (h : RightHanded a b c) :
    (∃ a' b' c', rotateYpr yaw pitch roll a b c = (a', b', c') ∧ RightHanded a' b' c' ∧
      (let first := turn c (-yaw)
       let second := turn (first a) pitch
       let third := turn (second (first b)) roll
       a' = third (second (first a)) ∧ b' = third (second (first b)) ∧ c' = third (second (first c)))) ∧
      rotateYpr 0 0 0 a b c = (a, b, c) := by
  constructor
  · have hc := rightHanded_next _ _ _ (rightHanded_next _ _ _ h)
    obtain ⟨t1, t2, t3⟩ := turn_basis c a b hc (-yaw)
    have r1 := turned_rightHanded c a b hc (-yaw)
    rw [← t2, ← t3] at r1
    have r1' := rightHanded_next _ _ _ r1
    obtain ⟨u1, u2, u3⟩ := turn_basis _ _ _ r1' pitch
    have r2 := turned_rightHanded _ _ _ r1' pitch
    rw [← u2, ← u3] at r2
    have r2' := rightHanded_next _ _ _ r2
    obtain ⟨v1, v2, v3⟩ := turn_basis _ _ _ r2' roll
    have r3 := turned_rightHanded _ _ _ r2' roll
    rw [← v2, ← v3] at r3
    have r3' := rightHanded_next _ _ _ (rightHanded_next _ _ _ r3)
    refine ⟨_, _, _, ?_, ?_, rfl, rfl, rfl⟩
    · simp only [t1, u1, v1]
      rw [v2, v3, u2, u3, t2, t3, cos_neg, sin_neg]
      simp only [rotateYpr, V3.scale, V3.add, V3.sub, Prod.mk.injEq, V3.mk.injEq]
      refine ⟨⟨?_, ?_, ?_⟩, ⟨?_, ?_, ?_⟩, ?_, ?_, ?_⟩ <;> ring
    · simp only [t1, u1, v1]
      exact r3'
  · simp [rotateYpr, V3.scale, V3.add, V3.sub]

/-- The axes. -/
example : RightHanded ⟨1, 0, 0⟩ ⟨0, 1, 0⟩ ⟨0, 0, 1⟩ := by
  constructor <;> simp [Unit, dot, cross]

end Verif.Sphere
