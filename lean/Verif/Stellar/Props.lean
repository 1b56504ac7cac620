import Verif.Stellar.Lemmas

/-!
# C72: stellar angles and days
-/
namespace Verif.Stellar

/-- **C72** (angle). The stellar angle is between 0 and 360 degrees, and it is the angle of the meridian. -/
theorem C72_angle (k : Sky) (o : Obs) (t : ℚ) :
    0 ≤ unixToLsa k o t ∧ unixToLsa k o t < 360 ∧ AtAngle k o (unixToLsa k o t) t := by
  rw [lsa_eq]
  refine ⟨by have := Int.fract_nonneg (passed k o t); linarith, by have := Int.fract_lt_one (passed k o t); linarith,
    ⌊passed k o t⌋, ?_⟩
  have := Int.fract_add_floor (passed k o t)
  linarith

/-- **C72** (next). The UNIX time of an angle is the next time at which the meridian is there. -/
theorem C72_next (k : Sky) (leap : ℚ → ℤ) (c : ℚ) (hs : Steady k leap c) (o : Obs) (a t0 t : ℚ) (h : Next k o a t0 t) :
    lsaToUnix k o a t0 = .ok t := lsaToUnix_next hs o a t0 t h

/-- There is no other. -/
theorem C72_next_unique (k : Sky) (leap : ℚ → ℤ) (c : ℚ) (hs : Steady k leap c) (o : Obs) (a t0 t s : ℚ) (h : Next k o a t0 t)
    (hs1 : t0 ≤ s) (hs2 : s < t) : ¬AtAngle k o a s := by
  rintro ⟨n, hn⟩
  obtain ⟨-, h2, m, hm⟩ := h
  have h3 := passed_lt hs o s t hs2
  have h4 : passed k o t0 ≤ passed k o s := by
    rcases hs1.lt_or_eq with h | h
    · exact (passed_lt hs o _ _ h).le
    · rw [h]
  have h5 : (n : ℚ) < m := by linarith
  have h6 : (m : ℚ) < n + 1 := by linarith
  have h7 : n < m := by exact_mod_cast h5
  have h8 : m < n + 1 := by exact_mod_cast h6
  omega

/-- **C72** (day). The fraction of the stellar day is that of the angle at any time; and the stellar day is the number of
turns since its zero, if time over the length of a sidereal day is nearer to it than one half. -/
theorem C72_day (k : Sky) (o : Obs) (z t : ℚ) (hz : lsdZero k o = .ok z) :
    (∃ (l : ℚ) (n : ℤ), unixToLsd k o t = .ok l ∧ l = passed k o t + n ∧ l = ⌊l⌋ + unixToLsa k o t / 360) ∧
    ∀ m : ℤ, |(t - z) / (24 * 3600 * siderealSecond) - (passed k o t - m)| < 1 / 2 → unixToLsd k o t = .ok (passed k o t - m) := by
  unfold unixToLsd
  simp only [hz, lsa_eq]
  have e : 360 * Int.fract (passed k o t) / 360 = Int.fract (passed k o t) := by ring
  rw [e]
  have hf := Int.fract_add_floor (passed k o t)
  constructor
  · refine ⟨_, rint ((t - z) / (24 * 3600 * siderealSecond) - Int.fract (passed k o t)) - ⌊passed k o t⌋, rfl, ?_, ?_⟩
    · push_cast
      linarith
    · rw [Int.floor_intCast_add, Int.floor_fract, add_zero]
  · intro m hm
    have hr : rint ((t - z) / (24 * 3600 * siderealSecond) - Int.fract (passed k o t)) = ⌊passed k o t⌋ - m := by
      apply rint_near
      have e2 : (t - z) / (24 * 3600 * siderealSecond) - Int.fract (passed k o t) - ((⌊passed k o t⌋ - m : ℤ) : ℚ) =
          (t - z) / (24 * 3600 * siderealSecond) - (passed k o t - m) := by
        push_cast
        linarith
      rw [e2]
      exact hm
    rw [hr]
    congr 1
    push_cast
    linarith

/-- How far from the zero of stellar days the statements hold: four hundred thousand million seconds, which is more than
twelve thousand years. -/
def horizon : ℚ := 400000000000

theorem approx_close {k : Sky} {leap : ℚ → ℤ} {c : ℚ} (hs : Steady k leap c) (o : Obs) (z t : ℚ)
    (h1 : z - horizon ≤ t) (h2 : t ≤ z + horizon) :
    |(t - z) / (24 * 3600 * siderealSecond) - (passed k o t - passed k o z)| < 1 / 2 := by
  have hp := passed_sub hs o z t
  have hd := stellarDay_pos
  have hl1 : (leap t : ℚ) ≤ leap z + 100 := by exact_mod_cast hs.few z t
  have hl2 : (leap z : ℚ) ≤ leap t + 100 := by exact_mod_cast hs.few t z
  have e : passed k o t - passed k o z = (t - z + (leap t - leap z)) / stellarDay := by
    rw [eq_div_iff (ne_of_gt hd), hp]
  rw [e]
  generalize hx : t - z = x at *
  generalize hy : ((leap t : ℚ) - leap z) = y at *
  have hx1 : -horizon ≤ x := by rw [← hx]; linarith
  have hx2 : x ≤ horizon := by rw [← hx]; linarith
  have hy1 : -100 ≤ y := by rw [← hy]; linarith
  have hy2 : y ≤ 100 := by rw [← hy]; linarith
  rw [abs_lt]
  unfold horizon at hx1 hx2
  norm_num [siderealSecond, stellarDay, stellarSecond, ut1Second]
  constructor <;> linarith

/-- **C72** (steady). As long as the Earth turns steadily, the stellar day is the number of turns since its zero, which is the
next time after the day configured at which the angle is zero. -/
theorem C72_steady (k : Sky) (leap : ℚ → ℤ) (c : ℚ) (hs : Steady k leap c) (o : Obs) (z t : ℚ) (hz : Next k o 0 o.lsdStartDay z)
    (h1 : z - horizon ≤ t) (h2 : t ≤ z + horizon) : unixToLsd k o t = .ok (passed k o t - passed k o z) := by
  obtain ⟨m, hm⟩ := hz.2.2
  have hm' : passed k o z = m := by rw [hm]; ring
  have := (C72_day k o z t (C72_next k leap c hs o _ _ _ hz)).2 m
  rw [← hm'] at this
  exact this (approx_close hs o z t h1 h2)

/-- **C72** (order). Later times have later stellar days. -/
theorem C72_order (k : Sky) (leap : ℚ → ℤ) (c : ℚ) (hs : Steady k leap c) (o : Obs) (z t t' : ℚ) (hz : Next k o 0 o.lsdStartDay z)
    (h1 : z - horizon ≤ t) (h2 : t < t') (h3 : t' ≤ z + horizon) :
    ∃ l l', unixToLsd k o t = .ok l ∧ unixToLsd k o t' = .ok l' ∧ l < l' :=
  ⟨_, _, C72_steady k leap c hs o z t hz h1 (by linarith), C72_steady k leap c hs o z t' hz (by linarith) h3, by
    have := passed_lt hs o t t' h2
    linarith⟩

/-- **C72** (round trip). The UNIX time of a stellar day is the time with that stellar day. -/
theorem C72_round_trip (k : Sky) (leap : ℚ → ℤ) (c : ℚ) (hs : Steady k leap c) (o : Obs) (z t l : ℚ)
    (hz : Next k o 0 o.lsdStartDay z) (h1 : z - horizon ≤ t) (h2 : t ≤ z + horizon) (h : unixToLsd k o t = .ok l) :
    lsdToUnix k o l = .ok t := by
  have hl := Except.ok.inj (h.symm.trans (C72_steady k leap c hs o z t hz h1 h2))
  have hz0 : lsdZero k o = .ok z := C72_next k leap c hs o _ _ _ hz
  unfold lsdToUnix
  simp only [hz0]
  apply C72_next k leap c hs
  obtain ⟨m, hm⟩ := hz.2.2
  have hm' : passed k o z = m := by rw [hm]; ring
  have hd := stellarDay_pos
  set s := z + l * 3600 * 24 * siderealSecond - 12 * 3600 with hsdef
  have hp := passed_sub hs o z t
  have hq := passed_sub hs o z s
  have hl1 : (leap t : ℚ) ≤ leap z + 100 := by exact_mod_cast hs.few z t
  have hl2 : (leap z : ℚ) ≤ leap t + 100 := by exact_mod_cast hs.few t z
  have hl3 : (leap s : ℚ) ≤ leap z + 100 := by exact_mod_cast hs.few z s
  have hl4 : (leap z : ℚ) ≤ leap s + 100 := by exact_mod_cast hs.few s z
  have e1 : l * stellarDay = t - z + (leap t - leap z) := by rw [hl, hp]
  have e2 : (passed k o s - passed k o z) * stellarDay = l * 3600 * 24 * siderealSecond - 43200 + (leap s - leap z) := by
    rw [hq, hsdef]
    ring
  have hb : passed k o s ≤ passed k o t ∧ passed k o t < passed k o s + 1 := by
    have et : passed k o t = passed k o z + l := by rw [hl]; ring
    have es : passed k o s = passed k o z + (l * 3600 * 24 * siderealSecond - 43200 + (leap s - leap z)) / stellarDay := by
      have : passed k o s - passed k o z = (l * 3600 * 24 * siderealSecond - 43200 + (leap s - leap z)) / stellarDay := by
        rw [eq_div_iff (ne_of_gt hd), e2]
      linarith
    rw [et, es]
    have hll : l = (t - z + (leap t - leap z)) / stellarDay := by rw [eq_div_iff (ne_of_gt hd), e1]
    have b1 : -4650000 ≤ l := by
      rw [hll]
      unfold horizon at h1
      norm_num [stellarDay, stellarSecond, ut1Second]
      linarith
    have b2 : l ≤ 4650000 := by
      rw [hll]
      unfold horizon at h2
      norm_num [stellarDay, stellarSecond, ut1Second]
      linarith
    have y1 : (leap s : ℚ) - leap z ≤ 100 := by linarith
    have y2 : -100 ≤ (leap s : ℚ) - leap z := by linarith
    clear_value s
    clear hll et es e1 e2 hp hq h1 h2 hl1 hl2 hl3 hl4 hl h
    generalize (leap s : ℚ) - leap z = y at *
    norm_num [siderealSecond, stellarDay, stellarSecond, ut1Second]
    constructor <;> linarith
  refine ⟨?_, hb.2, ?_⟩
  · by_contra hc
    have := passed_lt hs o t s (by linarith)
    linarith [hb.1]
  · refine ⟨m + ⌊l⌋, ?_⟩
    rw [pmod_eq _ _ (by norm_num), div_one, one_mul]
    have := Int.fract_add_floor l
    push_cast
    linarith

/-! ### A case -/

/-- One leap second, at the time 100000; the Earth at its origin at the time 0. -/
def sky : Sky := ⟨fun t => t + (if t < 100000 then 0 else 1 : ℤ), fun x => x / stellarDay⟩

theorem sky_steady : Steady sky (fun t => if t < 100000 then 0 else 1) 0 := by
  refine ⟨fun t => rfl, fun x => by simp [sky], fun a b h => ?_, fun a b h => ?_, fun a b => ?_⟩
  · split_ifs with h1 h2 <;> first | decide | (exfalso; linarith)
  · split_ifs <;> decide
  · split_ifs <;> decide

/-- An observer at longitude 90 degrees. -/
def obs : Obs := ⟨90, 1000⟩

/-- The zero of its stellar days is three quarters of a day after time zero. -/
example : Next sky obs 0 obs.lsdStartDay (3 / 4 * stellarDay) := by
  refine ⟨by norm_num [obs, stellarDay, stellarSecond, ut1Second], ?_, 1, ?_⟩
  · norm_num [passed, sky, obs, stellarDay, stellarSecond, ut1Second]
  · norm_num [passed, sky, obs, stellarDay, stellarSecond, ut1Second]

def okOf (r : Except PyErr ℚ) : ℚ := match r with
  | .ok x => x
  | .error _ => -1

/-- After the leap second: five and a half days after the zero. -/
example : okOf (unixToLsd sky obs (25 / 4 * stellarDay - 1)) = 11 / 2 ∧
    okOf (lsdToUnix sky obs (11 / 2)) = 25 / 4 * stellarDay - 1 := by
  decide +kernel

/-! ### Where the property fails -/

/-- C72: an angle that the meridian has during a leap second has no UNIX time; what is given is a time at which the angle is
that of a second before. -/
theorem C72_leap_violated : ∃ t, lsaToUnix sky obs (90 + 360 * (100000 + 1 / 2) / stellarDay) 90000 = .ok t ∧ t = 100000 - 1 / 2 ∧
    passed sky obs t = (90 + 360 * (100000 - 1 / 2) / stellarDay) / 360 := by
  refine ⟨100000 - 1 / 2, ?_, rfl, ?_⟩
  · have : okOf (lsaToUnix sky obs (90 + 360 * (100000 + 1 / 2) / stellarDay) 90000) = 100000 - 1 / 2 := by decide +kernel
    revert this
    cases lsaToUnix sky obs (90 + 360 * (100000 + 1 / 2) / stellarDay) 90000 with
    | ok x => intro h; exact congrArg _ h
    | error e => intro h; exact absurd h (by norm_num [okOf])
  · norm_num [passed, sky, obs, stellarDay, stellarSecond, ut1Second]

/-- C72: fifteen thousand years from the zero the stellar day is wrong by a whole day. -/
theorem C72_far_violated : okOf (unixToLsd sky obs (3 / 4 * stellarDay - 1 + 5500000 * stellarDay)) = 5500001 := by
  decide +kernel

end Verif.Stellar
