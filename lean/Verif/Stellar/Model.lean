import Mathlib.Data.Rat.Floor

/-!
# Model of stellar angles and days

Models `unix_to_era`, `era_to_unix`, `leap_seconds_between` (`caput/astro/time.py:92-154, 255-293`) and
`Observer.unix_to_lsa`, `lsa_to_unix`, `lsd_zero`, `unix_to_lsd`, `lsd_to_unix` (`caput/astro/observer.py:137-250`), for one
time.

Simplifications: numbers are rational; what Skyfield knows about the Earth is a parameter (`Sky`).
-/
namespace Verif.Stellar

inductive PyErr where
  | runtimeError
  deriving DecidableEq, Repr

/-- `constants.UT1_second` (`caput/astro/constants.py:41`). -/
def ut1Second : ℚ := 1.00000000205

/-- `constants.sidereal_second` (47). -/
def siderealSecond : ℚ := 1 / 1.002737909350795 * ut1Second

/-- `constants.stellar_second` (52). -/
def stellarSecond : ℚ := 1 / 1.00273781191135448 * ut1Second

/-- `x % m` in Python. -/
def pmod (x m : ℚ) : ℚ := x - m * ⌊x / m⌋

/-- `np.rint`: to the nearest integer, halves to the even one. -/
def rint (x : ℚ) : ℤ :=
  if x - ⌊x⌋ < 1 / 2 then ⌊x⌋
  else if 1 / 2 < x - ⌊x⌋ then ⌊x⌋ + 1
  else if ⌊x⌋ % 2 = 0 then ⌊x⌋ else ⌊x⌋ + 1

/-- What Skyfield knows: terrestrial time (in seconds) at a UNIX time, and how often the Earth has turned at a terrestrial
time. -/
structure Sky where
  tt : ℚ → ℚ
  turns : ℚ → ℚ

/-- `unix_to_era` (93-116): `360 * earth_rotation_angle(...)`, the latter in cycles and less than one. -/
def unixToEra (k : Sky) (t : ℚ) : ℚ := 360 * Int.fract (k.turns (k.tt t))

/-- `leap_seconds_between` (256-293). -/
def leapSecondsBetween (k : Sky) (a b : ℚ) : Except PyErr ℤ :=
  let deltaUnix := b - a
  let deltaTt := k.tt b - k.tt a
  let shift := deltaTt - deltaUnix
  let n := rint shift
  if 1 / 100 < |shift - n| then .error .runtimeError else .ok n

/-- `era_to_unix` (120-154). -/
def eraToUnix (k : Sky) (era t0 : ℚ) : Except PyErr ℚ :=
  let era0 := unixToEra k t0
  let diffDeg := pmod (era - era0) 360
  let diffTime := diffDeg * 240 * stellarSecond
  match leapSecondsBetween k t0 (t0 + diffTime) with
  | .error e => .error e
  | .ok n => .ok (t0 + diffTime - n)

/-- The properties of an `Observer`. -/
structure Obs where
  longitude : ℚ
  lsdStartDay : ℚ

/-- `unix_to_lsa` (138-156). -/
def unixToLsa (k : Sky) (o : Obs) (t : ℚ) : ℚ := pmod (unixToEra k t + o.longitude) 360

/-- `lsa_to_unix` (161-179). -/
def lsaToUnix (k : Sky) (o : Obs) (lsa t0 : ℚ) : Except PyErr ℚ := eraToUnix k (pmod (lsa - o.longitude) 360) t0

/-- `lsd_zero` (181-189). -/
def lsdZero (k : Sky) (o : Obs) : Except PyErr ℚ := lsaToUnix k o 0 o.lsdStartDay

/-- `unix_to_lsd` (192-222). -/
def unixToLsd (k : Sky) (o : Obs) (t : ℚ) : Except PyErr ℚ :=
  let frac := unixToLsa k o t / 360
  match lsdZero k o with
  | .error e => .error e
  | .ok zero =>
    let approx := (t - zero) / (24 * 3600 * siderealSecond)
    let whole := rint (approx - frac)
    .ok (whole + frac)

/-- `lsd_to_unix` (227-250). -/
def lsdToUnix (k : Sky) (o : Obs) (lsd : ℚ) : Except PyErr ℚ :=
  match lsdZero k o with
  | .error e => .error e
  | .ok zero =>
    let approx := zero + lsd * 3600 * 24 * siderealSecond
    let start := approx - 12 * 3600
    let lsa := 360 * pmod lsd 1
    lsaToUnix k o lsa start

end Verif.Stellar
