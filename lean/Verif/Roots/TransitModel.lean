import Verif.Roots.Model

/-!
# Model of transits, risings and settings

Models `caput/astro/observer.py:116-135` (`skyfield_obs`), `:320-386` (`transit_times`), `:388-501` (`rise_set_times`,
`rise_times`, `set_times`), `:799-864` (`_sr_work`, `_source_ha`) on top of the root search in `Verif.Roots.Model`.
Sidereal time, right ascension and altitude of the source are parameters (functions of the time in days); `brentq` is
a parameter which takes the function as an argument. The conversion between days and seconds is the one of
`Verif.Roots.fixup`.
-/
namespace Verif.Roots

/-- The python remainder `x % m` of floats, for positive `m`. -/
def pmod (x m : ℚ) : ℚ := x - m * ⌊x / m⌋

/-- observer.py:834-841 `_source_ha`: the hour angle from sidereal time and right ascension in degrees. -/
def sourceHa (lst ra : ℚ → ℚ) (t : ℚ) : ℚ := pmod ((lst t - ra t) + 180) 360 - 180

/-- observer.py:360-362: the function whose roots are the transits. -/
def transitFn (ha : ℚ → ℚ) (lower : Bool) (t : ℚ) : ℚ := if lower then pmod (ha t) 360 - 180 else ha t

/-- The root finder, with the function as its first argument. -/
abbrev Brentq := (ℚ → ℚ) → ℚ → ℚ → Option ℚ

/-- observer.py:365-372: the times of the transits. -/
def transitTimes (mul : ℚ → ℚ → ℚ) (brentq : Brentq) (lst ra : ℚ → ℚ) (lower : Bool) (day t0 : ℚ)
    (t1 step : Option ℚ) : Except RErr (List ℚ) :=
  match fixup day t0 t1 step with
  | .error e => .error e
  | .ok (a, b, s) =>
    match solveAll mul (transitFn (sourceHa lst ra) lower) (brentq (transitFn (sourceHa lst ra) lower)) false true
        a b s with
    | .error e => .error e
    | .ok rs => .ok (rs.map fun r => r.1 * 86400)

/-- observer.py:320-386 `transit_times` with `return_dec`: the times and the declination at each of them. `dec` is
the declination as a function of the time in seconds. -/
def transitTimesDec (mul : ℚ → ℚ → ℚ) (brentq : Brentq) (lst ra dec : ℚ → ℚ) (lower : Bool) (day t0 : ℚ)
    (t1 step : Option ℚ) : Except RErr (List ℚ × List ℚ) :=
  match transitTimes mul brentq lst ra lower day t0 t1 step with
  | .error e => .error e
  | .ok ts => .ok (ts, if 0 < ts.length then ts.map dec else [])

/-- observer.py:812-815: the function whose roots are the risings and settings. -/
def horizonFn (alt : ℚ → ℚ) (diameter t : ℚ) : ℚ := alt t + diameter / 2

/-- observer.py:799-832 `_sr_work`. -/
def srWork (mul : ℚ → ℚ → ℚ) (brentq : Brentq) (alt : ℚ → ℚ) (day t0 : ℚ) (t1 step : Option ℚ) (diameter : ℚ)
    (skipRise skipSet : Bool) : Except RErr (List (ℚ × Bool)) :=
  match fixup day t0 t1 step with
  | .error e => .error e
  | .ok (a, b, s) =>
    match solveAll mul (horizonFn alt diameter) (brentq (horizonFn alt diameter)) skipRise skipSet a b s with
    | .error e => .error e
    | .ok rs => .ok (rs.map fun r => (r.1 * 86400, r.2))

/-- observer.py:388-427 `rise_set_times`. -/
def riseSetTimes (mul : ℚ → ℚ → ℚ) (brentq : Brentq) (alt : ℚ → ℚ) (day t0 : ℚ) (t1 step : Option ℚ) (diameter : ℚ) :
    Except RErr (List (ℚ × Bool)) :=
  srWork mul brentq alt day t0 t1 step diameter false false

/-- observer.py:429-464 `rise_times`. -/
def riseTimes (mul : ℚ → ℚ → ℚ) (brentq : Brentq) (alt : ℚ → ℚ) (day t0 : ℚ) (t1 step : Option ℚ) (diameter : ℚ) :
    Except RErr (List ℚ) :=
  match srWork mul brentq alt day t0 t1 step diameter false true with
  | .error e => .error e
  | .ok rs => .ok (rs.map Prod.fst)

/-- observer.py:466-501 `set_times`. -/
def setTimes (mul : ℚ → ℚ → ℚ) (brentq : Brentq) (alt : ℚ → ℚ) (day t0 : ℚ) (t1 step : Option ℚ) (diameter : ℚ) :
    Except RErr (List ℚ) :=
  match srWork mul brentq alt day t0 t1 step diameter true false with
  | .error e => .error e
  | .ok rs => .ok (rs.map Prod.fst)

/-- A place on earth: longitude and latitude in degrees, height in metres. -/
structure Place where
  lon : ℚ
  lat : ℚ
  height : ℚ
  deriving DecidableEq

/-- observer.py:91-106: the attributes of the observer and the cached skyfield location `_obs`. -/
structure Obs where
  place : Place
  cached : Option Place

/-- observer.py:98-106 `Observer.__init__`. -/
def Obs.new (p : Place) : Obs := ⟨p, none⟩

/-- observer.py:116-135 `skyfield_obs`: the location that is used for positions, and the observer afterwards. -/
def Obs.location (o : Obs) : Place × Obs :=
  match o.cached with
  | none => (o.place, { o with cached := some o.place })
  | some p => (p, o)

/-- What a program does with an observer: set its attributes, or ask for positions. -/
inductive ObsOp where
  | move (p : Place)
  | ask

/-- Run the operations; the list has the place used for each question, with the attributes at that time. -/
def Obs.run (o : Obs) : List ObsOp → List (Place × Place)
  | [] => []
  | .move p :: rest => Obs.run { o with place := p } rest
  | .ask :: rest => (o.location.1, o.place) :: Obs.run o.location.2 rest

end Verif.Roots
