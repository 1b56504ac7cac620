import Verif.Forms.Model
import Verif.Forms.DecoSpec

/-!
# Model of the functions of time for arrays with any axes

Models what `Forms/Model.lean` does, `unix_to_era`, `era_to_unix`, `leap_seconds_between` (`caput/astro/time.py:92-154, 255-293`), and the
methods of `Observer` for stellar angles and days (`caput/astro/observer.py:137-268`), with the decorators `scalarize` and `listize`
(`caput/util/arraytools.py:224-331`), on arrays of any shape, with numpy's broadcasting.

Library knowledge: arithmetic of numpy, and that the attributes of Skyfield's times are computed for each element.

Simplifications: numbers are rational; keyword arguments and times of Skyfield are left out.
-/
namespace Verif.Grid

open Verif.Stellar (Sky Obs pmod rint stellarSecond siderealSecond)
open Verif.Forms (PyErr)
open Verif.Deco (Arr Arg bshape sub indices)

/-- A result: a number or an array. -/
inductive V where
  | one (x : ℚ)
  | arr (a : Arr ℚ)

/-- Arithmetic of `numpy` on two arrays. -/
def bop (f : ℚ → ℚ → ℚ) (a b : Arr ℚ) : Except PyErr (Arr ℚ) :=
  match bshape [a.shape, b.shape] with
  | none => .error .valueError
  | some t => .ok ⟨t, fun i => f (a.get (sub a.shape i)) (b.get (sub b.shape i))⟩

def amap (f : ℚ → ℚ) (a : Arr ℚ) : Arr ℚ := ⟨a.shape, fun i => f (a.get i)⟩

/-- `arraytools.py:254-279` `_make_array`: the array, whether it was a number, and whether its length is zero; an array without axes has no
length. -/
def makeArray : Arg ℚ → Except PyErr (Arr ℚ × Bool × Bool)
  | .one x => .ok (⟨[1], fun _ => x⟩, true, false)
  | .seq a | .arr a =>
    match a.shape with
    | [] => .error .typeError
    | n :: _ => .ok (a, false, n == 0)

def makeArrays : List (Arg ℚ) → Except PyErr (List (Arr ℚ × Bool × Bool))
  | [] => .ok []
  | a :: l =>
    match makeArray a with
    | .error e => .error e
    | .ok x =>
      match makeArrays l with
      | .error e => .error e
      | .ok r => .ok (x :: r)

/-- `ret[0]`. -/
def firstOf (r : Arr ℚ) : Except PyErr V :=
  match r.shape with
  | [] => .error .indexError
  | n :: s =>
    if n = 0 then .error .indexError
    else if s = [] then .ok (.one (r.get [0]))
    else .ok (.arr ⟨s, fun i => r.get (0 :: i)⟩)

/-- `arraytools.py:239-252` `scalarize`, `__call__`. -/
def scalarize (body : List (Arr ℚ) → Except PyErr (Arr ℚ)) (args : List (Arg ℚ)) : Except PyErr V :=
  match args with
  | [] => .error .valueError
  | _ :: _ =>
    match makeArrays args with
    | .error e => .error e
    | .ok l =>
      if l.all (·.2.2) then .ok (.arr ⟨[0], fun _ => 0⟩)
      else
        match body (l.map (·.1)) with
        | .error e => .error e
        | .ok r => if l.all (·.2.1) then firstOf r else .ok (.arr r)

/-- `arraytools.py:306-315` `listize`: what a function gets for a sequence. -/
def listize : Arg ℚ → Arg ℚ
  | .seq a => .arr a
  | a => a

/-- An attribute (`tt`, `ut1`) of what `unix_to_skyfield_time` (`caput/astro/skyfield.py:202-225`), which is decorated by `scalarize`, gives for an
array; an array of length zero is given back as an array and has no such attributes. -/
def timeAttr (attr : ℚ → ℚ) (a : Arr ℚ) : Except PyErr (Arr ℚ) :=
  match makeArray (.arr a) with
  | .error e => .error e
  | .ok (a, _, empty) => if empty then .error .attributeError else .ok (amap attr a)

/-- `time.py:92-116` `unix_to_era`. -/
def unixToEra (k : Sky) (t : Arg ℚ) : Except PyErr V :=
  scalarize (fun args => match args with
    | [a] => timeAttr (fun t => 360 * Int.fract (k.turns (k.tt t))) a
    | _ => .error .typeError) [t]

/-- `time.py:286`: not a whole number of seconds. -/
def crazy (x : ℚ) : Bool := decide (1 / 100 < |x - rint x|)

/-- `time.py:282-293`. -/
def leapEnd (shift : Arr ℚ) : Except PyErr (Arr ℚ) :=
  if (indices shift.shape).any (fun i => crazy (shift.get i)) then .error .runtimeError
  else .ok (amap (fun s => ((rint s : ℤ) : ℚ)) shift)

/-- `time.py:271-293`, the body of `leap_seconds_between`. -/
def leapBody (k : Sky) (a b : Arr ℚ) : Except PyErr (Arr ℚ) :=
  match bop (· - ·) b a with
  | .error e => .error e
  | .ok deltaUnix =>
    match timeAttr k.tt a with
    | .error e => .error e
    | .ok ttA =>
      match timeAttr k.tt b with
      | .error e => .error e
      | .ok ttB =>
        match bop (· - ·) ttB ttA with
        | .error e => .error e
        | .ok deltaTt =>
          match bop (· - ·) deltaTt deltaUnix with
          | .error e => .error e
          | .ok shift => leapEnd shift

/-- `time.py:255-293` `leap_seconds_between`. -/
def leapSecondsBetween (k : Sky) (a b : Arg ℚ) : Except PyErr V :=
  scalarize (fun args => match args with
    | [a, b] => leapBody k a b
    | _ => .error .typeError) [a, b]

/-- The array in a result: numbers are arrays without axes. -/
def V.array : V → Arr ℚ
  | .one x => ⟨[], fun _ => x⟩
  | .arr a => a

/-- `time.py:138-154`, the body of `era_to_unix`. -/
def eraBody (k : Sky) (era time0 : Arr ℚ) : Except PyErr (Arr ℚ) :=
  match unixToEra k (.arr time0) with
  | .error e => .error e
  | .ok era0 =>
    match bop (fun x y => pmod (x - y) 360 * 240 * stellarSecond) era era0.array with
    | .error e => .error e
    | .ok diffTime =>
      match bop (· + ·) time0 diffTime with
      | .error e => .error e
      | .ok time1 =>
        match leapSecondsBetween k (.arr time0) (.arr time1) with
        | .error e => .error e
        | .ok leaps => bop (· - ·) time1 leaps.array

/-- `time.py:119-154` `era_to_unix`. -/
def eraToUnix (k : Sky) (era time0 : Arg ℚ) : Except PyErr V :=
  scalarize (fun args => match args with
    | [a, b] => eraBody k a b
    | _ => .error .typeError) [era, time0]

/-- Arithmetic makes numbers of arrays without axes. -/
def value : Arg ℚ → V
  | .one x => .one x
  | .seq a | .arr a => if a.shape = [] then .one (a.get []) else .arr a

def V.arg : V → Arg ℚ
  | .one x => .one x
  | .arr a => .arr a

/-- Arithmetic with numbers. -/
def V.map (f : ℚ → ℚ) : V → V
  | .one x => .one (f x)
  | .arr a => .arr (amap f a)

/-- Arithmetic of `numpy` on numbers and arrays. -/
def V.op (f : ℚ → ℚ → ℚ) : V → V → Except PyErr V
  | .one x, .one y => .ok (.one (f x y))
  | .one x, .arr b => .ok (.arr (amap (f x) b))
  | .arr a, .one y => .ok (.arr (amap (f · y) a))
  | .arr a, .arr b => match bop f a b with
    | .error e => .error e
    | .ok r => .ok (.arr r)

/-- `observer.py:137-156` `unix_to_lsa`. -/
def unixToLsa (k : Sky) (o : Obs) (time : Arg ℚ) : Except PyErr V :=
  match unixToEra k (listize time) with
  | .error e => .error e
  | .ok era => .ok (era.map fun x => pmod (x + o.longitude) 360)

/-- `observer.py:160-179` `lsa_to_unix`. -/
def lsaToUnix (k : Sky) (o : Obs) (lsa time0 : Arg ℚ) : Except PyErr V :=
  eraToUnix k ((value (listize lsa)).map fun x => pmod (x - o.longitude) 360).arg (listize time0)

/-- `observer.py:181-189` `lsd_zero`. -/
def lsdZero (k : Sky) (o : Obs) : Except PyErr V := lsaToUnix k o (.one 0) (.one o.lsdStartDay)

/-- `observer.py:191-222` `unix_to_lsd`. -/
def unixToLsd (k : Sky) (o : Obs) (time : Arg ℚ) : Except PyErr V :=
  match unixToLsa k o (listize time) with
  | .error e => .error e
  | .ok lsa =>
    let frac := lsa.map (· / 360)
    match lsdZero k o with
    | .error e => .error e
    | .ok zero =>
      match V.op (fun t z => (t - z) / (24 * 3600 * siderealSecond)) (value (listize time)) zero with
      | .error e => .error e
      | .ok approx =>
        match V.op (fun x y => ((rint (x - y) : ℤ) : ℚ)) approx frac with
        | .error e => .error e
        | .ok whole => V.op (· + ·) whole frac

/-- `observer.py:226-250` `lsd_to_unix`. -/
def lsdToUnix (k : Sky) (o : Obs) (lsd : Arg ℚ) : Except PyErr V :=
  match lsdZero k o with
  | .error e => .error e
  | .ok zero =>
    match V.op (fun z l => z + l * 3600 * 24 * siderealSecond - 12 * 3600) zero (value (listize lsd)) with
    | .error e => .error e
    | .ok start => lsaToUnix k o ((value (listize lsd)).map fun l => 360 * pmod l 1).arg start.arg

/-- `observer.py:252-268` `unix_to_lst`; `gast` is the sidereal time in hours. For a number `unix_to_skyfield_time` gives the first of one time. -/
def unixToLst (gast : ℚ → ℚ) (o : Obs) (time : Arg ℚ) : Except PyErr V :=
  match makeArray (listize time) with
  | .error e => .error e
  | .ok (a, scalar, _) =>
    match timeAttr gast a with
    | .error e => .error e
    | .ok g =>
      match if scalar then firstOf g else .ok (.arr g) with
      | .error e => .error e
      | .ok v => .ok (v.map fun x => pmod (x * 15 + o.longitude) 360)

end Verif.Grid
