import Verif.Stellar.Model

/-!
# Model of the functions of time for many times

Models the decorators `scalarize` and `listize` (`caput/util/arraytools.py:224-327`), and what is decorated by them:
`unix_to_skyfield_time` (`caput/astro/skyfield.py:202-225`), `unix_to_era`, `era_to_unix`, `leap_seconds_between`
(`caput/astro/time.py:92-154, 255-293`), and the methods of `Observer` for stellar angles and days
(`caput/astro/observer.py:137-270`).

Simplifications: numbers are rational; arrays have one axis or none; keyword arguments are left out (except that a call may
be without positional ones).
-/
namespace Verif.Forms

open Verif.Stellar (Sky Obs pmod rint stellarSecond siderealSecond)

inductive PyErr where
  | valueError
  | typeError
  | attributeError
  | indexError
  | runtimeError
  deriving DecidableEq, Repr

/-- An argument: a number, a list or tuple, an array, or an array without axes. -/
inductive Arg where
  | num (x : ℚ)
  | list (l : List ℚ)
  | arr (l : List ℚ)
  | zerod (x : ℚ)
  deriving DecidableEq, Repr

/-- A result: a number or an array. -/
inductive V where
  | num (x : ℚ)
  | arr (l : List ℚ)
  deriving DecidableEq, Repr

def V.arg : V → Arg
  | .num x => .num x
  | .arr l => .arr l

/-- Arithmetic of `numpy` on arrays. -/
def bc (f : ℚ → ℚ → ℚ) (a b : List ℚ) : Except PyErr (List ℚ) :=
  if a.length = b.length then .ok (List.zipWith f a b)
  else
    match a, b with
    | [x], b => .ok (b.map (f x))
    | a, [y] => .ok (a.map (f · y))
    | _, _ => .error .valueError

/-- Arithmetic of `numpy` on numbers and arrays. -/
def V.op (f : ℚ → ℚ → ℚ) : V → V → Except PyErr V
  | .num x, .num y => .ok (.num (f x y))
  | .num x, .arr b => .ok (.arr (b.map (f x)))
  | .arr a, .num y => .ok (.arr (a.map (f · y)))
  | .arr a, .arr b => match bc f a b with
    | .error e => .error e
    | .ok l => .ok (.arr l)

def V.map (f : ℚ → ℚ) : V → V
  | .num x => .num (f x)
  | .arr l => .arr (l.map f)

/-- `scalarize` (arraytools.py:252-277 `_make_array`): the array, and whether it was a number. `len` of an array without
axes raises. -/
def makeArray : Arg → Except PyErr (List ℚ × Bool)
  | .num x => .ok ([x], true)
  | .list l => .ok (l, false)
  | .arr l => .ok (l, false)
  | .zerod _ => .error .typeError

def makeArrays : List Arg → Except PyErr (List (List ℚ × Bool))
  | [] => .ok []
  | a :: l =>
    match makeArray a with
    | .error e => .error e
    | .ok x =>
      match makeArrays l with
      | .error e => .error e
      | .ok r => .ok (x :: r)

/-- `scalarize` (arraytools.py:238-250 `__call__`). -/
def scalarize (body : List (List ℚ) → Except PyErr (List ℚ)) (args : List Arg) : Except PyErr V :=
  match args with
  | [] => .error .valueError
  | _ :: _ =>
    match makeArrays args with
    | .error e => .error e
    | .ok l =>
      if l.all (fun x => x.1.isEmpty) then .ok (.arr [])
      else
        match body (l.map (·.1)) with
        | .error e => .error e
        | .ok r =>
          if l.all (·.2) then
            match r with
            | [] => .error .indexError
            | x :: _ => .ok (.num x)
          else .ok (.arr r)

/-- `listize` (arraytools.py:305-327): what a function gets for a list. -/
def listize : Arg → Arg
  | .list l => .arr l
  | a => a

/-- An attribute (`tt`, `ut1`, `gast`) of what `unix_to_skyfield_time` gives for an array; an empty array is given back as
such and has no attributes. -/
def timeAttr (attr : ℚ → ℚ) (l : List ℚ) : Except PyErr (List ℚ) := if l = [] then .error .attributeError else .ok (l.map attr)

/-- `unix_to_era`. -/
def unixToEra (k : Sky) (t : Arg) : Except PyErr V :=
  scalarize (fun args => match args with
    | [l] => timeAttr (fun t => 360 * Int.fract (k.turns (k.tt t))) l
    | _ => .error .typeError) [t]

/-- The body of `leap_seconds_between`. -/
def leapBody (k : Sky) (a b : List ℚ) : Except PyErr (List ℚ) :=
  match bc (fun y x => y - x) b a with
  | .error e => .error e
  | .ok deltaUnix =>
    match timeAttr k.tt a with
    | .error e => .error e
    | .ok ttA =>
      match timeAttr k.tt b with
      | .error e => .error e
      | .ok ttB =>
        match bc (fun y x => y - x) ttB ttA with
        | .error e => .error e
        | .ok deltaTt =>
          match bc (fun y x => y - x) deltaTt deltaUnix with
          | .error e => .error e
          | .ok shift =>
            if shift.any (fun s => decide (1 / 100 < |s - rint s|)) then .error .runtimeError
            else .ok (shift.map fun s => ((rint s : ℤ) : ℚ))

/-- `leap_seconds_between`. -/
def leapSecondsBetween (k : Sky) (a b : Arg) : Except PyErr V :=
  scalarize (fun args => match args with
    | [a, b] => leapBody k a b
    | _ => .error .typeError) [a, b]

/-- The array in a result (the functions called with arrays give arrays). -/
def V.list : V → List ℚ
  | .num x => [x]
  | .arr l => l

/-- The body of `era_to_unix`. -/
def eraBody (k : Sky) (era time0 : List ℚ) : Except PyErr (List ℚ) :=
  match unixToEra k (.arr time0) with
  | .error e => .error e
  | .ok era0 =>
    match bc (fun x y => pmod (x - y) 360 * 240 * stellarSecond) era era0.list with
    | .error e => .error e
    | .ok diffTime =>
      match bc (· + ·) time0 diffTime with
      | .error e => .error e
      | .ok time1 =>
        match leapSecondsBetween k (.arr time0) (.arr time1) with
        | .error e => .error e
        | .ok leaps => bc (· - ·) time1 leaps.list

/-- `era_to_unix`. -/
def eraToUnix (k : Sky) (era time0 : Arg) : Except PyErr V :=
  scalarize (fun args => match args with
    | [a, b] => eraBody k a b
    | _ => .error .typeError) [era, time0]

/-- Arithmetic makes numbers of arrays without axes. -/
def Arg.v : Arg → V
  | .num x => .num x
  | .list l => .arr l
  | .arr l => .arr l
  | .zerod x => .num x

/-- `Observer.unix_to_lsa`. -/
def unixToLsa (k : Sky) (o : Obs) (time : Arg) : Except PyErr V :=
  match unixToEra k (listize time) with
  | .error e => .error e
  | .ok era => .ok (era.map fun x => pmod (x + o.longitude) 360)

/-- `Observer.lsa_to_unix`. -/
def lsaToUnix (k : Sky) (o : Obs) (lsa time0 : Arg) : Except PyErr V :=
  eraToUnix k ((listize lsa).v.map fun x => pmod (x - o.longitude) 360).arg (listize time0)

/-- `Observer.lsd_zero`. -/
def lsdZero (k : Sky) (o : Obs) : Except PyErr V := lsaToUnix k o (.num 0) (.num o.lsdStartDay)

/-- `Observer.unix_to_lsd`. -/
def unixToLsd (k : Sky) (o : Obs) (time : Arg) : Except PyErr V :=
  match unixToLsa k o (listize time) with
  | .error e => .error e
  | .ok lsa =>
    let frac := lsa.map (· / 360)
    match lsdZero k o with
    | .error e => .error e
    | .ok zero =>
      match V.op (fun t z => (t - z) / (24 * 3600 * siderealSecond)) (listize time).v zero with
      | .error e => .error e
      | .ok approx =>
        match V.op (fun x y => ((rint (x - y) : ℤ) : ℚ)) approx frac with
        | .error e => .error e
        | .ok whole => V.op (· + ·) whole frac

/-- `Observer.lsd_to_unix`. -/
def lsdToUnix (k : Sky) (o : Obs) (lsd : Arg) : Except PyErr V :=
  match lsdZero k o with
  | .error e => .error e
  | .ok zero =>
    match V.op (fun z l => z + l * 3600 * 24 * siderealSecond - 12 * 3600) zero (listize lsd).v with
    | .error e => .error e
    | .ok start => lsaToUnix k o ((listize lsd).v.map fun l => 360 * pmod l 1).arg start.arg

/-- `Observer.unix_to_lst` (252-268); `gast` is the sidereal time in hours. -/
def unixToLst (gast : ℚ → ℚ) (o : Obs) (time : Arg) : Except PyErr V :=
  match makeArray (listize time) with
  | .error e => .error e
  | .ok (l, scalar) =>
    match timeAttr gast l with
    | .error e => .error e
    | .ok g => .ok ((if scalar then V.num (g.headD 0) else .arr g).map fun x => pmod (x * 15 + o.longitude) 360)

end Verif.Forms
