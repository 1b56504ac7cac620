import Verif.Stellar.Model

/-!
# Model of dates, times of day and their strings

Models `unix_to_datetime`, `datetime_to_unix`, `datetime_to_timestr`, `timestr_to_datetime`, `ensure_unix`,
`naive_datetime_to_utc` and `time_of_day` (`caput/astro/time.py:157-252, 296-377`), with the decorators
`vectorize` and `scalarize` (`caput/util/arraytools.py:183-221, 224-285`) for numbers and lists.

Library knowledge: the calendar of Python's `datetime` (the functions `_ymd2ord` and `_ord2ymd` of `_pydatetime.py`), the regular
expression that `strptime` makes of a format, the rounding of `fromtimestamp`, and that `strftime` (of the C library on Linux) does not
pad years with fewer than four digits.

Simplifications: numbers are rational; digits are those of ASCII; times of Skyfield and keyword arguments are left out.
-/
namespace Verif.Clock

open Verif.Stellar (rint)

abbrev Str := List Char

inductive PyErr where
  | valueError
  | typeError
  | attributeError
  deriving DecidableEq, Repr

/-! ### The calendar of `datetime` -/

/-- `_is_leap`. -/
def isLeap (y : Nat) : Bool := y % 4 == 0 && (y % 100 != 0 || y % 400 == 0)

/-- `_days_before_year`. -/
def daysBeforeYear (y : Nat) : Nat := (y - 1) * 365 + (y - 1) / 4 - (y - 1) / 100 + (y - 1) / 400

/-- `_DAYS_IN_MONTH`, `_days_in_month`. -/
def daysInMonth (leap : Bool) : Nat → Nat
  | 1 => 31 | 2 => if leap then 29 else 28 | 3 => 31 | 4 => 30 | 5 => 31 | 6 => 30
  | 7 => 31 | 8 => 31 | 9 => 30 | 10 => 31 | 11 => 30 | 12 => 31
  | _ => 0

/-- `_DAYS_BEFORE_MONTH`, `_days_before_month`. -/
def daysBeforeMonth (leap : Bool) (m : Nat) : Nat :=
  (match m with
    | 1 => 0 | 2 => 31 | 3 => 59 | 4 => 90 | 5 => 120 | 6 => 151
    | 7 => 181 | 8 => 212 | 9 => 243 | 10 => 273 | 11 => 304 | 12 => 334
    | _ => 0) + (if 2 < m && leap then 1 else 0)

/-- `_ymd2ord`. -/
def ymd2ord (y m d : Nat) : Nat := daysBeforeYear y + daysBeforeMonth (isLeap y) m + d

/-- The last part of `_ord2ymd`: month and day from the day of the year, which starts at zero. -/
def monthDay (leap : Bool) (n : Nat) : Nat × Nat :=
  let month := (n + 50) / 32
  let preceding := daysBeforeMonth leap month
  if n < preceding then
    let month := month - 1
    (month, n - (preceding - daysInMonth leap month) + 1)
  else (month, n - preceding + 1)

/-- `_ord2ymd`. -/
def ord2ymd (ord : Nat) : Nat × Nat × Nat :=
  let n := ord - 1
  let n400 := n / 146097
  let n := n % 146097
  let year := n400 * 400 + 1
  let n100 := n / 36524
  let n := n % 36524
  let n4 := n / 1461
  let n := n % 1461
  let n1 := n / 365
  let n := n % 365
  let year := year + n100 * 100 + n4 * 4 + n1
  if n1 = 4 ∨ n100 = 4 then (year - 1, 12, 31)
  else
    let leap := n1 == 3 && (n4 != 24 || n100 == 3)
    let (m, d) := monthDay leap n
    (year, m, d)

/-- A `datetime`: its fields, and the offset of its time zone from UTC in microseconds, if it has one. -/
structure DT where
  year : Nat
  month : Nat
  day : Nat
  hour : Nat
  minute : Nat
  second : Nat
  micro : Nat
  tz : Option Int
  deriving DecidableEq, Repr

/-- The constructor of `datetime` checks its arguments. -/
def mk (y m d h mi s us : Nat) (tz : Option Int) : Except PyErr DT :=
  if (1 ≤ y ∧ y ≤ 9999) ∧ (1 ≤ m ∧ m ≤ 12) ∧ (1 ≤ d ∧ d ≤ daysInMonth (isLeap y) m) ∧ h ≤ 23 ∧ mi ≤ 59 ∧ s ≤ 59 ∧ us ≤ 999999 then
    .ok ⟨y, m, d, h, mi, s, us, tz⟩
  else .error .valueError

/-- `datetime.fromtimestamp(t, timezone.utc)`: rounded to microseconds. -/
def fromtimestamp (t : ℚ) : Except PyErr DT :=
  let us := rint (t * 1000000)
  let days := us / 86400000000
  let r := (us % 86400000000).toNat
  let ord := days + 719163
  if ord < 1 ∨ 3652059 < ord then .error .valueError
  else
    let (y, m, d) := ord2ymd ord.toNat
    .ok ⟨y, m, d, r / 3600000000, r / 60000000 % 60, r / 1000000 % 60, r % 1000000, some 0⟩

/-- Lines 328-358 `naive_datetime_to_utc`. -/
def naiveToUtc (dt : DT) : DT := if dt.tz = none then { dt with tz := some 0 } else dt

/-- Lines 157-179 `unix_to_datetime`. -/
def unixToDatetime (t : ℚ) : Except PyErr DT :=
  match fromtimestamp t with
  | .error e => .error e
  | .ok dt => .ok (naiveToUtc dt)

/-- The fields of a `datetime` as microseconds. -/
def DT.wall (dt : DT) : Int :=
  ((ymd2ord dt.year dt.month dt.day : Int) * 86400 + dt.hour * 3600 + dt.minute * 60 + dt.second) * 1000000 + dt.micro

/-- The difference of two `datetime`s with time zones, in microseconds. -/
def DT.sub (a b : DT) : Int := (a.wall - a.tz.getD 0) - (b.wall - b.tz.getD 0)

/-- `datetime.fromtimestamp(0, timezone.utc)`. -/
def epoch : DT := ⟨1970, 1, 1, 0, 0, 0, 0, some 0⟩

/-- Lines 182-208 `datetime_to_unix`. -/
def datetimeToUnix (dt : DT) : ℚ := (((naiveToUtc dt).sub (naiveToUtc epoch) : Int) : ℚ) / 1000000

def digit (n : Nat) : Char := Char.ofNat (48 + n)

def pad2 (n : Nat) : Str := [digit (n / 10), digit (n % 10)]

def pad4 (n : Nat) : Str := [digit (n / 1000), digit (n / 100 % 10), digit (n / 10 % 10), digit (n % 10)]

/-- `%Y`. -/
def yearStr (n : Nat) : Str :=
  if 1000 ≤ n then pad4 n else if 100 ≤ n then digit (n / 100) :: pad2 (n % 100) else if 10 ≤ n then pad2 n else [digit n]

/-- Lines 211-231 `datetime_to_timestr`. -/
def datetimeToTimestr (dt : DT) : Str :=
  yearStr dt.year ++ (pad2 dt.month ++ (pad2 dt.day ++ ('T' :: (pad2 dt.hour ++ (pad2 dt.minute ++ (pad2 dt.second ++ ['Z']))))))

/-! ### `strptime` -/

def num (c : Char) : Nat := c.toNat - 48

/-- One alternative of a regular expression: a class of characters for each place. The number that the characters make is
gathered on the way; `int` ignores a blank before it. -/
def one : List (Char → Bool) → Str → Nat → List (Nat × Str)
  | [], s, acc => [(acc, s)]
  | p :: ps, c :: s, acc => if p c then one ps s (if c = ' ' then acc else 10 * acc + num c) else []
  | _ :: _, [], _ => []

/-- The alternatives are tried in this order. -/
def alts (l : List (List (Char → Bool))) (s : Str) : List (Nat × Str) := l.flatMap fun c => one c s 0

def rng (a b : Char) (c : Char) : Bool := decide (a ≤ c) && decide (c ≤ b)

/-- `%Y`: `\d\d\d\d`. -/
def reY : List (List (Char → Bool)) := [[rng '0' '9', rng '0' '9', rng '0' '9', rng '0' '9']]
/-- `%m`: `1[0-2]|0[1-9]|[1-9]`. -/
def reM : List (List (Char → Bool)) := [[rng '1' '1', rng '0' '2'], [rng '0' '0', rng '1' '9'], [rng '1' '9']]
/-- `%d`: `3[0-1]|[1-2]\d|0[1-9]|[1-9]| [1-9]`. -/
def reD : List (List (Char → Bool)) :=
  [[rng '3' '3', rng '0' '1'], [rng '1' '2', rng '0' '9'], [rng '0' '0', rng '1' '9'], [rng '1' '9'], [rng ' ' ' ', rng '1' '9']]
/-- `%H`: `2[0-3]|[0-1]\d|\d`. -/
def reH : List (List (Char → Bool)) := [[rng '2' '2', rng '0' '3'], [rng '0' '1', rng '0' '9'], [rng '0' '9']]
/-- `%M`: `[0-5]\d|\d`. -/
def reMin : List (List (Char → Bool)) := [[rng '0' '5', rng '0' '9'], [rng '0' '9']]
/-- `%S`: `6[0-1]|[0-5]\d|\d`. -/
def reS : List (List (Char → Bool)) := [[rng '6' '6', rng '0' '1'], [rng '0' '5', rng '0' '9'], [rng '0' '9']]

/-- The letter; case is ignored. -/
def letterT : Str → List Str
  | c :: s => if c = 'T' ∨ c = 't' then [s] else []
  | [] => []

/-- All ways to match `%Y%m%dT%H%M%S` at the beginning, in the order in which they are tried. -/
def matches' (s : Str) : List ((Nat × Nat × Nat × Nat × Nat × Nat) × Str) :=
  (alts reY s).flatMap fun (y, s) =>
    (alts reM s).flatMap fun (m, s) =>
      (alts reD s).flatMap fun (d, s) =>
        (letterT s).flatMap fun s =>
          (alts reH s).flatMap fun (h, s) =>
            (alts reMin s).flatMap fun (mi, s) =>
              (alts reS s).map fun (sec, s) => ((y, m, d, h, mi, sec), s)

/-- `datetime.strptime(s, "%Y%m%dT%H%M%S")`: the first match is taken, and nothing may be left. -/
def strptime (s : Str) : Except PyErr DT :=
  match matches' s with
  | [] => .error .valueError
  | ((y, m, d, h, mi, sec), rest) :: _ =>
    if rest ≠ [] then .error .valueError
    else mk y m d h mi sec 0 none

/-- Lines 234-252 `timestr_to_datetime`. -/
def timestrToDatetime (s : Str) : Except PyErr DT := strptime (s.take 15)

/-! ### Any kind of time -/

/-- A time as a user gives it. -/
inductive Time where
  | num (x : ℚ)
  | dt (d : DT)
  | str (s : Str)
  | other

/-- An argument: one, or a list. -/
inductive Arg (α : Type) where
  | one (x : α)
  | list (l : List α)

/-- A result: one, or an array. -/
inductive Res (α : Type) where
  | one (x : α)
  | arr (l : List α)
  deriving DecidableEq

def eachOf {α β : Type} (f : α → Except PyErr β) : List α → Except PyErr (List β)
  | [] => .ok []
  | x :: l =>
    match f x with
    | .error e => .error e
    | .ok y =>
      match eachOf f l with
      | .error e => .error e
      | .ok r => .ok (y :: r)

/-- arraytools.py:182-220 `vectorize`: without `otypes`, `np.vectorize` needs an element. -/
def vectorize {α β : Type} (otypes : Bool) (f : α → Except PyErr β) : Arg α → Except PyErr (Res β)
  | .one x => match f x with
    | .error e => .error e
    | .ok y => .ok (.one y)
  | .list l =>
    if l = [] ∧ otypes = false then .error .valueError
    else
      match eachOf f l with
      | .error e => .error e
      | .ok r => .ok (.arr r)

/-- What `datetime_to_unix` makes of an element. -/
def unixOfDt : Time → Except PyErr ℚ
  | .dt d => .ok (datetimeToUnix d)
  | _ => .error .attributeError

/-- What `datetime_to_unix(timestr_to_datetime(...))` makes of an element. The kind of the error for what is not a string is simplified. -/
def unixOfStr : Time → Except PyErr ℚ
  | .str s => match timestrToDatetime s with
    | .error e => .error e
    | .ok d => .ok (datetimeToUnix d)
  | _ => .error .typeError

/-- `time.astype(np.float64)`; an array that is not of numbers is refused. -/
def unixOfNum : Time → Except PyErr ℚ
  | .num x => .ok x
  | _ => .error .typeError

/-- Lines 297-322: the body of `ensure_unix`; the first element decides. -/
def ensureBody (l : List Time) : Except PyErr (List ℚ) :=
  match l with
  | .dt _ :: _ => eachOf unixOfDt l
  | .str _ :: _ => eachOf unixOfStr l
  | _ => eachOf unixOfNum l

/-- Lines 296-322 `ensure_unix`, with `scalarize`. -/
def ensureUnix : Arg Time → Except PyErr (Res ℚ)
  | .one x => match ensureBody [x] with
    | .error e => .error e
    | .ok [] => .error .valueError
    | .ok (y :: _) => .ok (.one y)
  | .list l =>
    if l = [] then .ok (.arr [])
    else
      match ensureBody l with
      | .error e => .error e
      | .ok r => .ok (.arr r)

/-- Lines 362-377: the body of `time_of_day`. -/
def timeOfDay1 (t : Time) : Except PyErr ℚ :=
  match ensureUnix (.one t) with
  | .error e => .error e
  | .ok (.arr _) => .error .typeError
  | .ok (.one x) =>
    match fromtimestamp x with
    | .error e => .error e
    | .ok dt => .ok (((dt.sub { dt with hour := 0, minute := 0, second := 0, micro := 0 } : Int) : ℚ) / 1000000)

/-- Lines 361-377 `time_of_day`. -/
def timeOfDay : Arg Time → Except PyErr (Res ℚ) := vectorize false timeOfDay1

end Verif.Clock
