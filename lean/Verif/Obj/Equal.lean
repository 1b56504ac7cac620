import Mathlib.Data.List.Nodup
import Mathlib.Data.Rat.Defs
import Mathlib.Tactic.Common

/-!
# Model of `allequal`

Models `caput/util/objecttools.py:20-100` together with the parts of `np.testing.assert_equal` and
`assert_array_equal` that decide about scalars and arrays.

Numbers are real: integers, booleans and floats are their values, with NaN, the infinities and the negative zero
apart. Complex numbers, dates and sets are not modelled. Arrays are numerical and have one axis.
-/
namespace Verif.Obj

/-- A number. -/
inductive Num where
  | nan
  | inf (negative : Bool)
  | negZero
  | val (q : Rat)
  deriving DecidableEq

/-- `a == b` in Python. -/
def Num.pyEq : Num → Num → Bool
  | .nan, _ => false
  | _, .nan => false
  | .negZero, .val q => decide (q = 0)
  | .val q, .negZero => decide (q = 0)
  | a, b => decide (a = b)

/-- `np.signbit`. -/
def Num.signbit : Num → Bool
  | .nan => false
  | .inf negative => negative
  | .negZero => true
  | .val q => decide (q < 0)

/-- `a == 0`. -/
def Num.isZero (a : Num) : Bool := a.pyEq (.val 0)

/-- `np.testing.assert_equal` on two numbers: both NaN; both zero and of the same sign; or equal. -/
def Num.assertEq (a b : Num) : Bool :=
  if a = .nan ∧ b = .nan then true
  else if b.isZero && a.isZero && (b.signbit != a.signbit) then false
  else b.pyEq a

/-- `np.testing.assert_array_equal` on two elements: both NaN or equal. -/
def Num.arrEq (a b : Num) : Bool :=
  if a = .nan ∨ b = .nan then decide (a = .nan ∧ b = .nan) else a.pyEq b

mutual
/-- An object. -/
inductive Py where
  | none
  | str (s : String)
  | num (n : Num)
  /-- An array and its class. -/
  | arr (cls : Nat) (data : List Num)
  | seq (tuple : Bool) (l : PyL)
  | dict (d : PyD)
/-- The elements of a list or tuple. -/
inductive PyL where
  | nil
  | cons (x : Py) (l : PyL)
/-- The items of a dictionary, in order. -/
inductive PyD where
  | nil
  | cons (k : String) (v : Py) (d : PyD)
end

/-- `len`. -/
def PyL.length : PyL → Nat
  | .nil => 0
  | .cons _ l => l.length + 1

/-- `len`. -/
def PyD.length : PyD → Nat
  | .nil => 0
  | .cons _ _ d => d.length + 1

/-- `d.get(k)`. -/
def PyD.get (d : PyD) (k : String) : Option Py :=
  match d with
  | .nil => Option.none
  | .cons k' v d' => if k' = k then some v else d'.get k

/-- The keys in order. -/
def PyD.keys : PyD → List String
  | .nil => []
  | .cons k _ d => k :: d.keys

/-- `np.asanyarray` of a list of numbers. -/
def PyL.nums : PyL → Option (List Num)
  | .nil => some []
  | .cons (.num n) l => l.nums.map (n :: ·)
  | .cons _ _ => Option.none

/-- `assert_array_equal` on two arrays with one axis. -/
def arraysEq : List Num → List Num → Bool
  | [], [] => true
  | a :: as, b :: bs => a.arrEq b && arraysEq as bs
  | _, _ => false

/-- objecttools.py:90-100, for what is left then: `np.testing.assert_equal`, and before that the test of the
classes of two arrays. A number is compared with every element of an array. -/
def leafEq : Py → Py → Bool
  | .arr c l, .arr c' l' => decide (c = c') && arraysEq l l'
  | .arr _ l, .num n => l.all fun a => a.arrEq n
  | .num n, .arr _ l => l.all fun a => n.arrEq a
  | .arr _ l, .seq _ m =>
    match m.nums with
    | some l' => arraysEq l l'
    | Option.none => false
  | .seq _ m, .arr _ l =>
    match m.nums with
    | some l' => arraysEq l' l
    | Option.none => false
  | .num a, .num b => a.assertEq b
  | .str s, .str t => decide (s = t)
  | .none, .none => true
  | _, _ => false

mutual
/-- objecttools.py:46-100 `_assert_equal`, `false` being an `AssertionError`; so also `allequal`. -/
def allequal : Py → Py → Bool
  | .dict d, y =>
    match y with
    | .dict e => decide (d.length = e.length) && dictsEq d e
    | _ => false
  | .seq t l, y =>
    match y with
    | .seq _ m => decide (l.length = m.length) && seqsEq l m
    | y => leafEq (.seq t l) y
  | .none, y => leafEq .none y
  | .str s, y => leafEq (.str s) y
  | .num n, y => leafEq (.num n) y
  | .arr c l, y => leafEq (.arr c l) y
/-- objecttools.py:85-86: the loop over the elements. -/
def seqsEq : PyL → PyL → Bool
  | .nil, _ => true
  | .cons x l, m =>
    match m with
    | .cons y m => allequal x y && seqsEq l m
    | .nil => false
/-- objecttools.py:75-78: the loop over the keys. -/
def dictsEq : PyD → PyD → Bool
  | .nil, _ => true
  | .cons k v d, e =>
    match e.get k with
    | Option.none => false
    | some w => allequal v w && dictsEq d e
end

end Verif.Obj
