/-!
# Model of the decorators for functions of numbers

Models `vectorize`, `scalarize` and `listize` (`caput/util/arraytools.py:183-331`) for any function, any number of positional arguments
and arrays of any shape.

Library knowledge: numpy's rule for broadcasting, the order of elements in C, and `np.vectorize`: with `otypes` the function is called for each
element and the results are converted to that type; without, arrays without elements are refused, and the type is that of the result for the
first elements.

Simplifications: functions have no effects (without `otypes` numpy calls them twice for the first elements); keyword arguments, times of
Skyfield and functions with several results are left out. Sequences are what `np.array` makes of them.
-/
namespace Verif.Deco

inductive PyErr where
  | valueError
  | typeError
  | indexError
  | user (n : Nat)
  deriving DecidableEq, Repr

/-- An array as an argument: its shape, and the element at each index. -/
structure Arr (α : Type) where
  shape : List Nat
  get : List Nat → α

/-- A positional argument: a number, a sequence, or an array. -/
inductive Arg (α : Type) where
  | one (x : α)
  | seq (a : Arr α)
  | arr (a : Arr α)

/-- An array as a result: its shape, and its elements in the order of C. -/
structure Out (β : Type) where
  shape : List Nat
  data : List β
  deriving DecidableEq, Repr

inductive Res (β : Type) where
  | one (y : β)
  | arr (o : Out β)
  deriving DecidableEq, Repr

/-- All indices of an array, in the order of C. -/
def indices : List Nat → List (List Nat)
  | [] => [[]]
  | n :: s => (List.range n).flatMap fun i => (indices s).map (i :: ·)

/-- numpy: the length of an axis from those of two arguments. -/
def bdim (a b : Nat) : Option Nat := if a = b then some a else if a = 1 then some b else if b = 1 then some a else none

/-- numpy: the shape from those of two arguments, last axis first. -/
def bshape2 : List Nat → List Nat → Option (List Nat)
  | [], t => some t
  | s, [] => some s
  | a :: s, b :: t =>
    match bdim a b, bshape2 s t with
    | some d, some r => some (d :: r)
    | _, _ => none

/-- numpy: the shape from those of all arguments, last axis first. -/
def bshapeR : List (List Nat) → Option (List Nat)
  | [] => some []
  | s :: l =>
    match bshapeR l with
    | none => none
    | some t => bshape2 s t

/-- `np.broadcast_shapes`. -/
def bshape (l : List (List Nat)) : Option (List Nat) := (bshapeR (l.map List.reverse)).map List.reverse

/-- numpy: the index into an argument of shape `s` for the index `i` of the result. -/
def sub (s i : List Nat) : List Nat := List.zipWith (fun d x => if d = 1 then 0 else x) s (i.drop (i.length - s.length))

/-- Calls for a list, until one raises. -/
def eachOf {ι β : Type} (f : ι → Except PyErr β) : List ι → Except PyErr (List β)
  | [] => .ok []
  | x :: l =>
    match f x with
    | .error e => .error e
    | .ok y =>
      match eachOf f l with
      | .error e => .error e
      | .ok r => .ok (y :: r)

/-- A function applied to each element of arrays, by numpy. -/
def ufunc {α β : Type} (f : List α → Except PyErr β) (args : List (Arr α)) : Except PyErr (Out β) :=
  match bshape (args.map (·.shape)) with
  | none => .error .valueError
  | some s =>
    match eachOf (fun i => f (args.map fun a => a.get (sub a.shape i))) (indices s) with
    | .error e => .error e
    | .ok l => .ok ⟨s, l⟩

/-- `np.asarray`. -/
def Arg.array {α : Type} : Arg α → Arr α
  | .one x => ⟨[], fun _ => x⟩
  | .seq a => a
  | .arr a => a

/-- Types of arrays: the type of a value, and the conversion to a type. -/
structure Kinds (β κ : Type) where
  kind : β → κ
  conv : κ → β → β

/-- `np.vectorize(f, otypes=...)(*args)`. -/
def npVectorize {α β κ : Type} (k : Kinds β κ) (otypes : Option κ) (f : List α → Except PyErr β) (args : List (Arr α)) :
    Except PyErr (Out β) :=
  match otypes with
  | some t => ufunc (fun xs => (f xs).map (k.conv t)) args
  | none =>
    if args.any fun a => a.shape.any (· == 0) then .error .valueError
    else
      match f (args.map fun a => a.get (a.shape.map fun _ => 0)) with
      | .error e => .error e
      | .ok y => ufunc (fun xs => (f xs).map (k.conv (k.kind y))) args

/-- arraytools.py:206-209: `arr.item()` for an array without axes. -/
def finish {β : Type} : Except PyErr (Out β) → Except PyErr (Res β)
  | .error e => .error e
  | .ok o =>
    if o.shape = [] then
      match o.data with
      | y :: _ => .ok (.one y)
      | [] => .error .valueError
    else .ok (.arr o)

/-- arraytools.py:202-209 `vectorize`, `__call__`. -/
def vectorize {α β κ : Type} (k : Kinds β κ) (otypes : Option κ) (f : List α → Except PyErr β) (args : List (Arg α)) :
    Except PyErr (Res β) := finish (npVectorize k otypes f (args.map Arg.array))

/-- arraytools.py:254-279 `_make_array`: the array, whether it was a number, and whether its length is zero; an array without axes has no
length. -/
def makeArray {α : Type} : Arg α → Except PyErr (Arr α × Bool × Bool)
  | .one x => .ok (⟨[1], fun _ => x⟩, true, false)
  | .seq a | .arr a =>
    match a.shape with
    | [] => .error .typeError
    | n :: _ => .ok (a, false, n == 0)

/-- arraytools.py:239-252 `scalarize`, `__call__`. The result of the function is an array; `ret[0]` of an array with one axis. -/
def scalarize {α β : Type} (func : List (Arr α) → Except PyErr (Out β)) (args : List (Arg α)) : Except PyErr (Res β) :=
  match args with
  | [] => .error .valueError
  | _ :: _ =>
    match eachOf makeArray args with
    | .error e => .error e
    | .ok l =>
      if l.all fun x => x.2.2 then .ok (.arr ⟨[0], []⟩)
      else
        match func (l.map (·.1)) with
        | .error e => .error e
        | .ok r =>
          if l.all fun x => x.2.1 then
            match r.data with
            | y :: _ => .ok (.one y)
            | [] => .error .indexError
          else .ok (.arr r)

/-- arraytools.py:306-315 `listize`, `__call__`. -/
def listize {α β : Type} (func : List (Arg α) → Except PyErr (Res β)) (args : List (Arg α)) : Except PyErr (Res β) :=
  func (args.map fun a => match a with
    | .seq x => .arr x
    | a => a)

end Verif.Deco
