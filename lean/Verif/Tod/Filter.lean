import Verif.Tod.Model

/-!
# Model of the filter of a concatenation

Models `caput/containers/tod.py:369-374` (how `concatenate` decides how to call `dataset_filter`) and `:512-528` (the call, and the
slicing of what it returns). The rest is as in `Verif.Tod` (Model.lean), with the same simplifications.

`inspect.getfullargspec(f).args` are the names of all positional parameters, with and without defaults; those of a bound method
start with `self`, which the call supplies.
-/
namespace Verif.Tod

variable {α : Type}

/-- A callable: is it a bound method, its positional parameters (without `self`), how many of them have no default, and what it
returns for one argument and for two. -/
structure Fn (α : Type) where
  bound : Bool
  params : Nat
  required : Nat
  one : List α → List α
  two : List α → Int × Int → List α

/-- Exceptions: of the call, or as before. -/
inductive FErr where
  | typeError
  | py (e : PyErr)
  deriving DecidableEq, Repr

/-- `len(inspect.getfullargspec(f).args)`. -/
def Fn.argspec (f : Fn α) : Nat := f.params + if f.bound then 1 else 0

/-- tod.py:374 `filter_time_slice`. -/
def Fn.timeSlice (f : Fn α) : Bool := decide (f.argspec = 2)

/-- Python's call with one argument. -/
def Fn.call1 (f : Fn α) (d : List α) : Except FErr (List α) :=
  if f.required ≤ 1 ∧ 1 ≤ f.params then .ok (f.one d) else .error .typeError

/-- Python's call with two arguments. -/
def Fn.call2 (f : Fn α) (d : List α) (s : Int × Int) : Except FErr (List α) :=
  if f.required ≤ 2 ∧ 2 ≤ f.params then .ok (f.two d s) else .error .typeError

/-- tod.py:512-528: the part of the dataset that is copied. -/
def Fn.piece (f : Fn α) (d : List α) (s : Int × Int) : Except FErr (List α) :=
  if f.timeSlice then f.call2 d s
  else
    match f.call1 d with
    | .error e => .error e
    | .ok l => .ok (getSlice l s)

/-- An exception as before. -/
def lift {β : Type} : Except PyErr β → Except FErr β
  | .error e => .error (.py e)
  | .ok x => .ok x

/-- tod.py:482-587, for one dataset of one input. -/
def copyDsetF (timeAxes : List Axis) (wanted : Option (List Name)) (f : Fn α) (S E cur : Axis → Int) (it : Item α)
    (ds : Name → Option (List (Option α))) (d : Dset α) : Except FErr (Name → Option (List (Option α))) :=
  if wanted.all (fun w => decide (d.name ∈ w)) then
    match timeAxisOf timeAxes d with
    | none => .error (.py .valueError)
    | some a =>
      if skipped (S a) (E a) (cur a) (lenOf it a) then .ok ds
      else
        let io := inOutSlice (S a) (E a) (cur a) (lenOf it a)
        match f.piece d.data io.1 with
        | .error e => .error e
        | .ok piece =>
          match requireDset ds d.name (E a - S a) with
          | .error e => .error (.py e)
          | .ok o =>
            match setSlice o io.2 piece with
            | .error e => .error (.py e)
            | .ok o' => .ok (put ds d.name o')
  else .ok ds

/-- tod.py:482: all datasets of one input. -/
def copyDsetsF (timeAxes : List Axis) (wanted : Option (List Name)) (f : Fn α) (S E cur : Axis → Int) (it : Item α) :
    (Name → Option (List (Option α))) → List (Dset α) → Except FErr (Name → Option (List (Option α)))
  | ds, [] => .ok ds
  | ds, d :: l =>
    match copyDsetF timeAxes wanted f S E cur it ds d with
    | .error e => .error e
    | .ok ds' => copyDsetsF timeAxes wanted f S E cur it ds' l

/-- tod.py:451-590, the loop over the inputs. -/
def copyItemsF (timeAxes : List Axis) (wanted : Option (List Name)) (f : Fn α) (S E : Axis → Int) :
    (Axis → Int) → Out α → List (Item α) → Except FErr (Out α)
  | _, out, [] => .ok out
  | cur, out, it :: l =>
    match timeAxes.foldlM (copyIndex S E cur it) out.index with
    | .error e => .error (.py e)
    | .ok idx =>
      match copyDsetsF timeAxes wanted f S E cur it out.dsets it.dsets with
      | .error e => .error e
      | .ok ds => copyItemsF timeAxes wanted f S E (fun a => cur a + lenOf it a) ⟨idx, ds⟩ l

/-- tod.py:312-592 `concatenate` with a filter. -/
def concatenateF (timeAxes : List Axis) (items : List (Item α)) (start stop : Axis → Option Int) (wanted : Option (List Name)) (f : Fn α) :
    Except FErr (Out α) :=
  match items with
  | [] => .error (.py .indexError)
  | first :: _ =>
    let S := fun a => (startStop (start a) (stop a) (totalLen items a)).1
    let E := fun a => (startStop (start a) (stop a) (totalLen items a)).2
    if timeAxes.any (fun a => (first.index a).isSome && decide (E a - S a < 0)) then .error (.py .valueError)
    else copyItemsF timeAxes wanted f S E (fun _ => 0) ⟨initialIndex timeAxes S E first, fun _ => none⟩ items

end Verif.Tod
