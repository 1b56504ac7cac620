import Verif.Slice.Model

/-!
# Model of assigning several values through `global_slice`

Models `_global_resolver.__setitem__` (`caput/mpiarray.py:406-414`) with a list or array of values, for a one
dimensional array, or for one column of the distributed axis of a larger one.
-/
namespace Verif.Slice

/-- Assign each value to its position. -/
def setEach {α : Type} (l : List α) : List (Nat × α) → List α
  | [] => l
  | (i, v) :: r => setEach (l.set i v) r

/-- numpy: `loc[entry] = vals`. A single value is repeated; otherwise there must be as many values as positions. A single
element cannot be set to an array of several. -/
def localSetList {α : Type} (loc : List α) (vals : List α) : AxisSel → Except PyErr (List α)
  | .idx i | .npidx i =>
    if i < -loc.length ∨ loc.length ≤ i then .error .indexError
    else match vals with
      | [v] => .ok (loc.set (if i < 0 then i + loc.length else i).toNat v)
      | _ => .error .valueError
  | .slc s =>
    match s.indices loc.length with
    | .error e => .error e
    | .ok (a, b, c) =>
      let ps := (pyRange a b c).map Int.toNat
      match vals with
      | [v] => .ok (setAll v loc ps)
      | _ => if vals.length = ps.length then .ok (setEach loc (ps.zip vals)) else .error .valueError

/-- mpiarray.py:406-414: the new local array. Every process is given the same values. -/
def globalSetList {α : Type} (loc : List α) (offset length : Nat) (sel : AxisSel) (vals : List α) :
    Except PyErr (List α) :=
  match (resolve offset length loc.length sel).1 with
  | none => .ok loc
  | some e => localSetList loc vals e

end Verif.Slice
