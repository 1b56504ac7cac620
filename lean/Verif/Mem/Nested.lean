import Verif.Mem.Attrs

/-!
# Model of `copyattrs` for nested lists in HDF5 files

Models `caput/memdata/_memh5.py:2366-2375` for lists of lists: `np.array(value)`, the conversion of arrays of
strings, and what `h5py` gives back for an array. Tuples are as lists. numpy refuses lists whose parts have
different shapes (since version 1.24). Not modelled: more axes than numpy allows (64), items other than
integers, floats and strings (an exception here), an empty list within lists of other shapes.
-/
namespace Verif.Mem.Attrs
variable {φ : Type}

/-- Elements of an array: all integers, all floats, or all strings. -/
inductive Elems (φ : Type) where
  | ints (l : List Int)
  | floats (l : List φ)
  | strs (l : List Str)

def Elems.toVals : Elems φ → List (Val φ)
  | .ints l => l.map .int
  | .floats l => l.map .float
  | .strs l => l.map .str

/-- An array with any number of axes: shape and elements, the last axis running fastest. -/
structure NdArr (φ : Type) where
  shape : List Nat
  elems : Elems φ

mutual
/-- The shape that `np.array` finds; `none` if parts of a list have different shapes. -/
def npShape : Val φ → Option (List Nat)
  | .list l =>
    match npShapes l with
    | some [] => some [0]
    | some (s :: ss) => if ss.all (· == s) then some ((ss.length + 1) :: s) else Option.none
    | Option.none => Option.none
  | _ => some []
def npShapes : Vals φ → Option (List (List Nat))
  | .nil => some []
  | .cons v l =>
    match npShape v, npShapes l with
    | some s, some ss => some (s :: ss)
    | _, _ => Option.none
end

mutual
/-- The items of nested lists in order. -/
def flat : Val φ → List (Val φ)
  | .list l => flats l
  | v => [v]
def flats : Vals φ → List (Val φ)
  | .nil => []
  | .cons v l => flat v ++ flats l
end

/-- The type of array that numpy chooses for the items (as `npArray`). -/
def npElems (L : Lib φ) (l : List (Val φ)) : Except Err (Elems φ) :=
  match npArray L l with
  | .ok (.arrI is) => .ok (.ints is)
  | .ok (.arrF fs) => .ok (.floats fs)
  | .ok (.arrU ss) => .ok (.strs ss)
  | .ok _ => .error .typeError
  | .error e => .error e

/-- `np.array(value)`. -/
def npNested (L : Lib φ) (v : Val φ) : Except Err (NdArr φ) :=
  match npShape v with
  | Option.none => .error .valueError
  | some s =>
    match npElems L (flat v) with
    | .error e => .error e
    | .ok es => .ok ⟨s, es⟩

/-- _memh5.py:2366-2375, 2424-2428: a list is written to an attribute of an HDF5 file and read back into
memory: arrays of strings become arrays of python strings on the way; `h5py` gives back the array. -/
def roundTripNested (L : Lib φ) (l : Vals φ) : Except Err (NdArr φ) := npNested L (.list l)

/-- Number of elements. -/
def count : List Nat → Nat
  | [] => 1
  | n :: s => n * count s

/-- `a.tolist()`. -/
def NdArr.nest : List Nat → List (Val φ) → Val φ
  | [], items => (items.head?).getD .none
  | n :: s, items => .list (Vals.ofList ((List.range n).map fun i => nest s ((items.drop (i * count s)).take (count s))))

end Verif.Mem.Attrs
