import Verif.Mem.Model

/-!
# Model of `copyattrs` with conversion, to and from files

Models `caput/memdata/_memh5.py:2341-2428` with `convert_strings=True` for one attribute, and
`caput/util/typeutils.py:24-59` `bytes_to_unicode`.

The libraries are described by: `enc` and `dec`, the text form of JSON; `decode`, UTF-8; `pyStr`, how
numpy renders a number in an array of strings; `toFloat`; `keyStr`, how JSON renders a key that is not
a string; and the functions `h5Store` and `zarrStore`, what a reader gets for a value that has been
written. Arrays have one dimension and items that are all integers, floats or strings. Lists with
other items than numbers and strings are not followed into numpy (they give an exception here).
-/
namespace Verif.Mem.Attrs

mutual
/-- Attribute values. -/
inductive Val (φ : Type) where
  | none
  | bool (b : Bool)
  | int (i : Int)
  | float (f : φ)
  | str (s : Str)
  | bytes (b : List Nat)
  | list (l : Vals φ)
  | dict (d : Items φ)
  | datetime (iso : Str)
  /-- numpy scalars: `np.bool_`, `np.int64`, `np.float64` -/
  | npbool (b : Bool)
  | npint (i : Int)
  | npfloat (f : φ)
  /-- arrays of integers, floats, python strings (dtype object), unicode (dtype U), bytes (dtype S) -/
  | arrI (l : List Int)
  | arrF (l : List φ)
  | arrO (l : List Str)
  | arrU (l : List Str)
  | arrS (l : List (List Nat))
/-- Items of a list. -/
inductive Vals (φ : Type) where
  | nil
  | cons (v : Val φ) (l : Vals φ)
/-- Items of a dictionary. -/
inductive Items (φ : Type) where
  | nil
  | cons (k v : Val φ) (d : Items φ)
end

variable {φ : Type}

def Vals.toList : Vals φ → List (Val φ)
  | .nil => []
  | .cons v l => v :: l.toList

def Vals.ofList : List (Val φ) → Vals φ
  | [] => .nil
  | v :: l => .cons v (Vals.ofList l)

/-- The functions of python's libraries. -/
structure Lib (φ : Type) where
  enc : Val φ → Str
  dec : Str → Except Err (Val φ)
  decode : List Nat → Except Err Str
  pyStr : Val φ → Str
  toFloat : Int → φ
  keyStr : Val φ → Except Err Str

/-- _memh5.py:2359 `json_prefix`. -/
def jsonPrefix : Str := "!!_memh5_json:".toList

/-- `"...".startswith(prefix)`, and the rest. -/
def stripPrefix : Str → Str → Option Str
  | [], s => some s
  | _ :: _, [] => Option.none
  | a :: p, b :: s => if a = b then stripPrefix p s else Option.none

section
variable (L : Lib φ)

mutual
/-- typeutils.py:24-59 `bytes_to_unicode`. -/
def bytesToUnicode : Val φ → Except Err (Val φ)
  | .bytes b => match L.decode b with | .ok s => .ok (.str s) | .error e => .error e
  | .arrS l => match l.mapM L.decode with | .ok s => .ok (.arrU s) | .error e => .error e
  | .list l => match b2uList l with | .ok l' => .ok (.list l') | .error e => .error e
  | .dict d => match b2uItems d with | .ok d' => .ok (.dict d') | .error e => .error e
  | v => .ok v
def b2uList : Vals φ → Except Err (Vals φ)
  | .nil => .ok .nil
  | .cons v l =>
    match bytesToUnicode v with
    | .error e => .error e
    | .ok v' => match b2uList l with | .ok l' => .ok (.cons v' l') | .error e => .error e
def b2uItems : Items φ → Except Err (Items φ)
  | .nil => .ok .nil
  | .cons k v d =>
    match bytesToUnicode k with
    | .error e => .error e
    | .ok k' =>
      match bytesToUnicode v with
      | .error e => .error e
      | .ok v' => match b2uItems d with | .ok d' => .ok (.cons k' v' d') | .error e => .error e
end

/-- The result of `o.tolist()` (_memh5.py:2394-2396): a single item loses its list. -/
def arrJson (l : List (Val φ)) : Val φ :=
  match l with
  | [x] => x
  | l => .list (Vals.ofList l)

mutual
/-- What the encoder (_memh5.py:2376-2402) makes of a value before it is turned into text. Numpy
integers and booleans go through `default`: `o.data` is a memoryview, which the encoder rejects, and a
boolean is not an `np.number`; `np.float64` is a python float. -/
def jsonNorm : Val φ → Except Err (Val φ)
  | .none => .ok .none
  | .bool b => .ok (.bool b)
  | .int i => .ok (.int i)
  | .float f => .ok (.float f)
  | .str s => .ok (.str s)
  | .bytes b => match L.decode b with | .ok s => .ok (.str s) | .error e => .error e
  | .list l => match jsonList l with | .ok l' => .ok (.list l') | .error e => .error e
  | .dict d => match jsonItems d with | .ok d' => .ok (.dict d') | .error e => .error e
  | .datetime iso => .ok (.str iso)
  | .npbool _ => .error .typeError
  | .npint _ => .error .typeError
  | .npfloat f => .ok (.float f)
  | .arrI l => .ok (arrJson (l.map .int))
  | .arrF l => .ok (arrJson (l.map .float))
  | .arrO l => .ok (arrJson (l.map .str))
  | .arrU l => .ok (arrJson (l.map .str))
  | .arrS l =>
    match l.mapM L.decode with | .ok s => .ok (arrJson (s.map .str)) | .error e => .error e
def jsonList : Vals φ → Except Err (Vals φ)
  | .nil => .ok .nil
  | .cons v l =>
    match jsonNorm v with
    | .error e => .error e
    | .ok v' => match jsonList l with | .ok l' => .ok (.cons v' l') | .error e => .error e
def jsonItems : Items φ → Except Err (Items φ)
  | .nil => .ok .nil
  | .cons k v d =>
    match jsonKey k with
    | .error e => .error e
    | .ok k' =>
      match jsonNorm v with
      | .error e => .error e
      | .ok v' => match jsonItems d with | .ok d' => .ok (.cons (.str k') v' d') | .error e => .error e
/-- Keys of a JSON object are strings; python renders other keys. -/
def jsonKey : Val φ → Except Err Str
  | .str s => .ok s
  | v => L.keyStr v
end

/-- Where attributes are copied to. -/
inductive Dest where
  | h5py
  | zarr
  | memory
deriving DecidableEq

/-- The values written as JSON: _memh5.py:2404-2411. -/
def needsJson (dest : Dest) : Val φ → Bool
  | .dict _ => decide (dest ≠ .memory)
  | .datetime _ => decide (dest ≠ .memory)
  | .arrI _ | .arrF _ | .arrO _ | .arrU _ | .arrS _ => decide (dest = .zarr)
  | _ => false

/-- _memh5.py:2416-2418: a string that starts with the prefix is decoded, whatever the destination. -/
def fromJson : Val φ → Except Err (Val φ)
  | .str s =>
    match stripPrefix jsonPrefix s with
    | some rest => L.dec rest
    | Option.none => .ok (.str s)
  | v => .ok v

/-- _memh5.py:2372-2419 `_map_json`. -/
def mapJson (dest : Dest) (v : Val φ) : Except Err (Val φ) :=
  if needsJson dest v then
    match jsonNorm L v with
    | .ok v' => .ok (.str (jsonPrefix ++ L.enc v'))
    | .error e => .error e
  else fromJson L v

/-- Integers numpy can hold (int64 or uint64). -/
def fits (i : Int) : Bool := decide (-(2 ^ 63) ≤ i) && decide (i < 2 ^ 64)

def asInt : Val φ → Option Int
  | .int i => if fits i then some i else Option.none
  | _ => Option.none

def asFloat : Val φ → Option φ
  | .int i => if fits i then some (L.toFloat i) else Option.none
  | .float f => some f
  | _ => Option.none

def asStr : Val φ → Option Str
  | .str s => some s
  | .int i => some (L.pyStr (.int i))
  | .float f => some (L.pyStr (.float f))
  | _ => Option.none

/-- `np.array(value)` for a list of numbers and strings: integers if all are, floats if all are
numbers, otherwise strings. The empty list is an array of floats. -/
def npArray (l : List (Val φ)) : Except Err (Val φ) :=
  if l.isEmpty then .ok (.arrF [])
  else match l.mapM asInt with
    | some is => .ok (.arrI is)
    | Option.none =>
      match l.mapM (asFloat L) with
      | some fs => .ok (.arrF fs)
      | Option.none =>
        match l.mapM (asStr L) with
        | some ss => .ok (.arrU ss)
        | Option.none => .error .typeError

/-- _memh5.py:2363-2366: `astype(h5py.special_dtype(vlen=str))` for arrays of kind `U`. -/
def toVlen : Val φ → Val φ
  | .arrU l => .arrO l
  | v => v

/-- _memh5.py:2361-2370 `_map_unicode` with `convert_strings`. -/
def mapUnicode (dest : Dest) (v : Val φ) : Except Err (Val φ) :=
  match dest, v with
  | .h5py, .list l =>
    match npArray L l.toList with
    | .ok a => .ok (toVlen a)
    | .error e => .error e
  | .h5py, v => .ok (toVlen v)
  | _, v => bytesToUnicode L v

/-- _memh5.py:2426-2427: `val.item()`. -/
def item : Val φ → Val φ
  | .npbool b => .bool b
  | .npint i => .int i
  | .npfloat f => .float f
  | v => v

/-- What is assigned: _memh5.py:2424-2428. -/
def convert (dest : Dest) (v : Val φ) : Except Err (Val φ) :=
  match mapUnicode L dest v with
  | .error e => .error e
  | .ok w =>
    match mapJson L dest w with
    | .error e => .error e
    | .ok x => .ok (item x)

/-- What h5py gives back for a value assigned to an attribute. Strings with NUL are rejected. -/
def h5Store : Val φ → Except Err (Val φ)
  | .none => .error .typeError
  | .bool b => .ok (.npbool b)
  | .int i => if fits i then .ok (.npint i) else .error .typeError
  | .float f => .ok (.npfloat f)
  | .str s => if s.contains (Char.ofNat 0) then .error .valueError else .ok (.str s)
  | .bytes b => .ok (.bytes b)
  | .arrI l => .ok (.arrI l)
  | .arrF l => .ok (.arrF l)
  | .arrO l => .ok (.arrO l)
  | .arrS l => .ok (.arrS l)
  | _ => .error .typeError

/-- What zarr gives back: attributes are stored as a JSON document. -/
def zarrStore : Val φ → Except Err (Val φ)
  | .none => .ok .none
  | .bool b => .ok (.bool b)
  | .int i => .ok (.int i)
  | .float f => .ok (.float f)
  | .str s => .ok (.str s)
  | .list l => match jsonList L l with | .ok l' => .ok (.list l') | .error e => .error e
  | .dict d => match jsonItems L d with | .ok d' => .ok (.dict d') | .error e => .error e
  | _ => .error .typeError

def store (dest : Dest) (v : Val φ) : Except Err (Val φ) :=
  match dest with
  | .h5py => h5Store v
  | .zarr => zarrStore L v
  | .memory => .ok v

/-- Write an attribute to a file and read it back into memory. -/
def roundTrip (dest : Dest) (v : Val φ) : Except Err (Val φ) :=
  match convert L dest v with
  | .error e => .error e
  | .ok w =>
    match store L dest w with
    | .error e => .error e
    | .ok x => convert L .memory x

end

end Verif.Mem.Attrs
