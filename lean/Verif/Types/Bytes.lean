/-!
# Model of `bytes_to_unicode`

Models `caput/util/typeutils.py:24-59`. Objects are nested collections; everything that is not a byte
string, a string, an array of strings or one of the collections below is an `atom`. Decoding UTF-8 is the
parameter `utf8`; `numpy` decodes arrays of byte strings as ASCII. The elements of a set and the keys of a
dictionary are listed in their order of iteration. Subclasses other than named tuples are not modelled.
-/
namespace Verif.Types

mutual
/-- Python objects. `frozen` is a `frozenset`, `named` a named tuple, `arrS` and `arrU` are arrays of byte
strings and of unicode strings. -/
inductive Py where
  | bytes (b : List Nat)
  | str (s : String)
  | atom (n : Nat)
  | arrS (l : List (List Nat))
  | arrU (l : List String)
  | list (l : PyL)
  | tuple (l : PyL)
  | set (l : PyL)
  | dict (l : PyD)
  | frozen (l : PyL)
  | named (l : PyL)
/-- Sequences of objects. -/
inductive PyL where
  | nil
  | cons (x : Py) (xs : PyL)
/-- Sequences of keys and values. -/
inductive PyD where
  | nil
  | cons (k v : Py) (d : PyD)
end

mutual
/-- Equality of objects. -/
def Py.same : Py → Py → Bool
  | .bytes a, .bytes b => a == b
  | .str a, .str b => a == b
  | .atom a, .atom b => a == b
  | .arrS a, .arrS b => a == b
  | .arrU a, .arrU b => a == b
  | .list a, .list b => a.same b
  | .tuple a, .tuple b => a.same b
  | .set a, .set b => a.same b
  | .dict a, .dict b => a.same b
  | .frozen a, .frozen b => a.same b
  | .named a, .named b => a.same b
  | _, _ => false
/-- Equality of sequences. -/
def PyL.same : PyL → PyL → Bool
  | .nil, .nil => true
  | .cons x xs, .cons y ys => x.same y && xs.same ys
  | _, _ => false
/-- Equality of sequences of items. -/
def PyD.same : PyD → PyD → Bool
  | .nil, .nil => true
  | .cons k v d, .cons k' v' d' => k.same k' && v.same v' && d.same d'
  | _, _ => false
end

/-- Exceptions. -/
inductive BErr where
  | decodeError
  | typeError
  deriving DecidableEq

/-- Whether an object is in a sequence. -/
def PyL.has (x : Py) : PyL → Bool
  | .nil => false
  | .cons y ys => y.same x || ys.has x

/-- Whether a key is in a dictionary. -/
def PyD.has (x : Py) : PyD → Bool
  | .nil => false
  | .cons k _ d => k.same x || d.has x

/-- A set made of a sequence: elements equal to later ones are dropped (the order of a set is not
observable). -/
def PyL.dedup : PyL → PyL
  | .nil => .nil
  | .cons x xs => if xs.dedup.has x then xs.dedup else .cons x xs.dedup

/-- A dictionary made of a sequence of items: the last value of a key counts. -/
def PyD.dedup : PyD → PyD
  | .nil => .nil
  | .cons k v d => if d.dedup.has k then d.dedup else .cons k v d.dedup

/-- ASCII decoding of one element of an array (`astype(str)`). -/
def asciiOne (b : List Nat) : Option String :=
  if b.all (· < 128) then some (String.ofList (b.map Char.ofNat)) else none

mutual
/-- typeutils.py:24-59 `bytes_to_unicode`. A named tuple is a tuple, but its class does not accept a
generator. -/
def toUni (utf8 : List Nat → Option String) : Py → Except BErr Py
  | .bytes b =>
    match utf8 b with
    | some s => .ok (.str s)
    | none => .error .decodeError
  | .arrS l =>
    match l.mapM asciiOne with
    | some r => .ok (.arrU r)
    | none => .error .decodeError
  | .list l =>
    match toUniL utf8 l with
    | .ok r => .ok (.list r)
    | .error e => .error e
  | .tuple l =>
    match toUniL utf8 l with
    | .ok r => .ok (.tuple r)
    | .error e => .error e
  | .set l =>
    match toUniL utf8 l with
    | .ok r => .ok (.set r.dedup)
    | .error e => .error e
  | .dict d =>
    match toUniD utf8 d with
    | .ok r => .ok (.dict r.dedup)
    | .error e => .error e
  | .named _ => .error .typeError
  | .str s => .ok (.str s)
  | .atom n => .ok (.atom n)
  | .arrU l => .ok (.arrU l)
  | .frozen l => .ok (.frozen l)
/-- The elements of a collection. -/
def toUniL (utf8 : List Nat → Option String) : PyL → Except BErr PyL
  | .nil => .ok .nil
  | .cons x xs =>
    match toUni utf8 x with
    | .error e => .error e
    | .ok y =>
      match toUniL utf8 xs with
      | .error e => .error e
      | .ok ys => .ok (.cons y ys)
/-- The items of a dictionary. -/
def toUniD (utf8 : List Nat → Option String) : PyD → Except BErr PyD
  | .nil => .ok .nil
  | .cons k v d =>
    match toUni utf8 k with
    | .error e => .error e
    | .ok k' =>
      match toUni utf8 v with
      | .error e => .error e
      | .ok v' =>
        match toUniD utf8 d with
        | .error e => .error e
        | .ok d' => .ok (.cons k' v' d')
end

end Verif.Types
