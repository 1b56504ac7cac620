/-!
# Model of container specifications

Models `caput/containers/_core.py:594-654`: the dataset specification and the axes of a container
class, gathered over the method resolution order (MRO) of the class; and Python's own computation of the
MRO (C3), which decides what the code sees.

Classes are numbered in the order in which they are defined. `N` is the type of names, `V` the type of
one dataset's specification.
-/
namespace Verif.Cont

variable {N V : Type}

/-- A Python dictionary as the list of assignments made to it, the last assignment to a key counting. -/
abbrev Dict (N V : Type) := List (N × V)

/-- `d.get(k)`. -/
def get [BEq N] (d : Dict N V) (k : N) : Option V := (d.reverse.find? (·.1 == k)).map (·.2)

/-- `d.update(e)`. -/
def update (d e : Dict N V) : Dict N V := d ++ e

/-- A class statement: its bases (by number) and its own `_dataset_spec` and `_axes`, if the class body
has them. -/
structure ClassDef (N V : Type) where
  bases : List Nat
  spec : Option (Dict N V)
  axes : Option (List N)

/-! ### Python's MRO -/

/-- May `h` come next? It must not occur in the tail of any of the lists. -/
def good (seqs : List (List Nat)) (h : Nat) : Bool := seqs.all fun s => !s.tail.contains h

/-- The first head of a list that may come next. -/
def candidate (seqs : List (List Nat)) : Option Nat := (seqs.filterMap List.head?).find? (good seqs)

/-- Remove `h` from the front. -/
def dropHead (h : Nat) (s : List Nat) : List Nat := if s.head? = some h then s.tail else s

/-- Python's `pmerge` (`Objects/typeobject.c`); `none` is the `TypeError` of an inconsistent hierarchy.
The first argument bounds the number of steps; the total length of the lists is enough. -/
def merge : Nat → List (List Nat) → Option (List Nat)
  | 0, seqs => if seqs.all List.isEmpty then some [] else none
  | n + 1, seqs =>
    if seqs.all List.isEmpty then some []
    else
      match candidate seqs with
      | none => none
      | some h => (merge n (seqs.map (dropHead h))).map (h :: ·)

/-- `cls.__mro__` of class number `c`. The list of classes has the newest first, so the class at the
front has the number `rest.length`; its bases must have been defined before. -/
def mro : List (ClassDef N V) → Nat → Option (List Nat)
  | [], _ => none
  | d :: rest, c =>
    if c = rest.length then
      match d.bases.mapM (mro rest) with
      | none => none
      | some ms => (merge ((ms ++ [d.bases]).flatten.length) (ms ++ [d.bases])).map (c :: ·)
    else mro rest c

/-- The class statement of class number `c`. -/
def classDef (H : List (ClassDef N V)) (c : Nat) : Option (ClassDef N V) := H.reverse[c]?

/-- The `_dataset_spec` in the body of class `c` itself. -/
def ownSpec (H : List (ClassDef N V)) (c : Nat) : Option (Dict N V) := (classDef H c).bind (·.spec)

/-- The `_axes` in the body of class `c` itself. -/
def ownAxes (H : List (ClassDef N V)) (c : Nat) : Option (List N) := (classDef H c).bind (·.axes)

/-- Attribute lookup on a class: the first class of its MRO that has the attribute; `none` is an
`AttributeError`. -/
def lookup {β : Type} (H : List (ClassDef N V)) (own : Nat → Option β) (c : Nat) : Option β :=
  (mro H c).bind fun l => l.findSome? own

/-! ### The code -/

/-- _core.py:602-609: one pass of the loop. -/
def addSpec (H : List (ClassDef N V)) (d : Dict N V) (c : Nat) : Dict N V :=
  match lookup H (ownSpec H) c with
  | some s => update d s
  | none => d

/-- Insert into a sorted list, unless present. -/
def insertS [LT N] [DecidableLT N] [DecidableEq N] (x : N) : List N → List N
  | [] => [x]
  | y :: ys => if x < y then x :: y :: ys else if x = y then y :: ys else y :: insertS x ys

/-- `sorted(...)` of the distinct elements. -/
def sortedSet [LT N] [DecidableLT N] [DecidableEq N] (l : List N) : List N := l.foldr insertS []

/-- `{k: ddict[k] for k in sorted(ddict)}` (_core.py:611). -/
def sortDict [LT N] [DecidableLT N] [DecidableEq N] (d : Dict N V) : Dict N V :=
  (sortedSet (d.map (·.1))).filterMap fun k => (get d k).map fun v => (k, v)

/-- _core.py:594-611 `_class_dataset_spec`, given the MRO of the class. -/
def classSpec [LT N] [DecidableLT N] [DecidableEq N] (H : List (ClassDef N V)) (l : List Nat) :
    Dict N V :=
  sortDict (l.reverse.foldl (addSpec H) [])

/-- _core.py:613-622 `dataset_spec` of an instance whose own `__dict__` holds `inst`. -/
def instSpec [LT N] [DecidableLT N] [DecidableEq N] (H : List (ClassDef N V)) (l : List Nat)
    (inst : Dict N V) : Dict N V :=
  sortDict (update (classSpec H l) inst)

/-- _core.py:632-636: one pass of the loop over the axes. -/
def addAxes (H : List (ClassDef N V)) (axes : List N) (c : Nat) : List N :=
  match lookup H (ownAxes H) c with
  | some s => axes ++ s
  | none => axes

/-- _core.py:624-640 `_class_axes`. -/
def classAxes [LT N] [DecidableLT N] [DecidableEq N] (H : List (ClassDef N V)) (l : List Nat) : List N :=
  sortedSet (l.reverse.foldl (addAxes H) [])

end Verif.Cont
