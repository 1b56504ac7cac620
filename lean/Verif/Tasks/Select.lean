import Mathlib.Tactic.Common

/-!
# Model of axis selections in task configurations

Models `caput/pipeline/tasklib/io.py:260-313` (`SelectionsMixin._resolve_sel`, `_parse_range`,
`_parse_index`). Strings are lists of characters, compared by code point as in Python. Booleans, which
Python counts as integers, are integers here too.
-/
namespace Verif.Tasks

/-- An element of a selection. -/
inductive SItem where
  | int (n : Int)
  | other (n : Nat)
  deriving DecidableEq

/-- A value in the mapping: a list or tuple, or something else. -/
inductive SVal where
  | seq (l : List SItem)
  | other
  deriving DecidableEq

/-- A resolved selection: `slice(*x)` or a list. -/
inductive SSel where
  | range (x : List SItem)
  | index (x : List SItem)
  deriving DecidableEq

/-- `isinstance(v, int)`. -/
def SItem.isInt : SItem → Bool
  | .int _ => true
  | .other _ => false

/-- io.py:290-301 `_parse_range`; `none` is a `ValueError`. -/
def parseRange : SVal → Option SSel
  | .seq l => if l.length > 3 ∨ l.length < 2 then none else if l.all SItem.isInt then some (.range l) else none
  | .other => none

/-- io.py:303-313 `_parse_index` with `type_=int` or `type_=object`. -/
def parseIndex (ints : Bool) : SVal → Option SSel
  | .seq l => if l.length = 0 then none else if l.all fun v => !ints || v.isInt then some (.index l) else none
  | .other => none

/-- `a < b` for strings. -/
def strLt : List Char → List Char → Bool
  | [], [] => false
  | [], _ :: _ => true
  | _ :: _, [] => false
  | a :: as, b :: bs => a.toNat < b.toNat || (a.toNat = b.toNat && strLt as bs)

/-- Insertion into a sorted list of keys and values. -/
def insKey (e : List Char × SVal) : List (List Char × SVal) → List (List Char × SVal)
  | [] => [e]
  | f :: fs => if strLt f.1 e.1 then f :: insKey e fs else e :: f :: fs

/-- `sorted(selections)`. -/
def sortKeys (l : List (List Char × SVal)) : List (List Char × SVal) := l.foldr insKey []

/-- `s.split("_")`. -/
def splitUnder : List Char → List (List Char)
  | [] => [[]]
  | c :: cs =>
    if c = '_' then [] :: splitUnder cs
    else
      match splitUnder cs with
      | [] => [[c]]
      | w :: ws => (c :: w) :: ws

/-- `"_".join(l)`. -/
def joinUnder (l : List (List Char)) : List Char := (List.intersperse ['_'] l).flatten

/-- io.py:275-276: `*axis, type_ = k.split("_")`, and the axis name. -/
def splitKey (k : List Char) : List Char × List Char :=
  (joinUnder (splitUnder k).dropLast, ((splitUnder k).getLast?).getD [])

/-- io.py:262-270, 278-284: the parser for a type of selection, applied to a value. `none` is a `ValueError`. -/
def parseSel (allowMap : Bool) (type_ : List Char) (v : SVal) : Option SSel :=
  if type_ = "range".toList then parseRange v
  else if type_ = "index".toList then parseIndex true v
  else if type_ = "map".toList ∧ allowMap then parseIndex false v
  else none

/-- A dictionary as a list of assignments, the last one counting. -/
def selGet (d : List (List Char × SSel)) (a : List Char) : Option SSel :=
  (d.reverse.find? (·.1 = a)).map (·.2)

/-- io.py:272-284: the loop. -/
def resolveLoop (allowMap : Bool) : List (List Char × SSel) → List (List Char × SVal) →
    Option (List (List Char × SSel))
  | d, [] => some d
  | d, (k, v) :: rest =>
    match parseSel allowMap (splitKey k).2 v with
    | none => none
    | some s => resolveLoop allowMap (d ++ [((splitKey k).1, s)]) rest

/-- io.py:258-286 `_resolve_sel`: the selection of each axis. -/
def resolveSels (allowMap : Bool) (sels : List (List Char × SVal)) : Option (List (List Char × SSel)) :=
  resolveLoop allowMap [] (sortKeys sels)

end Verif.Tasks
