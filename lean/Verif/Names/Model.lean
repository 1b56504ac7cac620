/-!
# Model of the names of constants

Models `caput/astro/constants.py:59-89`.

The table of constants (`globals()`, mostly from `scipy.constants`) and that of aliases are parameters. Values are numbers of any
type with a multiplication; functions and other things that are in the table but cannot be multiplied are `other`.
-/
namespace Verif.Names

abbrev Str := List Char

inductive Err where
  | attributeError
  | typeError
  deriving DecidableEq, Repr

/-- What a name stands for. -/
inductive Thing (R : Type) where
  | num (x : R)
  | other (id : Nat)
  deriving DecidableEq, Repr

/-- `name.split("_")`. -/
def splitUnder : Str → List Str
  | [] => [[]]
  | c :: cs =>
    if c = '_' then [] :: splitUnder cs
    else
      match splitUnder cs with
      | [] => [[c]]
      | h :: t => (c :: h) :: t

/-- constants.py:70-76 `__split_prefix`. -/
def splitPrefix (name : Str) : Except Err (List Str) :=
  let names := (splitUnder name).filter (· ≠ [])
  if names.length > 2 then .error .attributeError else .ok names

/-- `*` of two things of the table. -/
def times {R : Type} (mul : R → R → R) : Thing R → Thing R → Except Err (Thing R)
  | .num x, .num y => .ok (.num (mul x y))
  | _, _ => .error .typeError

/-- constants.py:79-89 `__getattr__`. `depth` bounds the recursion: the parts of a name have no underscore, so it goes no deeper than one
step (`getAttr_depth`). -/
def getAttrAt {R : Type} (mul : R → R → R) (globals : Str → Option (Thing R)) (aliases : Str → Option R) :
    Nat → Str → Except Err (Thing R)
  | 0, _ => .error .attributeError
  | depth + 1, name =>
    match globals name with
    | some t => .ok t
    | none =>
      match aliases name with
      | some x => .ok (.num x)
      | none =>
        match splitPrefix name with
        | .error e => .error e
        | .ok [a, b] =>
          match getAttrAt mul globals aliases depth a with
          | .error e => .error e
          | .ok x =>
            match getAttrAt mul globals aliases depth b with
            | .error e => .error e
            | .ok y => times mul x y
        | .ok _ => .error .attributeError

def getAttr {R : Type} (mul : R → R → R) (globals : Str → Option (Thing R)) (aliases : Str → Option R) (name : Str) :
    Except Err (Thing R) := getAttrAt mul globals aliases 2 name

end Verif.Names
