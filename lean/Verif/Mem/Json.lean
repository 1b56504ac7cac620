import Verif.Mem.Attrs
import Verif.Cont.LiteralLemmas

/-!
# Model of python's `json` as far as attributes use it

`caput/memdata/_memh5.py:2413-2415` writes with `json.JSONEncoder().encode` and `2418` reads with `json.loads`. This is the
encoder and the decoder of CPython's `json` package: ASCII only, separators `", "` and `": "`, strict strings, the last of
several equal keys counts.

Simplifications: strings consist of Unicode scalar values, so that a lone surrogate cannot be read. The texts of floats
are given (`FloatText`). A word is read to its end before it is looked at, so that texts that are not JSON are refused as they
are by python, but for another reason.
-/
namespace Verif.Mem.Attrs
open Verif.Cont.Literal (hexDigits readHex charOf)

variable {φ : Type}

/-- The texts of floats: `float.__repr__`, and `float`. -/
structure FloatText (φ : Type) where
  text : φ → Str
  read : Str → Option φ

/-- `str` of an integer. -/
def intText : Int → Str
  | .ofNat n => Nat.toDigits 10 n
  | .negSucc n => '-' :: Nat.toDigits 10 (n + 1)

/-- One character in `py_encode_basestring_ascii`. -/
def jsonEscape (c : Char) : Str :=
  if c = '"' then ['\\', '"']
  else if c = '\\' then ['\\', '\\']
  else if c = '\n' then ['\\', 'n']
  else if c = '\r' then ['\\', 'r']
  else if c = '\t' then ['\\', 't']
  else if c.toNat = 8 then ['\\', 'b']
  else if c.toNat = 12 then ['\\', 'f']
  else if 32 ≤ c.toNat ∧ c.toNat ≤ 126 then [c]
  else if c.toNat < 65536 then '\\' :: 'u' :: hexDigits 4 c.toNat
  else '\\' :: 'u' :: hexDigits 4 (55296 + (c.toNat - 65536) / 1024) ++ '\\' :: 'u' :: hexDigits 4 (56320 + (c.toNat - 65536) % 1024)

/-- A string in quotes. -/
def jsonStr (s : Str) : Str := '"' :: s.flatMap jsonEscape ++ ['"']

mutual
/-- The text of a value. Values that the encoder refuses (`jsonNorm`) have none. -/
def jsonEnc (F : FloatText φ) : Val φ → Str
  | .none => "null".toList
  | .bool true => "true".toList
  | .bool false => "false".toList
  | .int i => intText i
  | .float f => F.text f
  | .str s => jsonStr s
  | .list l => '[' :: jsonElems F l ++ [']']
  | .dict d => '{' :: jsonMembers F d ++ ['}']
  | _ => []
def jsonElems (F : FloatText φ) : Vals φ → Str
  | .nil => []
  | .cons v .nil => jsonEnc F v
  | .cons v l => jsonEnc F v ++ ',' :: ' ' :: jsonElems F l
def jsonMembers (F : FloatText φ) : Items φ → Str
  | .nil => []
  | .cons k v .nil => jsonEnc F k ++ ':' :: ' ' :: jsonEnc F v
  | .cons k v d => jsonEnc F k ++ ':' :: ' ' :: (jsonEnc F v ++ ',' :: ' ' :: jsonMembers F d)
end

/-- What follows white space. -/
def skipWs (s : Str) : Str := s.dropWhile fun c => c == ' ' || c == '\t' || c == '\n' || c == '\r'

/-- Characters of words and numbers. -/
def isTok (c : Char) : Bool := c.isAlphanum || c == '+' || c == '-' || c == '.'

/-- `\uXXXX` after the `u`, with a second one for characters that need two. -/
def readUnicode (s : Str) : Option (Char × Str) :=
  match readHex 4 0 s with
  | none => none
  | some (k, r) =>
    if 55296 ≤ k ∧ k ≤ 56319 then
      match r with
      | '\\' :: 'u' :: r' =>
        match readHex 4 0 r' with
        | some (l, r'') => if 56320 ≤ l ∧ l ≤ 57343 then (charOf (65536 + (k - 55296) * 1024 + (l - 56320))).map (·, r'') else none
        | none => none
      | _ => none
    else (charOf k).map (·, r)

/-- What follows a backslash. -/
def readEsc : Str → Option (Char × Str)
  | [] => none
  | c :: s =>
    if c = '"' ∨ c = '\\' ∨ c = '/' then some (c, s)
    else if c = 'n' then some ('\n', s)
    else if c = 'r' then some ('\r', s)
    else if c = 't' then some ('\t', s)
    else if c = 'b' then some (Char.ofNat 8, s)
    else if c = 'f' then some (Char.ofNat 12, s)
    else if c = 'u' then readUnicode s
    else none

/-- `py_scanstring`: up to the quote; control characters are refused. The first argument bounds the characters read. -/
def readChars : Nat → Str → Option (Str × Str)
  | 0, _ => none
  | _ + 1, [] => none
  | n + 1, c :: s =>
    if c = '"' then some ([], s)
    else if c = '\\' then (readEsc s).bind fun p => (readChars n p.2).map fun r => (p.1 :: r.1, r.2)
    else if c.toNat < 32 then none
    else (readChars n s).map fun r => (c :: r.1, r.2)

/-- An integer: an optional sign, and digits of which the first is not zero unless it is the only one. -/
def readInt : Str → Option Int
  | '-' :: ds => if ds ≠ [] ∧ Nat.toDigits 10 (Nat.ofDigitChars 10 ds 0) = ds then some (-(Nat.ofDigitChars 10 ds 0 : Int)) else none
  | ds => if ds ≠ [] ∧ Nat.toDigits 10 (Nat.ofDigitChars 10 ds 0) = ds then some (Nat.ofDigitChars 10 ds 0 : Int) else none

/-- A word or a number. -/
def readAtom (F : FloatText φ) (t : Str) : Option (Val φ) :=
  if t = "null".toList then some .none
  else if t = "true".toList then some (.bool true)
  else if t = "false".toList then some (.bool false)
  else match readInt t with
    | some i => some (.int i)
    | none => (F.read t).map .float

/-- The value of a key. -/
def itemOf (s : Str) : Items φ → Option (Val φ)
  | .nil => none
  | .cons k v d =>
    match k with
    | .str t => if t = s then some v else itemOf s d
    | _ => itemOf s d

/-- Without a key. -/
def eraseItem (s : Str) : Items φ → Items φ
  | .nil => .nil
  | .cons k v d =>
    match k with
    | .str t => if t = s then d else .cons k v (eraseItem s d)
    | _ => .cons k v (eraseItem s d)

/-- An item before others: if the key comes again, the place is that of the first one and the value that of the last. -/
def addItem (s : Str) (v : Val φ) (d : Items φ) : Items φ :=
  match itemOf s d with
  | none => .cons (.str s) v d
  | some w => .cons (.str s) w (eraseItem s d)

mutual
/-- A value and what follows it. The first argument bounds the depth and the length of what is read. -/
def readValue (F : FloatText φ) : Nat → Str → Option (Val φ × Str)
  | 0, _ => none
  | n + 1, s =>
    match skipWs s with
    | [] => none
    | c :: r =>
      if c = '"' then (readChars (r.length + 1) r).map fun p => (.str p.1, p.2)
      else if c = '[' then
        match skipWs r with
        | [] => none
        | e :: r' => if e = ']' then some (.list .nil, r') else (readElems F n (e :: r')).map fun p => (.list p.1, p.2)
      else if c = '{' then
        match skipWs r with
        | [] => none
        | e :: r' => if e = '}' then some (.dict .nil, r') else (readMembers F n (e :: r')).map fun p => (.dict p.1, p.2)
      else (readAtom F ((c :: r).takeWhile isTok)).map fun v => (v, (c :: r).dropWhile isTok)
/-- The rest of a list. -/
def readElems (F : FloatText φ) : Nat → Str → Option (Vals φ × Str)
  | 0, _ => none
  | n + 1, s =>
    match readValue F n s with
    | none => none
    | some (v, r) =>
      match skipWs r with
      | [] => none
      | c :: r' =>
        if c = ',' then (readElems F n r').map fun p => (.cons v p.1, p.2)
        else if c = ']' then some (.cons v .nil, r')
        else none
/-- The rest of a dictionary. -/
def readMembers (F : FloatText φ) : Nat → Str → Option (Items φ × Str)
  | 0, _ => none
  | n + 1, s =>
    match skipWs s with
    | [] => none
    | q :: s' =>
      if q = '"' then
        match readChars (s'.length + 1) s' with
        | none => none
        | some (k, r) =>
          match skipWs r with
          | [] => none
          | c :: r' =>
            if c = ':' then
              match readValue F n r' with
              | none => none
              | some (v, r'') =>
                match skipWs r'' with
                | [] => none
                | e :: r3 =>
                  if e = ',' then (readMembers F n r3).map fun p => (addItem k v p.1, p.2)
                  else if e = '}' then some (.cons (.str k) v .nil, r3)
                  else none
            else none
      else none
end

/-- `json.loads`; all errors are `ValueError`s. -/
def jsonDec (F : FloatText φ) (s : Str) : Except Err (Val φ) :=
  match readValue F (s.length + 1) s with
  | none => .error .valueError
  | some (v, r) => if skipWs r = [] then .ok v else .error .valueError

/-- Python's `json` in place of the one of a library. -/
def Lib.withJson (L : Lib φ) (F : FloatText φ) : Lib φ := { L with enc := jsonEnc F, dec := jsonDec F }

end Verif.Mem.Attrs
