import Verif.Cont.History

/-!
# Model of the text of a list of names

`caput/containers/_core.py:199` writes `str(order)` and `87-89` reads `literal_eval` of it. This is CPython's `repr` of a
list of strings (`Objects/unicodeobject.c` `unicode_repr`) and its parser for such texts.

Simplifications: strings consist of Unicode scalar values (no lone surrogates, which no file can hold). Which characters above
ASCII are printable is a parameter. Of the grammar the reader knows lists of plain string literals, as `repr` writes
them, with the escapes it writes; anything else is `none`.
-/
namespace Verif.Cont.Literal

abbrev Str := List Char

/-- The digit of a hexadecimal number. -/
def hexDigit (n : Nat) : Char :=
  if n < 10 then Char.ofNat (48 + n) else Char.ofNat (87 + n)

/-- `n` digits of a number. -/
def hexDigits : Nat → Nat → Str
  | 0, _ => []
  | n + 1, k => hexDigits n (k / 16) ++ [hexDigit (k % 16)]

/-- One character in `unicode_repr`; `q` is the quote. -/
def escape (printable : Char → Bool) (q c : Char) : Str :=
  if c = q ∨ c = '\\' then ['\\', c]
  else if c = '\t' then ['\\', 't']
  else if c = '\n' then ['\\', 'n']
  else if c = '\r' then ['\\', 'r']
  else if c.toNat < 32 ∨ c.toNat = 127 then '\\' :: 'x' :: hexDigits 2 c.toNat
  else if c.toNat < 127 then [c]
  else if printable c then [c]
  else if c.toNat < 256 then '\\' :: 'x' :: hexDigits 2 c.toNat
  else if c.toNat < 65536 then '\\' :: 'u' :: hexDigits 4 c.toNat
  else '\\' :: 'U' :: hexDigits 8 c.toNat

/-- The quote that `unicode_repr` chooses. -/
def quoteFor (s : Str) : Char := if '\'' ∈ s ∧ '"' ∉ s then '"' else '\''

/-- `repr` of a string. -/
def reprStr (printable : Char → Bool) (s : Str) : Str :=
  quoteFor s :: s.flatMap (escape printable (quoteFor s)) ++ [quoteFor s]

/-- The items of a list. -/
def reprItems (printable : Char → Bool) : List Str → Str
  | [] => []
  | [s] => reprStr printable s
  | s :: l => reprStr printable s ++ [',', ' '] ++ reprItems printable l

/-- `str` of a list of strings. -/
def strList (printable : Char → Bool) (l : List Str) : Str := '[' :: reprItems printable l ++ [']']

/-- The value of a hexadecimal digit. -/
def hexVal (c : Char) : Option Nat :=
  if 48 ≤ c.toNat ∧ c.toNat ≤ 57 then some (c.toNat - 48)
  else if 97 ≤ c.toNat ∧ c.toNat ≤ 102 then some (c.toNat - 87)
  else if 65 ≤ c.toNat ∧ c.toNat ≤ 70 then some (c.toNat - 55)
  else none

/-- A number of `n` hexadecimal digits at the start of a text, added to `acc`, and what follows. -/
def readHex : Nat → Nat → Str → Option (Nat × Str)
  | 0, acc, s => some (acc, s)
  | _ + 1, _, [] => none
  | n + 1, acc, c :: s =>
    match hexVal c with
    | none => none
    | some d => readHex n (acc * 16 + d) s

/-- The character with a number, if there is one. -/
def charOf (k : Nat) : Option Char := if k.isValidChar then some (Char.ofNat k) else none

/-- What a backslash and the characters after it stand for, and what follows. -/
def readEscape : Str → Option (Char × Str)
  | [] => none
  | c :: s =>
    if c = '\\' ∨ c = '\'' ∨ c = '"' then some (c, s)
    else if c = 't' then some ('\t', s)
    else if c = 'n' then some ('\n', s)
    else if c = 'r' then some ('\r', s)
    else if c = 'x' then (readHex 2 0 s).bind fun p => (charOf p.1).map fun d => (d, p.2)
    else if c = 'u' then (readHex 4 0 s).bind fun p => (charOf p.1).map fun d => (d, p.2)
    else if c = 'U' then (readHex 8 0 s).bind fun p => (charOf p.1).map fun d => (d, p.2)
    else none

/-- The contents of a string literal up to the quote, and what follows. A line end in it is a `SyntaxError`. The first
argument bounds the number of characters read. -/
def readBody : Nat → Char → Str → Option (Str × Str)
  | 0, _, _ => none
  | _ + 1, _, [] => none
  | n + 1, q, c :: s =>
    if c = q then some ([], s)
    else if c = '\n' ∨ c = '\r' then none
    else if c = '\\' then (readEscape s).bind fun p => (readBody n q p.2).map fun r => (p.1 :: r.1, r.2)
    else (readBody n q s).map fun r => (c :: r.1, r.2)

/-- A string literal. -/
def readStr : Str → Option (Str × Str)
  | [] => none
  | q :: s => if q = '\'' ∨ q = '"' then readBody (s.length + 1) q s else none

/-- Literals separated by commas, up to the end of the list and of the text. -/
def readItems : Nat → Str → Option (List Str)
  | 0, _ => none
  | n + 1, s =>
    match readStr s with
    | none => none
    | some (x, [']']) => some [x]
    | some (x, ',' :: ' ' :: r) => (readItems n r).map (x :: ·)
    | some _ => none

/-- `literal_eval` of the text of a list of strings. -/
def literalEval : Str → Option (List Str)
  | ['[', ']'] => some []
  | '[' :: s => readItems (s.length + 1) s
  | _ => none

/-- The environment of `History` with these texts. -/
def pyEnv {V : Type} (printable : Char → Bool) (empty : V) (storable : V → Bool) : HEnv String V :=
  ⟨fun l => String.ofList (strList printable (l.map String.toList)), fun t => (literalEval t.toList).map fun l => l.map String.ofList,
    empty, storable⟩

end Verif.Cont.Literal
