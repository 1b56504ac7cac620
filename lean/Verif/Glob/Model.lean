import Verif.Tod.Model
import Verif.Glob.Spec
import Mathlib.Data.List.Sort
import Mathlib.Data.List.Lex
import Mathlib.Data.Char
import Mathlib.Data.List.Infix

/-!
# Model of lists of files given by a pattern

Models `caput/containers/tod.py`: `ensure_file_list` (595-615), `TOData.from_mult_files` (73-138) with `concatenate` of `Verif.Tod.Model`, and the same in `TODReader.__init__` (174-178); of the
standard library `glob.glob` and `fnmatch.translate`.

Simplifications: the pattern is a directory without wildcards (with its slash, or nothing), the patterns of further directories, and a name; none of these is empty, `.` or `..`; `**` is the same as `*` (`recursive` is not set).
`ls` gives the entries of a directory in the order in which they are listed, and nothing for a path that is not a directory.
A file is what `from_file` makes of it. Start, stop and dataset arguments are passed on to `concatenate`. Other keyword arguments are left out.
-/
namespace Verif.Glob
open Verif.Tod (Item Axis Out Name)

/-- A piece of a pattern: `?`, `*`, a character, or a set of ranges, perhaps negated. -/
inductive Tok where
  | one
  | star
  | lit (c : Char)
  | set (neg : Bool) (ranges : List (Char × Char))
  deriving DecidableEq

/-- `fnmatch.translate`: the inside of brackets. A hyphen between two characters is a range; ranges the wrong way round are empty. -/
def ranges : Str → List (Char × Char)
  | [] => []
  | [c] => [(c, c)]
  | [c, d] => [(c, c), (d, d)]
  | c :: d :: e :: l => if d = '-' then (c, e) :: ranges l else (c, c) :: ranges (d :: e :: l)

/-- `fnmatch.translate`: the inside of the brackets, up to the closing one, and what follows. A closing bracket in the first place, or after `!`, belongs to the inside. -/
def brackets (l : Str) : Option (Bool × Str × Str) :=
  let neg := l.head? == some '!'
  let l := if neg then l.drop 1 else l
  let k := if l.head? = some ']' then 1 else 0
  let stuff := l.take k ++ (l.drop k).takeWhile (· != ']')
  match (l.drop k).dropWhile (· != ']') with
  | [] => none
  | _ :: rest => some (neg, stuff, rest)

/-- `fnmatch.translate`. The number bounds the steps. An opening bracket that is not closed is a character. -/
def parse : Nat → Str → List Tok
  | 0, _ => []
  | _ + 1, [] => []
  | n + 1, c :: l =>
    if c = '*' then .star :: parse n l
    else if c = '?' then .one :: parse n l
    else if c = '[' then
      match brackets l with
      | none => .lit c :: parse n l
      | some (neg, stuff, rest) => .set neg (ranges stuff) :: parse n rest
    else .lit c :: parse n l

/-- The match of the regular expression with the whole name. -/
def matchToks : List Tok → Str → Bool
  | [], s => s.isEmpty
  | .star :: ts, s => s.tails.any (matchToks ts)
  | _ :: _, [] => false
  | .one :: ts, _ :: s => matchToks ts s
  | .lit c :: ts, d :: s => c == d && matchToks ts s
  | .set neg rs :: ts, d :: s => ((rs.any fun r => decide (r.1 ≤ d ∧ d ≤ r.2)) != neg) && matchToks ts s

/-- `fnmatch.fnmatch(name, pat)` on a system whose names have upper and lower case. -/
def fnmatch (pat name : Str) : Bool := matchToks (parse pat.length pat) name

/-- `glob.has_magic`. -/
def hasMagic (p : Str) : Bool := p.any fun c => c == '*' || c == '?' || c == '['

/-- `glob._ishidden`. -/
def hidden (p : Str) : Bool := p.head? == some '.'

/-- `glob._glob1` and `glob._glob0`: one component; `entries` are the names in the directory as they are listed. -/
def globIn (entries : List Str) (dir base : Str) : List Str :=
  if hasMagic base then
    (entries.filter fun e => fnmatch base e && (hidden base || !hidden e)).map (dir ++ ·)
  else if base ∈ entries then [dir ++ base] else []

/-- `glob.glob` of the path made of `dir`, the components and `base`. -/
def glob (ls : Str → List Str) : Str → List Str → Str → List Str
  | dir, [], base => globIn (ls dir) dir base
  | dir, c :: cs, base => (globIn (ls dir) dir c).flatMap fun d => glob ls (d ++ ['/']) cs base

/-- Python's `sorted` for strings, which are ordered by code points. -/
def sorted (l : List Str) : List Str := l.insertionSort (· ≤ ·)

inductive Err where
  | valueError
  | attributeError
  | osError
  | tod (e : Tod.PyErr)
  deriving DecidableEq

/-- An entry of the list of files: an open group or a name, or something else, here a number. -/
inductive Ref (α : Type) where
  | group (g : Item α)
  | name (s : Str)
  | int (n : Nat)

/-- What is given as `files`. -/
inductive Files (α : Type) where
  | group (g : Item α)
  | name (dir : Str) (comps : List Str) (base : Str)
  | bytes (b : List Nat)
  | seq (l : List (Ref α))
  | other

/-- tod.py:595-615 `ensure_file_list`. -/
def ensureFileList {α : Type} (ls : Str → List Str) : Files α → Except Err (List (Ref α))
  | .group g => .ok [.group g]
  | .name dir comps base => .ok ((sorted (glob ls dir comps base)).map .name)
  | .bytes b => .ok (b.map .int)
  | .seq l => .ok l
  | .other => .error .valueError

/-- `from_file` with `ondisk=True`, tod.py:127; `guess_file_format` (fileformats.py:407) asks a number for its ending. -/
def openRef {α : Type} (content : Str → Option (Item α)) : Ref α → Except Err (Item α)
  | .group g => .ok g
  | .name s =>
    match content s with
    | none => .error .osError
    | some x => .ok x
  | .int _ => .error .attributeError

def openAll {α : Type} (content : Str → Option (Item α)) : List (Ref α) → Except Err (List (Item α))
  | [] => .ok []
  | r :: rs =>
    match openRef content r with
    | .error e => .error e
    | .ok x =>
      match openAll content rs with
      | .error e => .error e
      | .ok xs => .ok (x :: xs)

/-- tod.py:73-138 `from_mult_files`. -/
def fromMultFiles {α : Type} (timeAxes : List Axis) (ls : Str → List Str) (content : Str → Option (Item α)) (files : Files α) (start stop : Axis → Option Int)
    (wanted : Option (List Name)) : Except Err (Out α) :=
  match ensureFileList ls files with
  | .error e => .error e
  | .ok refs =>
    match openAll content refs with
    | .error e => .error e
    | .ok items =>
      match Tod.concatenate timeAxes items start stop wanted with
      | .error e => .error (.tod e)
      | .ok out => .ok out

/-- tod.py:174-178: the reader makes a list of the names itself, then gives it to `from_mult_files` without datasets. -/
def readerFiles {α : Type} (ls : Str → List Str) : Files α → Files α
  | .name dir comps base => .seq ((sorted (glob ls dir comps base)).map .name)
  | f => f

def readerTimes {α : Type} (timeAxes : List Axis) (ls : Str → List Str) (content : Str → Option (Item α)) (files : Files α) : Except Err (Out α) :=
  fromMultFiles timeAxes ls content (readerFiles ls files) (fun _ => none) (fun _ => none) (some [])

end Verif.Glob
