import Verif.Save.Model

/-!
# Model of tasks that choose files to load, and of `Save`

Models of `caput/pipeline/tasklib/io.py`: `BaseLoadFiles._load_file` (337-373), `LoadFilesFromAttrs` (425-460), `LoadFilesAndSelect` (463-537), `LoadFilesFromPathAndTag.setup` (564-573), `Save.next` (598-634).

What is in a file is a function of its path, without selections and on one process. Format strings for attributes are pieces, as in `Save`.
-/
namespace Verif.Loading

open Verif.Save (Str AVal Piece Env Dict Cont)

inductive Err where
  | keyError
  | runtimeError
  | zeroDivision
  | format
  deriving DecidableEq, Repr

variable {δ : Type}

/-- `str.format`: a field that is missing is a `KeyError`. -/
def fmt (E : Env) (d : Dict) (p : List Piece) : Except Err Str :=
  match Save.format E d p with
  | .ok s => .ok s
  | .error _ => .error .keyError

/-- io.py:337-373 `_load_file`: the file has to exist. -/
def loadFile (read : Str → Option (Cont δ)) (f : Str) : Except Err (Cont δ) :=
  match read f with
  | none => .error .runtimeError
  | some c => .ok c

/-- io.py:442-460 `LoadFilesFromAttrs.process`. -/
def loadFromAttrs (E : Env) (read : Str → Option (Cont δ)) (filename : List Piece) (d : Dict) : Except Err (Cont δ) :=
  match fmt E d filename with
  | .error e => .error e
  | .ok f => loadFile read f

/-! ### LoadFilesAndSelect -/

/-- Keys of the collection: positions or labels. -/
inductive Key where
  | pos (n : Nat)
  | label (s : Str)
  deriving DecidableEq

/-- `collection[key] = cont`: a key keeps its place. -/
def put (coll : List (Key × Cont δ)) (k : Key) (c : Cont δ) : List (Key × Cont δ) :=
  match coll with
  | [] => [(k, c)]
  | (k', c') :: rest => if k' = k then (k, c) :: rest else (k', c') :: put rest k c

def get (coll : List (Key × Cont δ)) (k : Key) : Option (Cont δ) := (coll.find? (·.1 = k)).map (·.2)

/-- io.py:479-500 `setup`, from file number `n` on. -/
def setupFrom (E : Env) (read : Str → Option (Cont δ)) (kf : Option (List Piece)) : Nat → List (Key × Cont δ) → List Str → Except Err (List (Key × Cont δ))
  | _, coll, [] => .ok coll
  | n, coll, f :: fs =>
    match loadFile read f with
    | .error e => .error e
    | .ok c =>
      match kf with
      | none => setupFrom E read kf (n + 1) (put coll (.pos n) c) fs
      | some p =>
        match fmt E c.attrs p with
        | .error e => .error e
        | .ok s => setupFrom E read kf (n + 1) (put coll (.label s) c) fs

/-- io.py:502-537 `process`: the key of the container that is given. -/
def selectKey (E : Env) (kf : Option (List Piece)) (coll : List (Key × Cont δ)) (count : Nat) (d : Dict) : Except Err (Option Key) :=
  match kf with
  | none => if coll.length = 0 then .error .zeroDivision else .ok (some (.pos (count % coll.length)))
  | some p =>
    match fmt E d p with
    | .error e => .error e
    | .ok s => if (get coll (.label s)).isSome then .ok (some (.label s)) else .ok none

/-- Inputs one after the other, with what is done to each output before the next input comes: the output is the container in the collection, not a copy of it. `ContainerTask.next` counts the outputs (base.py:366-382). -/
def serve (E : Env) (kf : Option (List Piece)) : Nat → List (Key × Cont δ) → List (Dict × (Cont δ → Cont δ)) → Except Err (List (Option (Cont δ)))
  | _, _, [] => .ok []
  | count, coll, (d, after) :: ins =>
    match selectKey E kf coll count d with
    | .error e => .error e
    | .ok none =>
      match serve E kf count coll ins with
      | .error e => .error e
      | .ok l => .ok (none :: l)
    | .ok (some k) =>
      match get coll k with
      | none => .error .keyError
      | some c =>
        match serve E kf (count + 1) (put coll k (after c)) ins with
        | .error e => .error e
        | .ok l => .ok (some c :: l)

/-- The whole task. -/
def loadAndSelect (E : Env) (read : Str → Option (Cont δ)) (kf : Option (List Piece)) (files : List Str) (ins : List (Dict × (Cont δ → Cont δ))) : Except Err (List (Option (Cont δ))) :=
  match setupFrom E read kf 0 [] files with
  | .error e => .error e
  | .ok coll => serve E kf 0 coll ins

/-! ### LoadFilesFromPathAndTag -/

/-- `path.format(tag=tag)`. Fields other than `{tag}` are taken as an error; Python also has conversions and formats for the field. -/
def formatTag (tag : Str) : Str → Except Err Str
  | [] => .ok []
  | '{' :: '{' :: r => (formatTag tag r).map ('{' :: ·)
  | '}' :: '}' :: r => (formatTag tag r).map ('}' :: ·)
  | '{' :: 't' :: 'a' :: 'g' :: '}' :: r => (formatTag tag r).map (tag ++ ·)
  | c :: r => if c = '{' ∨ c = '}' then .error .format else (formatTag tag r).map (c :: ·)

/-- io.py:572-573: the loop over tags. -/
def filesOfPath (path : Str) : List Str → Except Err (List Str)
  | [] => .ok []
  | t :: ts =>
    match formatTag t path with
    | .error e => .error e
    | .ok f =>
      match filesOfPath path ts with
      | .error e => .error e
      | .ok l => .ok (f :: l)

/-- io.py:569-573: the loop over paths. -/
def filesOf (tags : List Str) : List Str → Except Err (List Str)
  | [] => .ok []
  | p :: ps =>
    match filesOfPath p tags with
    | .error e => .error e
    | .ok a =>
      match filesOf tags ps with
      | .error e => .error e
      | .ok b => .ok (a ++ b)

/-! ### Save -/

/-- io.py:630: the name of the file. -/
def saveName (root tag : Str) : Str := root ++ '_' :: (tag ++ ".h5".toList)

/-- io.py:614-634 `next` for one container after the other, each with the text of its tag, if it has one. -/
def saveAll (root : Str) : Nat → (Str → Option δ) → List (Option Str × δ) → (Str → Option δ)
  | _, files, [] => files
  | count, files, (none, x) :: l => saveAll root (count + 1) (fun f => if f = saveName root (Nat.toDigits 10 count) then some x else files f) l
  | count, files, (some t, x) :: l => saveAll root count (fun f => if f = saveName root t then some x else files f) l

end Verif.Loading
