import Verif.Save.Model

/-!
# Model of lists of files in the configuration, and of loading them

Models `list_of_filelists`, `list_or_glob`, `list_of_filegroups` and `LoadFilesFromParams.process`
(`caput/pipeline/tasklib/io.py:49-190, 376-422`).

Simplifications: the file system does not change meanwhile; `glob.glob`, `os.path.isfile` and `os.path.isdir` are functions
of the path; reading a file is a function of the path that may fail; recursion in Python ends with an error at a depth
that is a parameter.
-/
namespace Verif.Files

abbrev Str := List Char

inductive PyErr where
  | configError
  | recursionError
  deriving DecidableEq, Repr

/-- The file system. `glob` gives the paths in any order. -/
structure World where
  glob : Str → List Str
  isfile : Str → Bool
  isdir : Str → Bool

/-- A value from the configuration. -/
inductive Arg where
  | str (s : Str)
  | list (l : List Arg)
  | other

/-- `any(c in files for c in "*?[")` (112). -/
def magic (s : Str) : Bool := s.any fun c => c == '*' || c == '?' || c == '['

/-- `<=` of strings: by code points. -/
def leStr : Str → Str → Bool
  | [], _ => true
  | _ :: _, [] => false
  | a :: l, b :: m => a.toNat < b.toNat || (a.toNat == b.toNat && leStr l m)

def insertStr (x : Str) : List Str → List Str
  | [] => [x]
  | y :: l => if leStr x y then x :: y :: l else y :: insertStr x l

/-- `sorted`. -/
def sortStrs : List Str → List Str
  | [] => []
  | x :: l => insertStr x (sortStrs l)

/-- `files.endswith(".zarr")`. -/
def isZarr (s : Str) : Bool := ".zarr".toList.isSuffixOf s

/-- Lines 116-130: a path has to be there. -/
def checkPath (W : World) (s : Str) : Except PyErr (List Str) :=
  if isZarr s then if W.isdir s then .ok [s] else .error .configError
  else if W.isfile s then .ok [s] else .error .configError

/-- Lines 106-109: the loop over a list. -/
def collect (f : Arg → Except PyErr (List Str)) : List Arg → Except PyErr (List Str)
  | [] => .ok []
  | a :: l =>
    match f a with
    | .error e => .error e
    | .ok r =>
      match collect f l with
      | .error e => .error e
      | .ok r' => .ok (r ++ r')

/-- Lines 87-134 `list_or_glob`. -/
def listOrGlob (W : World) : Nat → Arg → Except PyErr (List Str)
  | 0, _ => .error .recursionError
  | n + 1, .list l => collect (listOrGlob W n) l
  | n + 1, .str s => if magic s then listOrGlob W n (.list ((sortStrs (W.glob s)).map .str)) else checkPath W s
  | _ + 1, .other => .error .configError

/-- Lines 76-78: the entries of an inner list are replaced by lists of files. -/
def innerLists (W : World) (n : Nat) : List Arg → Except PyErr (List Arg)
  | [] => .ok []
  | a :: l =>
    match listOrGlob W n a with
    | .error e => .error e
    | .ok r =>
      match innerLists W n l with
      | .error e => .error e
      | .ok r' => .ok (.list (r.map .str) :: r')

/-- Lines 49-84 `list_of_filelists`. (The inner lists are changed in place, which is left out.) -/
def listOfFilelists (W : World) (n : Nat) : List Arg → Except PyErr (List Arg)
  | [] => .ok []
  | .str s :: l =>
    if !s.contains '*' && !W.isfile s then .error .configError
    else
      match listOfFilelists W n l with
      | .error e => .error e
      | .ok r => .ok ((W.glob s).map .str ++ r)
  | .list m :: l =>
    match innerLists W n m with
    | .error e => .error e
    | .ok k =>
      match listOfFilelists W n l with
      | .error e => .error e
      | .ok r => .ok (k ++ r)
  | .other :: _ => .error .configError

/-- A group of files: `none` if it is not a dict; else the entries "files" and "tag", if they are there. -/
abbrev Group := Option (Option (List Str) × Option Str)

/-- Lines 181-184: the loop over the files of a group. -/
def groupFiles (W : World) : List Str → Except PyErr (List Str)
  | [] => .ok []
  | f :: l =>
    if !f.contains '*' && !W.isfile f then .error .configError
    else
      match groupFiles W l with
      | .error e => .error e
      | .ok r => .ok (W.glob f ++ r)

/-- Lines 165-188: one group. `show` is the decimal representation. -/
def oneGroup (W : World) (showNat : Nat → Str) (gi : Nat) (g : Group) : Except PyErr (List Str × Str) :=
  match g with
  | none => .error .configError
  | some (none, _) => .error .configError
  | some (some files, tag) =>
    match groupFiles W files with
    | .error e => .error e
    | .ok [] => .error .configError
    | .ok (f :: l) => .ok (f :: l, tag.getD ("group_".toList ++ showNat gi))

/-- Lines 137-190 `list_of_filegroups`, for a list. -/
def fileGroups (W : World) (showNat : Nat → Str) : Nat → List Group → Except PyErr (List (List Str × Str))
  | _, [] => .ok []
  | gi, g :: l =>
    match oneGroup W showNat gi g with
    | .error e => .error e
    | .ok r =>
      match fileGroups W showNat (gi + 1) l with
      | .error e => .error e
      | .ok r' => .ok (r :: r')

/-- `os.path.basename`. -/
def basename (p : Str) : Str := (p.reverse.takeWhile (· != '/')).reverse

/-- `os.path.splitext(name)[0]` of a name without directory: up to the last dot, unless only dots are before it. -/
def stemOf (p : Str) : Str :=
  let ext := p.reverse.takeWhile (· != '.')
  if ext.length = p.length then p
  else
    let root := (p.reverse.drop (ext.length + 1)).reverse
    if root.all (· == '.') then p else root

/-- Lines 411-415: a tag for what has no tag. -/
def addTag {δ : Type} (file : Str) (x : Save.Cont δ) : Save.Cont δ :=
  match x.attrs "tag".toList with
  | some _ => x
  | none => { x with attrs := x.attrs.put "tag".toList (.str (stemOf (basename file))) }

/-- Lines 388-422 `LoadFilesFromParams.process`; the state is `_file_ind`. -/
def loadNext {δ : Type} (load : Str → Except Save.PyErr (Save.Cont δ)) (files : List Str) (ind : Nat)
    (inputs : List (Save.Item δ)) : Except Save.PyErr (Nat × Save.Out δ) :=
  match inputs with
  | _ :: _ => .error .typeError
  | [] =>
    match files[ind]? with
    | none => .error .stop
    | some f =>
      match load f with
      | .error e => .error e
      | .ok x => .ok (ind + 1, .one (.cont (addTag f x)))

end Verif.Files
