import Verif.Dist.Np
import Verif.Slice.Spec

/-!
# Indexing of `numpy` arrays

Nothing here is code of the repository; see `Np.lean`. An index is a tuple of integers, slices,
`np.newaxis`, `...` and lists of integers.
-/
namespace Verif.Dist

variable {α : Type}

/-- One entry of an index. -/
inductive Idx where
  | int (i : Int)
  | sl (start stop step : Option Int)
  | newaxis
  | ellipsis
  | list (l : List Int)
  deriving DecidableEq, Repr

/-- The slice `:`. -/
abbrev Idx.full : Idx := .sl none none none

/-- Does the entry belong to an axis of the array? -/
def Idx.uses : Idx → Bool
  | .newaxis => false
  | .ellipsis => false
  | _ => true

/-- Number of axes of the array that the entries belong to. -/
def used (es : List Idx) : Nat := (es.filter Idx.uses).length

/-- The index with `...` replaced by as many `:` as there are axes left; without `...` they are added at
the end. -/
def npExpand (sel : List Idx) (n : Nat) : Except PyErr (List Idx) :=
  if 1 < sel.count .ellipsis then .error .indexError
  else if n < used sel then .error .indexError
  else if .ellipsis ∈ sel then
    .ok (sel.flatMap fun e => if e = .ellipsis then List.replicate (n - used sel) .full else [e])
  else .ok (sel ++ List.replicate (n - used sel) .full)

/-- What an entry selects: places along an axis, one place (and the axis disappears), or a new axis. -/
inductive Ax where
  | kept (ps : List Nat)
  | fixed (p : Nat)
  | new
  deriving DecidableEq, Repr

/-- An integer as an index into `n` places. -/
def normIndex (n : Nat) (i : Int) : Except PyErr Nat :=
  if -(n : Int) ≤ i ∧ i < n then .ok (if i < 0 then i + n else i).toNat else .error .indexError

/-- What an entry selects of an axis of length `n`. -/
def axisOf (n : Nat) : Idx → Except PyErr Ax
  | .int i =>
    match normIndex n i with
    | .ok p => .ok (.fixed p)
    | .error e => .error e
  | .sl a b s => if s = some 0 then .error .valueError else .ok (.kept (Slice.Spec.positions n a b (s.getD 1)))
  | .list l =>
    match l.mapM (normIndex n) with
    | .ok ps => .ok (.kept ps)
    | .error e => .error e
  | _ => .error .indexError

/-- What all entries select. -/
def walk : List Idx → List Nat → Except PyErr (List Ax)
  | [], [] => .ok []
  | .newaxis :: es, s =>
    match walk es s with
    | .ok as => .ok (.new :: as)
    | .error e => .error e
  | e :: es, d :: s =>
    match axisOf d e with
    | .error x => .error x
    | .ok a =>
      match walk es s with
      | .ok as => .ok (a :: as)
      | .error x => .error x
  | _, _ => .error .indexError

/-- Shape of the result. -/
def outShape : List Ax → List Nat
  | [] => []
  | .kept ps :: as => ps.length :: outShape as
  | .fixed _ :: as => outShape as
  | .new :: as => 1 :: outShape as

/-- The element of the array that is at index `j` of the result. -/
def srcIdx : List Ax → List Nat → List Nat
  | .kept ps :: as, j :: js => ps.getD j 0 :: srcIdx as js
  | .fixed p :: as, js => p :: srcIdx as js
  | .new :: as, _ :: js => srcIdx as js
  | _, _ => []

/-- Entries that `numpy` combines with each other, if one of them is a list. -/
def Idx.adv : Idx → Bool
  | .int _ => true
  | .list _ => true
  | _ => false

/-- Is the entry an integer? -/
def Idx.isInt : Idx → Bool
  | .int _ => true
  | _ => false

/-- Is the entry a list? -/
def Idx.isList : Idx → Bool
  | .list _ => true
  | _ => false

/-- No entries are combined: there is no list, or one list and no integer. -/
def simple (es : List Idx) : Bool :=
  !(es.any Idx.isList) || decide ((es.filter Idx.adv).length ≤ 1)

/-- The combined entries stand next to each other. -/
def contiguous (es : List Idx) : Bool :=
  !(((es.dropWhile (!·.adv)).dropWhile (·.adv)).any (·.adv))

/-- Source index for combined entries: they all read the same place `t`. -/
def srcAdv : List (Bool × Ax) → Nat → List Nat → List Nat
  | (true, .kept ps) :: as, t, js => ps.getD (if ps.length = 1 then 0 else t) 0 :: srcAdv as t js
  | (_, .fixed p) :: as, t, js => p :: srcAdv as t js
  | (false, .kept ps) :: as, t, j :: js => ps.getD j 0 :: srcAdv as t js
  | (_, .new) :: as, t, _ :: js => srcAdv as t js
  | _, _, _ => []

/-- Indexing with combined entries: they are broadcast to one axis, which stands in the place of the
first of them if they stand next to each other, and otherwise in front. -/
def npAdvanced (A : NArr α) (es : List Idx) (as : List Ax) : Except PyErr (NArr α) :=
  let tagged := (es.map Idx.adv).zip as
  let lens := tagged.filterMap fun x => if x.1 then (match x.2 with | .kept ps => some ps.length | _ => some 1) else none
  match bdim lens with
  | none => .error .indexError
  | some n =>
    let rest := outShape ((tagged.filter (!·.1)).map (·.2))
    let pos := if contiguous es then (outShape ((tagged.takeWhile (!·.1)).map (·.2))).length else 0
    .ok { shape := rest.take pos ++ n :: rest.drop pos
          val := fun j => A.val (srcAdv tagged (j.getD pos 0) (j.eraseIdx pos)) }

/-- `A[sel]`. -/
def npGetitem (A : NArr α) (sel : List Idx) : Except PyErr (NArr α) :=
  match npExpand sel A.shape.length with
  | .error e => .error e
  | .ok es =>
    match walk es A.shape with
    | .error e => .error e
    | .ok as =>
      if simple es then .ok { shape := outShape as, val := fun j => A.val (srcIdx as j) }
      else npAdvanced A es as

end Verif.Dist
