import Verif.Slice.Spec
import Verif.Mpi.Spec

/-!
# Model of `copy_datasets_filter`

Models `caput/containers/_util.py:43-177` and `caput/mpiarray.py:2242-2258` (`_apply_sel`), seen from one
process. An array is its shape and a function from multi-indices to elements. A distributed dataset is
given by its global array; the local part that a process sees after redistributing to an axis is the block
of the global array along that axis (C04). The dataset of the destination is given by the global shape with
which it exists, or with which it is created. Attributes are not modelled.
-/
namespace Verif.Cont

open Verif.Mpi (blockStart blockLen)

/-- Exceptions. -/
inductive FErr where
  | valueError
  | indexError
  | unboundLocalError
  | runtimeError
  deriving DecidableEq

/-- A selection along one axis. Index arrays are one-dimensional arrays of integers. -/
inductive Sel where
  | slice (start stop step : Option Int)
  | list (l : List Int)
  | tuple (l : List Int)
  | array (l : List Int)
  | other
  deriving DecidableEq

/-- An array: shape and elements. -/
structure NArr (α : Type) where
  shape : List Nat
  val : List Nat → α

/-- Selecting the positions `idx` along axis `k`. -/
def takeAx {α : Type} (A : NArr α) (k : Nat) (idx : List Nat) : NArr α :=
  ⟨A.shape.set k idx.length, fun I => A.val (I.modify k (fun j => idx.getD j 0))⟩

/-- Normalising an index along an axis of length `n` (`np.take`). -/
def normIdx (n : Nat) (i : Int) : Except FErr Nat :=
  if 0 ≤ i then if i < n then .ok i.toNat else .error .indexError
  else if 0 ≤ i + n then .ok (i + n).toNat else .error .indexError

/-- mpiarray.py:2242-2258: the positions selected along an axis of length `n`. A slice is Python's slice
(specification of C08); a list or tuple goes to `np.take`; anything else is refused. -/
def resolveSel (s : Sel) (n : Nat) : Except FErr (List Nat) :=
  match s with
  | .slice a b st =>
    if st = some 0 then .error .valueError
    else .ok (Verif.Slice.Spec.positions n a b (st.getD 1))
  | .list l => l.mapM (normIdx n)
  | .tuple l => l.mapM (normIdx n)
  | .array _ => .error .valueError
  | .other => .error .valueError

/-- mpiarray.py:2242 `_apply_sel(arr, sel, ax)`. -/
def applySel {α : Type} (A : NArr α) (s : Sel) (k : Nat) : Except FErr (NArr α) :=
  match A.shape[k]? with
  | none => .error .indexError
  | some n =>
    match resolveSel s n with
    | .error e => .error e
    | .ok idx => .ok (takeAx A k idx)

/-- _util.py:163-168: one selection, skipped if the dataset has no such axis. -/
def applyOne {α : Type} (axes : List String) (A : NArr α) (p : String × Sel) : Except FErr (NArr α) :=
  match axes.idxOf? p.1 with
  | none => .ok A
  | some k => applySel A p.2 k

/-- _util.py:163-168: all the selections. -/
def applyAll {α : Type} (axes : List String) : NArr α → List (String × Sel) → Except FErr (NArr α)
  | A, [] => .ok A
  | A, p :: ps =>
    match applyOne axes A p with
    | .error e => .error e
    | .ok B => applyAll axes B ps

/-- `list(range(a, b))`. -/
def pyRange (a b : Int) : List Int := (List.range (b - a).toNat).map (fun (i : Nat) => a + i)

/-- _util.py:98: `list(sel) == list(range(sel[0], sel[-1]))`; an empty selection has no `sel[0]`. -/
def toSlice (l : List Int) (s : Sel) : Except FErr Sel :=
  match l.head?, l.getLast? with
  | some a, some b => if l = pyRange a b then .ok (.slice (some a) (some b) none) else .ok s
  | _, _ => .error .indexError

/-- _util.py:90-99: cleaning one entry; `none` deletes it. For an index array, `sel == slice(None)`
compares element by element, and the outcome has no truth value unless there is exactly one element. -/
def cleanSel (s : Sel) : Except FErr (Option Sel) :=
  match s with
  | .slice none none none => .ok none
  | .slice a b st => .ok (some (.slice a b st))
  | .list l => (toSlice l (.list l)).map some
  | .tuple l => (toSlice l (.tuple l)).map some
  | .array l => if l.length = 1 then (toSlice l (.array l)).map some else .error .valueError
  | .other => .ok (some .other)

/-- _util.py:90-99: cleaning the dictionary of selections, in place. -/
def cleanAll : List (String × Sel) → Except FErr (List (String × Sel))
  | [] => .ok []
  | (ax, s) :: ps =>
    match cleanSel s with
    | .error e => .error e
    | .ok c =>
      match cleanAll ps with
      | .error e => .error e
      | .ok rest =>
        match c with
        | none => .ok rest
        | some s' => .ok ((ax, s') :: rest)

/-- The argument `selection`: a dictionary or one selection for all the axes. -/
inductive SelArg where
  | dict (d : List (String × Sel))
  | single (s : Sel)

/-- _util.py:74-88: the set of axes and the dictionary of selections. (The order of a set of names is
not fixed in Python; here it is the order of the argument.) -/
def resolveArgs (axis : List String) (selection : SelArg) : Except FErr (List String × List (String × Sel)) :=
  match selection with
  | .single s => .ok (axis.eraseDups, axis.eraseDups.map (fun a => (a, s)))
  | .dict d =>
    if axis = [] then .ok (d.map (·.1), d)
    else if axis.all (fun a => d.any (·.1 == a)) then .ok (axis.eraseDups, d)
    else .error .valueError

/-- A dataset of the source. -/
structure Src (α : Type) where
  name : String
  axes : List String
  arr : NArr α
  dist : Option Nat

/-- What is written into the destination: the array assigned by this process, the axis along which it is
a block (if distributed), the axis to which the dataset is redistributed afterwards, and the axis over which the dataset of
the source is distributed afterwards. -/
structure Dst (α : Type) where
  name : String
  arr : NArr α
  split : Option Nat
  final : Option Nat
  source : Option Nat

/-- The part of a global array that process `r` of `P` holds when it is distributed over axis `k`. -/
def blockOf {α : Type} (P r k : Nat) (A : NArr α) : NArr α :=
  takeAx A k (List.range' (blockStart (A.shape.getD k 0) P r) (blockLen (A.shape.getD k 0) P r))

/-- Comparison of the pairs (length, name). -/
def pairLe (a b : Nat × String) : Bool := if a.1 = b.1 then decide (¬ b.2 < a.2) else a.1 < b.1

/-- The largest pair: the last one after sorting. -/
def maxPair : List (Nat × String) → Option (Nat × String)
  | [] => none
  | p :: ps =>
    match maxPair ps with
    | none => some p
    | some q => if pairLe p q then some q else some p

/-- _util.py:138-152: the axis over which a distributed dataset is redistributed. -/
def newAxis {α : Type} (axis : List String) (sel : List (String × Sel)) (s : Src α) (orig : Nat) :
    Except FErr Nat :=
  match s.axes[orig]? with
  | none => if sel = [] then .ok orig else .error .indexError
  | some a =>
    if sel.any (·.1 == a) then
      match maxPair ((s.arr.shape.zip s.axes).filter (fun p => !axis.contains p.2)) with
      | none => .error .valueError
      | some q =>
        match s.axes.idxOf? q.2 with
        | some k => .ok k
        | none => .error .valueError
    else .ok orig

/-- _util.py:114-118: which datasets are copied. -/
def wanted {α : Type} (axis excl : List String) (always : Bool) (s : Src α) : Bool :=
  !(s.axes.any excl.contains) && (always || s.axes.any axis.contains)

/-- Whether `numpy` assigns an array of this shape to one of the other shape (both from the last axis on): lengths are equal or one, and axes
that are too many have length one. -/
def castable : List Nat → List Nat → Bool
  | [], _ => true
  | b :: bs, [] => b == 1 && castable bs []
  | b :: bs, n :: ns => (b == n || b == 1) && castable bs ns

/-- The index (from the last axis on) in the array that is assigned. -/
def castIndex : List Nat → List Nat → List Nat
  | [], _ => []
  | _ :: bs, [] => 0 :: castIndex bs []
  | b :: bs, i :: is => (if b = 1 then 0 else i) :: castIndex bs is

/-- The array that the destination holds after the assignment of `B`. -/
def castTo {α : Type} (B : NArr α) (sh : List Nat) : NArr α := ⟨sh, fun I => B.val (castIndex B.shape.reverse I.reverse).reverse⟩

/-- _util.py:155-166: the data of one dataset are selected and assigned. The source has been redistributed to the axis `split`
(154) and stays so. -/
def assign {α : Type} (s : Src α) (A : NArr α) (sel : List (String × Sel)) (destShape : List Nat)
    (split final : Option Nat) : Except FErr (Dst α) :=
  match applyAll s.axes A sel with
  | .error e => .error e
  | .ok B =>
    if B.shape = destShape then .ok ⟨s.name, B, split, final, split⟩
    else if castable B.shape.reverse destShape.reverse then .ok ⟨s.name, castTo B destShape, split, final, split⟩
    else .error .valueError

/-- The shape of the block of an array of shape `sh` distributed over axis `k`. -/
def blockShape (P r k : Nat) (sh : List Nat) : List Nat := sh.set k (blockLen (sh.getD k 0) P r)

/-- _util.py:120-173: one dataset. `orig` is the local variable `original_ax_id`, `dest` gives the shape
of the dataset in the destination and whether it is distributed. A distributed dataset of the destination
for which the source is not distributed is taken to be distributed over axis 0. -/
def copyItem {α : Type} (P r : Nat) (dest : String → Option (List Nat × Bool)) (axis : List String)
    (sel : List (String × Sel)) (s : Src α) (orig : Option Nat) : Except FErr (Dst α × Option Nat) :=
  match dest s.name with
  | none => .error .runtimeError
  | some (sh, dd) =>
    match s.dist with
    | some o =>
      if dd = false then .error .valueError
      else
        match newAxis axis sel s o with
        | .error e => .error e
        | .ok k =>
          (assign s (blockOf P r k s.arr) sel (blockShape P r k sh) (some k) (some o)).map (·, some o)
    | none =>
      if dd = false then (assign s s.arr sel sh none none).map (·, orig)
      else
        match assign s s.arr sel (blockShape P r 0 sh) none orig with
        | .error e => .error e
        | .ok d => if orig.isNone then .error .unboundLocalError else .ok (d, orig)

/-- _util.py:101-173: the datasets in the order in which they are taken from the stack. -/
def copyLoop {α : Type} (P r : Nat) (dest : String → Option (List Nat × Bool)) (axis excl : List String)
    (always : Bool) (sel : List (String × Sel)) :
    List (Src α) → Option Nat → Except FErr (List (Dst α))
  | [], _ => .ok []
  | s :: ss, orig =>
    if wanted axis excl always s then
      match copyItem P r dest axis sel s orig with
      | .error e => .error e
      | .ok (d, orig') => (copyLoop P r dest axis excl always sel ss orig').map (d :: ·)
    else copyLoop P r dest axis excl always sel ss orig

/-- _util.py:43-177 `copy_datasets_filter`: what is written, and the caller's dictionary of selections
afterwards (if it was one). -/
def copyFilter {α : Type} (P r : Nat) (dest : String → Option (List Nat × Bool)) (items : List (Src α))
    (axis : List String) (selection : SelArg) (excl : List String) (always : Bool) :
    Except FErr (List (Dst α) × List (String × Sel)) :=
  match resolveArgs axis selection with
  | .error e => .error e
  | .ok (axs, d) =>
    match cleanAll d with
    | .error e => .error e
    | .ok sel => (copyLoop P r dest axs excl always sel items none).map (·, sel)

end Verif.Cont
