import Verif.Dist.Global
import Verif.Proto.Model
import Verif.Tod.Model

/-!
# Model of the concatenation of distributed datasets

Models `caput/containers/tod.py:482-590` (`concatenate`, for one dataset of every input) as one process sees it, with
`caput/mpiarray.py:406-414` (`global_slice[...] = value`), `:501-502` (`MPIArray.__setitem__`) and
`caput/memdata/_memh5.py:1204-1245`, `:1410-1450` and `:1573-1577` (datasets made from arrays, and their indexing).
Datasets have any number of axes; `t` is the place of the axis that is concatenated over. Arrays are those of `Verif.Dist`.

Simplifications: there is no filter; attributes and data types are left out; entries of the output that were not written
are `none` (the memory is zero or not set). `dataset[:]` of a new dataset (line 587) is the whole of it (C08). An HDF5 dataset, which every
process makes in the output group, is what this process wants to put there.
-/
namespace Verif.TodDist

open Verif.Dist

variable {α : Type}

/-! ## Assignment of `numpy` -/

/-- The place `j` in a selection that index `i` of the array has, if it is selected. -/
def findIdx : List Ax → List Nat → Option (List Nat)
  | [], [] => some []
  | .kept ps :: as, i :: is =>
    match ps.idxOf? i with
    | none => none
    | some j =>
      match findIdx as is with
      | none => none
      | some js => some (j :: js)
  | .fixed p :: as, i :: is => if i = p then findIdx as is else none
  | .new :: as, is =>
    match findIdx as is with
    | none => none
    | some js => some (0 :: js)
  | _, _ => none

/-- Can an array of shape `v` be assigned to a selection of shape `s` with as many axes? Axes of length one are
broadcast. -/
def fits (v s : List Nat) : Bool :=
  decide (v.length = s.length) && (v.zip s).all fun x => decide (x.1 = 1) || decide (x.1 = x.2)

/-- `A[sel] = V` for slices and integers, and as many axes on the left as on the right. Not code of the repository. -/
def npSetitem (A : NArr (Option α)) (sel : List Idx) (V : NArr α) : Except PyErr (NArr (Option α)) :=
  match npExpand sel A.shape.length with
  | .error e => .error e
  | .ok es =>
    match walk es A.shape with
    | .error e => .error e
    | .ok as =>
      if fits V.shape (outShape as) then
        .ok { shape := A.shape
              val := fun i =>
                match findIdx as i with
                | none => A.val i
                | some j => some (V.val (List.zipWith (fun d x => if d = 1 then 0 else x) V.shape j)) }
      else .error .valueError

/-! ## The code -/

/-- mpiarray.py:406-414 `__setitem__` of `global_slice`, and 501-502. Without data on this process nothing happens. -/
def setGlobal (O : MArr (Option α)) (sel : List Idx) (V : NArr α) : Except PyErr (MArr (Option α)) :=
  match pyGet O.loff O.axis with
  | .error e => .error e
  | .ok offset =>
    match pyGet O.gshape O.axis with
    | .error e => .error e
    | .ok length =>
      match pyGet O.arr.shape O.axis with
      | .error e => .error e
      | .ok localLength =>
        let sl := resolveExpand O.arr.shape.length sel
        match pyGet sl O.axis with
        | .error e => .error e
        | .ok entry =>
          let entry' := (resolveEntry offset length localLength entry).1
          match pySet sl O.axis entry' with
          | .error e => .error e
          | .ok sl' =>
            if entry' = .newaxis then .ok O
            else
              match npSetitem O.arr sl' V with
              | .error e => .error e
              | .ok arr => .ok { O with arr := arr }

/-- A dataset of an input, or a piece of it. -/
inductive InD (α : Type) where
  | common (A : NArr α)
  | dist (A : MArr α)

/-- A dataset of the output. -/
inductive OutD (α : Type) where
  | common (A : NArr (Option α))
  | dist (A : MArr (Option α))

/-- `(slice(None),) * axis_ind + (s,)`. -/
def timeSel (t : Nat) (s : Int × Int) : List Idx := List.replicate t .full ++ [.sl (some s.1) (some s.2) none]

/-- tod.py:526-538: the piece of an input, as a dataset. `dist` says that the output is distributed. `None`, which indexing
a distributed dataset gives on processes without data, is refused by `from_numpy_array`. -/
def piece (dist : Bool) (sel : List Idx) : InD α → Except PyErr (InD α)
  | .common A =>
    match npGetitem A sel with
    | .error e => .error e
    | .ok R => .ok (.common R)
  | .dist A =>
    match globalGetitem A sel with
    | .error e => .error e
    | .ok .nothing => .error .typeError
    | .ok (.got (.plain R)) => .ok (.common R)
    | .ok (.got (.mpi B)) => if dist then .ok (.dist B) else .ok (.common B.arr)

/-- tod.py:543-557: the output dataset. The shape of a distributed dataset is the global one. -/
def newOut (c : Comm) (t : Nat) (len : Int) (p : InD α) : Except PyErr (OutD α) :=
  if len < 0 then .error .valueError
  else
    match p with
    | .common A => .ok (.common ⟨A.shape.take t ++ len.toNat :: A.shape.drop (t + 1), fun _ => none⟩)
    | .dist B =>
      .ok (.dist (Proto.newMArr (B.gshape.take t ++ len.toNat :: B.gshape.drop (t + 1)) B.axis.toNat c fun _ => none))

/-- The memory of a piece on this process. -/
def InD.arr : InD α → NArr α
  | .common A => A
  | .dist B => B.arr

/-- tod.py:587. -/
def assign (sel : List Idx) (p : InD α) : OutD α → Except PyErr (OutD α)
  | .common O =>
    match npSetitem O sel p.arr with
    | .error e => .error e
    | .ok O' => .ok (.common O')
  | .dist O =>
    match setGlobal O sel p.arr with
    | .error e => .error e
    | .ok O' => .ok (.dist O')

/-- tod.py:542-557: the output dataset is made with the first piece. -/
def required (c : Comm) (t : Nat) (len : Int) (p : InD α) : Option (OutD α) → Except PyErr (OutD α)
  | some o => .ok o
  | none => newOut c t len p

/-- tod.py:451-590 for one dataset. `inputs` has for every input the length of its index map and the dataset. -/
def concatD (dist : Bool) (c : Comm) (t : Nat) (S E : Int) : Int → List (Nat × InD α) → Option (OutD α) →
    Except PyErr (Option (OutD α))
  | _, [], o => .ok o
  | cur, x :: xs, o =>
    if Tod.skipped S E cur x.1 then concatD dist c t S E (cur + x.1) xs o
    else
      let io := Tod.inOutSlice S E cur x.1
      match piece dist (timeSel t io.1) x.2 with
      | .error e => .error e
      | .ok p =>
        match required c t (E - S) p o with
        | .error e => .error e
        | .ok o' =>
          match assign (timeSel t io.2) p o' with
          | .error e => .error e
          | .ok o'' => concatD dist c t S E (cur + x.1) xs (some o'')

end Verif.TodDist
