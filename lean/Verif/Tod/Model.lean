/-!
# Model of the concatenation of time ordered data

Models `caput/containers/tod.py`: `concatenate` (312-592) with `_start_stop_inds` and
`_get_in_out_slice` (719-742), and `TODReader.select_time_range` / `read` (254-309).

Simplifications. A dataset is the list of its entries along the time axis found for it; the other
axes are inside the type `α` of an entry, so that the position of the time axis plays no role.
Entries of a fresh output array are `none` ("uninitialised"). `dataset_filter` is a function on the
list of entries of one input (the one argument form). Attributes, reverse maps and datasets without
a time axis, which are copied from the first input, are left out, as are string conversions and the
distributed case.
-/
namespace Verif.Tod

/-- Python exceptions raised by the modelled functions. -/
inductive PyErr where
  | indexError
  | keyError
  | valueError
  deriving DecidableEq, Repr

abbrev Axis := String
abbrev Name := String

/-- A dataset with a time axis: its `axis` attribute and its entries along the time axis. -/
structure Dset (α : Type) where
  name : Name
  axes : List Axis
  data : List α

/-- One `TOData` object: `index_map` and the time ordered datasets. -/
structure Item (α : Type) where
  index : Axis → Option (List α)
  dsets : List (Dset α)

/-- The output container while it is being filled. -/
structure Out (α : Type) where
  index : Axis → Option (List (Option α))
  dsets : Name → Option (List (Option α))

variable {α : Type}

/-- tod.py:719-732 `_start_stop_inds`. -/
def startStop (start stop : Option Int) (ntime : Int) : Int × Int :=
  (match start with
    | none => 0
    | some s => if s < 0 then ntime + s else s,
   match stop with
    | none => ntime
    | some s => if s < 0 then ntime + s else if s > ntime then ntime else s)

/-- tod.py:735-742 `_get_in_out_slice`: the bounds of `in_slice` and of `out_slice`. -/
def inOutSlice (start stop current ntime : Int) : (Int × Int) × (Int × Int) :=
  ((max 0 (start - current), min ntime (stop - current)),
   (max 0 (current - start), min (stop - start) (current - start + ntime)))

/-- A bound of a numpy slice with step one on an axis of length `n`. -/
def bound (n : Nat) (v : Int) : Nat := (if v < 0 then max (v + n) 0 else min v n).toNat

/-- numpy `l[lo:hi]`. -/
def getSlice {β : Type} (l : List β) (s : Int × Int) : List β :=
  (l.drop (bound l.length s.1)).take (bound l.length s.2 - bound l.length s.1)

/-- numpy assignment to `k` entries from `lo`: equal lengths, or a single value that is broadcast;
otherwise a `ValueError`. -/
def setAt (out : List (Option α)) (lo k : Nat) (vals : List α) : Except PyErr (List (Option α)) :=
  if vals.length = k then .ok (out.take lo ++ vals.map some ++ out.drop (lo + k))
  else match vals with
    | [v] => .ok (out.take lo ++ List.replicate k (some v) ++ out.drop (lo + k))
    | _ => .error .valueError

/-- numpy `out[lo:hi] = vals`. -/
def setSlice (out : List (Option α)) (s : Int × Int) (vals : List α) :
    Except PyErr (List (Option α)) :=
  setAt out (bound out.length s.1) (bound out.length s.2 - bound out.length s.1) vals

/-- Update of one key of a mapping. -/
def put {κ β : Type} [DecidableEq κ] (f : κ → Option β) (k : κ) (v : β) : κ → Option β :=
  fun k' => if k' = k then some v else f k'

/-- tod.py:453-455 (and 387-392): length of an axis of one input, zero if it does not have it. -/
def lenOf (it : Item α) (a : Axis) : Nat :=
  match it.index a with
  | none => 0
  | some l => l.length

/-- tod.py:457-463 and 497-503: nothing of the current input is wanted. -/
def skipped (start stop current : Int) (n : Nat) : Bool :=
  decide (current ≥ stop) || decide (current + n ≤ start)

/-- tod.py:457-475, for one axis: copy the wanted part of its index map. -/
def copyIndex (S E cur : Axis → Int) (it : Item α) (idx : Axis → Option (List (Option α)))
    (a : Axis) : Except PyErr (Axis → Option (List (Option α))) :=
  if skipped (S a) (E a) (cur a) (lenOf it a) then .ok idx
  else
    let io := inOutSlice (S a) (E a) (cur a) (lenOf it a)
    match it.index a with
    | none => .error .keyError
    | some l =>
      match idx a with
      | none => .error .keyError
      | some o =>
        match setSlice o io.2 (getSlice l io.1) with
        | .error e => .error e
        | .ok o' => .ok (put idx a o')

/-- tod.py:489-495: the first axis of a dataset that is concatenated over. -/
def timeAxisOf (timeAxes : List Axis) (d : Dset α) : Option Axis :=
  d.axes.find? fun a => decide (a ∈ timeAxes)

/-- tod.py:542-557: the output dataset, created if it is not there yet; `numpy` raises `ValueError`
for a negative length. -/
def requireDset (ds : Name → Option (List (Option α))) (name : Name) (len : Int) :
    Except PyErr (List (Option α)) :=
  match ds name with
  | some o => .ok o
  | none => if len < 0 then .error .valueError else .ok (List.replicate len.toNat none)

/-- tod.py:482-587, for one dataset of one input. -/
def copyDset (timeAxes : List Axis) (wanted : Option (List Name)) (filt : List α → List α)
    (S E cur : Axis → Int) (it : Item α) (ds : Name → Option (List (Option α))) (d : Dset α) :
    Except PyErr (Name → Option (List (Option α))) :=
  if wanted.all (fun w => decide (d.name ∈ w)) then
    match timeAxisOf timeAxes d with
    | none => .error .valueError
    | some a =>
      if skipped (S a) (E a) (cur a) (lenOf it a) then .ok ds
      else
        let io := inOutSlice (S a) (E a) (cur a) (lenOf it a)
        let piece := getSlice (filt d.data) io.1
        match requireDset ds d.name (E a - S a) with
        | .error e => .error e
        | .ok o =>
          match setSlice o io.2 piece with
          | .error e => .error e
          | .ok o' => .ok (put ds d.name o')
  else .ok ds

/-- tod.py:451-590, one turn of the loop over the inputs; the state is the position on every axis
and the output. -/
def copyItem (timeAxes : List Axis) (wanted : Option (List Name)) (filt : List α → List α)
    (S E : Axis → Int) (st : (Axis → Int) × Out α) (it : Item α) :
    Except PyErr ((Axis → Int) × Out α) := do
  let idx ← timeAxes.foldlM (copyIndex S E st.1 it) st.2.index
  let ds ← it.dsets.foldlM (copyDset timeAxes wanted filt S E st.1 it) st.2.dsets
  pure (fun a => st.1 a + lenOf it a, ⟨idx, ds⟩)

/-- tod.py:387-392: the length of an axis over all inputs. -/
def totalLen (items : List (Item α)) (a : Axis) : Nat := (items.map (lenOf · a)).sum

/-- tod.py:412-432: the index maps before the data are copied. -/
def initialIndex (timeAxes : List Axis) (S E : Axis → Int) (first : Item α) (a : Axis) :
    Option (List (Option α)) :=
  match first.index a with
  | none => none
  | some l => if a ∈ timeAxes then some (List.replicate (E a - S a).toNat none) else some (l.map some)

/-- tod.py:312-592 `concatenate`; `start` and `stop` are the mappings after lines 380-384. Line 420
raises `ValueError` for an axis of negative length. -/
def concatenate (timeAxes : List Axis) (items : List (Item α)) (start stop : Axis → Option Int)
    (wanted : Option (List Name) := none) (filt : List α → List α := id) :
    Except PyErr (Out α) :=
  match items with
  | [] => .error .indexError
  | first :: _ =>
    let S := fun a => (startStop (start a) (stop a) (totalLen items a)).1
    let E := fun a => (startStop (start a) (stop a) (totalLen items a)).2
    if timeAxes.any (fun a => (first.index a).isSome && decide (E a - S a < 0)) then
      .error .valueError
    else do
      let r ← items.foldlM (copyItem timeAxes wanted filt S E)
        (fun _ => 0, ⟨initialIndex timeAxes S E first, fun _ => none⟩)
      pure r.2

/-! ## Selecting a time range -/

variable {τ : Type} [LE τ] [LT τ] [DecidableLE τ] [DecidableLT τ]

/-- tod.py:277 `np.where(self.time >= start_time)[0][0]`. -/
def firstAtLeast (times : List τ) (t : τ) : Except PyErr Int :=
  match ((List.range times.length).filter fun i => times[i]?.any fun x => decide (t ≤ x)).head? with
  | some i => .ok i
  | none => .error .indexError

/-- tod.py:282 `np.where(self.time < stop_time)[0][-1] + 1`. -/
def afterLastBelow (times : List τ) (t : τ) : Except PyErr Int :=
  match ((List.range times.length).filter fun i => times[i]?.any fun x => decide (x < t)).getLast? with
  | some i => .ok (i + 1)
  | none => .error .indexError

/-- tod.py:254-286 `select_time_range` (`convert_time` is the identity, line 147): the new value of
`time_sel`. -/
def selectTimeRange (times : List τ) (sel : Int × Int) (start stop : Option τ) :
    Except PyErr (Int × Int) := do
  let s ← match start with
    | none => pure sel.1
    | some t => firstAtLeast times t
  let e ← match stop with
    | none => pure sel.2
    | some t => afterLastBelow times t
  pure (s, e)

end Verif.Tod
