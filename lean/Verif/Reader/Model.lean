import Verif.Tod.Model
import Verif.Mem.Copy
import Mathlib.Algebra.Order.Ring.Rat
import Mathlib.Data.List.Sort

/-!
# Model of readers of time ordered data

Models of `caput/containers/tod.py`: `TOData.time` (47-71), `TODReader` (150-309) without the selection of a time range (C36),
`_copy_non_time_data` and `_dset_has_axis` (618-715), and what `concatenate` does to its arguments `start` and `stop` (380-398). The concatenation itself is in
`Verif.Tod` (C35).

A file is a tree of groups and datasets; of a dataset we keep the axes in its attributes, other attributes, and its entries along time. A container
shows only the datasets in its root (`containers/_core.py:143-154`, `_memh5.py:1777-1807`).

Left out: distributed datasets, conversion of strings, datasets without axes, names of files (C70).
-/
namespace Verif.Reader

open Verif.Mem (Str Node sortKeys)

/-- A dataset. -/
structure TDs (α : Type) where
  axes : List String
  attrs : List (Str × Nat)
  data : List α

abbrev Tree (α : Type) := Node Nat (TDs α)

variable {α : Type}

inductive PyErr where
  | valueError
  | tod (e : Tod.PyErr)
  deriving DecidableEq, Repr

/-- tod.py:706-715 `_dset_has_axis`. -/
def hasAxis (timeAxes : List String) (d : TDs α) : Bool := d.axes.any fun a => decide (a ∈ timeAxes)

/-- Number of entries, for termination. -/
noncomputable def weight (s : List (List Str × Tree α)) : Nat := (s.map fun x => sizeOf x.2).sum

theorem weight_cons (x : List Str × Tree α) (s : List (List Str × Tree α)) : weight (x :: s) = sizeOf x.2 + weight s := rfl

theorem weight_append (s t : List (List Str × Tree α)) : weight (s ++ t) = weight s + weight t := by
  unfold weight
  rw [List.map_append, List.sum_append]

theorem weight_kids (a : List (Str × Nat)) (kids : List (Str × Tree α)) (p : List Str) :
    weight ((sortKeys kids).map fun x => (p ++ [x.1], x.2)) < sizeOf (Node.group a kids : Tree α) := by
  have hins : ∀ (x : Str × Tree α) l, ((Mem.insertKey x l).map fun y => sizeOf y.2).sum = sizeOf x.2 + (l.map fun y => sizeOf y.2).sum := by
    intro x l
    induction l with
    | nil => simp [Mem.insertKey]
    | cons y t ih =>
      unfold Mem.insertKey
      split
      · simp
      · simp only [List.map_cons, List.sum_cons, ih]
        omega
  have hsort : ((sortKeys kids).map fun y => sizeOf y.2).sum = (kids.map fun y => sizeOf y.2).sum := by
    unfold sortKeys
    induction kids with
    | nil => rfl
    | cons x l ih => rw [List.foldr_cons, hins, ih, List.map_cons, List.sum_cons]
  have hk : ∀ l : List (Str × Tree α), (l.map fun y => sizeOf y.2).sum ≤ sizeOf l := by
    intro l
    induction l with
    | nil => simp
    | cons x l ih =>
      obtain ⟨k, n⟩ := x
      simp only [List.map_cons, List.sum_cons, List.cons.sizeOf_spec, Prod.mk.sizeOf_spec]
      omega
  unfold weight
  rw [List.map_map]
  change ((sortKeys kids).map fun y => sizeOf y.2).sum < _
  rw [hsort, Node.group.sizeOf_spec]
  have := hk kids
  omega

/-- tod.py:658-677: the walk over the tree, top of the stack first. The names in lines 666-668 have no slash in front, those of entries do, so nothing is left out
there. Given are the datasets with a time axis, and the other entries. -/
def crawl (timeAxes : List String) : List (List Str × Tree α) → List (List Str × TDs α) × List (List Str × Tree α)
  | [] => ([], [])
  | (p, .dset d) :: s =>
    let r := crawl timeAxes s
    if hasAxis timeAxes d then ((p, d) :: r.1, r.2) else (r.1, (p, .dset d) :: r.2)
  | (p, .group a kids) :: s =>
    let r := crawl timeAxes (((sortKeys kids).map fun x => (p ++ [x.1], x.2)) ++ s)
    (r.1, (p, .group a kids) :: r.2)
termination_by s => weight s
decreasing_by
  · rw [weight_cons, Node.dset.sizeOf_spec]
    omega
  · have := weight_kids a kids p
    rw [weight_append, weight_cons]
    exact Nat.add_lt_add_right this _

def isDset : Tree α → Bool
  | .dset _ => true
  | .group _ _ => false

/-- What a container shows of its tree. -/
def visible : Tree α → Tree α
  | .group a kids => .group a (kids.filter fun x => isDset x.2)
  | .dset d => .dset d

def kidsOf : Tree α → List (Str × Tree α)
  | .group _ kids => kids
  | .dset _ => []

/-- The name for a path: parts joined by slashes (line 703). -/
def joined (p : List Str) : String := String.ofList (List.intercalate ['/'] p)

/-- A file as an input of `concatenate`: index maps, and the datasets that line 477 finds in the container. -/
def itemOf (timeAxes : List String) (t : Tree α) : Tod.Item α where
  index := fun a =>
    match (kidsOf t).lookup "index_map".toList with
    | some (.group _ m) =>
      match m.lookup a.toList with
      | some (.dset d) => some d.data
      | _ => none
    | _ => none
  dsets := (crawl timeAxes [([], visible t)]).1.map fun x => ⟨joined x.1, x.2.axes, x.2.data⟩

/-- What is in a container other than data along time: attributes, datasets, and the attributes of the group of the history. -/
structure Rest (α : Type) where
  attrs : List (Str × Nat)
  fixed : List (List Str × TDs α)
  history : List (Str × Nat)

/-- tod.py:681-701. Groups other than the root are not allowed in a container. -/
def copyRest : List (List Str × Tree α) → Rest α → Except PyErr (Rest α)
  | [], r => .ok r
  | ([], .group a _) :: l, r => copyRest l { r with attrs := a }
  | (_ :: _, .group _ _) :: _, _ => .error .valueError
  | (p, .dset d) :: l, r => copyRest l { r with fixed := r.fixed ++ [(p, d)] }

/-- tod.py:438-443: for a new container, which has an empty history. -/
def restOf (timeAxes : List String) (first : Tree α) : Except PyErr (Rest α) :=
  copyRest (crawl timeAxes [([], visible first)]).2 ⟨[], [], []⟩

/-- A reader. -/
structure Rd (α : Type) where
  files : List (Tree α)
  datasets : List String
  sel : List String
  timeSel : Int × Int

/-- tod.py:169-200: first the files are put together without datasets, which gives the number of samples; the search for datasets is in the first file, not in a container. -/
def mkReader (timeAxes : List String) (files : List (Tree α)) : Except PyErr (Rd α) :=
  match files, Tod.concatenate timeAxes (files.map (itemOf timeAxes)) (fun _ => none) (fun _ => none) (some []) with
  | _, .error e => .error (.tod e)
  | [], .ok _ => .error (.tod .indexError)
  | first :: _, .ok o =>
    match o.index "time" with
    | none => .error (.tod .keyError)
    | some l =>
      let names := (crawl timeAxes [([], first)]).1.map fun x => joined x.1
      .ok ⟨files, names, names, (0, l.length)⟩

/-- tod.py:246-252. -/
def setSel (R : Rd α) (value : List String) : Except PyErr (Rd α) :=
  if value.all (fun n => decide (n ∈ R.datasets)) then .ok { R with sel := value } else .error .valueError

/-- tod.py:288-309 `read`. -/
def read (timeAxes : List String) (R : Rd α) : Except PyErr (Tod.Out α) :=
  match Tod.concatenate timeAxes (R.files.map (itemOf timeAxes)) (fun _ => some R.timeSel.1) (fun _ => some R.timeSel.2) (some R.sel) with
  | .ok o => .ok o
  | .error e => .error (.tod e)

/-- tod.py:380-398: what is in dictionaries given as `start` and `stop` afterwards. -/
def resolved (timeAxes : List String) (items : List (Tod.Item α)) (start stop : String → Option Int) : (String → Option Int) × (String → Option Int) :=
  (fun a => if a ∈ timeAxes then some (Tod.startStop (start a) (stop a) (Tod.totalLen items a)).1 else start a,
   fun a => if a ∈ timeAxes then some (Tod.startStop (start a) (stop a) (Tod.totalLen items a)).2 else stop a)

/-! ### Times -/

/-- `np.diff`. -/
def steps : List ℚ → List ℚ
  | x :: y :: l => (y - x) :: steps (y :: l)
  | _ => []

/-- `np.median`: `nan` (`none`) if there is nothing. -/
def median (l : List ℚ) : Option ℚ :=
  if l = [] then none
  else
    let s := l.insertionSort (· ≤ ·)
    if l.length % 2 = 1 then s[l.length / 2]?
    else
      match s[l.length / 2 - 1]?, s[l.length / 2]? with
      | some x, some y => some ((x + y) / 2)
      | _, _ => none

/-- tod.py:47-71 `time`; `none` is `nan`. -/
def time (alignment : ℚ) (stamps : List ℚ) : List (Option ℚ) :=
  if alignment = 0 then stamps.map some
  else stamps.map fun t => (median (steps stamps)).map fun m => t + alignment * (|m| / 2)

end Verif.Reader
