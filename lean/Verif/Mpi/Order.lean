import Verif.Mpi.GatherProps

/-!
# C05: `gather` and the order of the elements in memory

Models `MPIArray.gather` (caput/mpiarray.py:1522-1581) with `_prep_buf` (1494-1520) for local arrays that are views of memory, and the calls without a communicator. What is
received goes into a fresh buffer, which is in row-major order.

Library knowledge: mpi4py takes the memory of an array that is contiguous, in row-major or in column-major order (`PyBUF_ANY_CONTIGUOUS`), as it is, and raises for any other array.
An array of a type that MPI does not know is first viewed as bytes (line 1517), for which the last axis has to be the contiguous one.
-/
namespace Verif.Mpi

variable {d : Nat} {α : Type}

/-- Position of an element in memory in row-major order. -/
def offC (shape i : Idx d) : Nat := (List.finRange d).foldl (fun acc k => acc * shape k + i k) 0

/-- Position of an element in memory in column-major order. -/
def offF (shape i : Idx d) : Nat := (List.finRange d).foldr (fun k acc => i k + shape k * acc) 0

/-- Where the elements of an array are in memory; `gaps` is any arrangement that is not contiguous. -/
inductive Layout (d : Nat) where
  | rowMajor
  | colMajor
  | gaps (off : Idx d → Nat)

/-- An array as a view of memory. -/
structure View (d : Nat) (α : Type) where
  shape : Idx d
  layout : Layout d
  mem : Nat → α

namespace View

/-- The position of an element. -/
def pos (A : View d α) (i : Idx d) : Nat :=
  match A.layout with
  | .rowMajor => offC A.shape i
  | .colMajor => offF A.shape i
  | .gaps off => off i

/-- The array that one sees. -/
def arr (A : View d α) : Arr d α := ⟨A.shape, fun i => A.mem (A.pos i)⟩

/-- `numpy.transpose` of an array with two axes: the same memory. -/
def transpose (A : View 2 α) : View 2 α where
  shape := fun k => A.shape (1 - k)
  layout :=
    match A.layout with
    | .rowMajor => .colMajor
    | .colMajor => .rowMajor
    | .gaps off => .gaps fun i => off fun k => i (1 - k)
  mem := A.mem

/-- `A[:, :n]` for an array with two axes in row-major order, where `n` is less than the number of columns: the same memory, with gaps. -/
def columns (A : View 2 α) (n : Nat) : View 2 α where
  shape := upd A.shape 1 n
  layout := .gaps fun i => offC A.shape i
  mem := A.mem

/-- mpiarray.py:1513-1520 and mpi4py: can the array be sent? `known`: MPI knows its type. -/
def sendable (known : Bool) (A : View d α) : Bool :=
  match A.layout with
  | .rowMajor => true
  | .colMajor => known
  | .gaps _ => false

/-- What arrives: the memory of the sender, taken for row-major order. -/
def received (A : View d α) : Arr d α := ⟨A.shape, fun i => A.mem (offC A.shape i)⟩

end View

/-- mpiarray.py:1522-1581 on process `r`. A process whose array cannot be sent raises in its own round. The root goes through the rounds in order: if it comes to its own and cannot send, it raises;
if it comes to that of another process that has raised, it waits for ever. -/
def gatherViews (gs : Idx d) (a : Fin d) (P root : Nat) (known : Bool) (loc : Nat → View d α) (selfArrived : Bool) (junk : Idx d → α) (junkB : Nat → Idx d → α) (r : Nat) :
    Outcome (Option (Arr d α)) :=
  if r = root then
    match (List.range P).find? fun q => !(loc q).sendable known with
    | some q => if q = root then .raises .valueError else .hangs
    | none =>
      match gather gs a P root (fun q => (loc q).received) selfArrived junk junkB r with
      | .ok C => .returns C
      | .error e => .raises e
  else if (loc r).sendable known then .returns none
  else .raises .valueError

/-- mpiarray.py:1583-1612: in `allgather` the local array is copied into a buffer first (line 1603), so only its elements matter. -/
def allgatherViews (gs : Idx d) (a : Fin d) (P : Nat) (loc : Nat → View d α) (junk : Idx d → α) (junkB : Nat → Idx d → α) : Except PyErr (Arr d α) :=
  allgather gs a P (fun q => (loc q).arr) junk junkB

/-- `gather` with the communicator of the array: `None` if `mpi4py` is not installed (mpitools.py:48-50); then `self.comm.rank` (line 1536) fails. `comm` is the number of processes. -/
def gatherOn (comm : Option Nat) (gs : Idx d) (a : Fin d) (root : Nat) (known : Bool) (loc : Nat → View d α) (selfArrived : Bool) (junk : Idx d → α) (junkB : Nat → Idx d → α) (r : Nat) :
    Outcome (Option (Arr d α)) :=
  match comm with
  | none => .raises .attributeError
  | some P => gatherViews gs a P root known loc selfArrived junk junkB r

/-- `allgather` with the communicator of the array; without one there is one round, and `self.comm.rank` (line 1602) fails. -/
def allgatherOn (comm : Option Nat) (gs : Idx d) (a : Fin d) (loc : Nat → View d α) (junk : Idx d → α) (junkB : Nat → Idx d → α) : Except PyErr (Arr d α) :=
  match comm with
  | none => .error .attributeError
  | some P => allgatherViews gs a P loc junk junkB

/-! ## What holds -/

/-- **C05** (memory). `allgather` gives every process the concatenation of the local arrays, however they are arranged in memory. -/
theorem C05_allgather_layout (gs : Idx d) (a : Fin d) (P : Nat) (hP : 0 < P) (loc : Nat → View d α)
    (hloc : ∀ r, r < P → (loc r).shape = upd gs a (blockLen (gs a) P r)) (junk : Idx d → α) (junkB : Nat → Idx d → α) :
    ∃ C, allgatherOn (some P) gs a loc junk junkB = .ok C ∧ IsConcat (fun q => (loc q).arr) a P C :=
  C05_allgather gs a P hP (fun q => (loc q).arr) hloc junk junkB

/-- **C05** (memory). `gather` does so if all local arrays are in row-major order, for every type of elements.

Partial: the message of the root to itself has arrived (`C05_gather_violated`), and the order (`C05_transposed_violated`, `C05_slice_violated`). -/
theorem C05_gather_layout_partial (gs : Idx d) (a : Fin d) (P : Nat) (hP : 0 < P) (root : Nat) (hroot : root < P) (known : Bool) (loc : Nat → View d α)
    (hloc : ∀ r, r < P → (loc r).shape = upd gs a (blockLen (gs a) P r)) (hrow : ∀ r, r < P → (loc r).layout = .rowMajor)
    (junk : Idx d → α) (junkB : Nat → Idx d → α) :
    (∃ C, gatherOn (some P) gs a root known loc true junk junkB root = .returns (some C) ∧ IsConcat (fun q => (loc q).arr) a P C) ∧
    ∀ r, r < P → r ≠ root → gatherOn (some P) gs a root known loc true junk junkB r = .returns none := by
  have hsend : ∀ r, r < P → (loc r).sendable known = true := by
    intro r hr; simp [View.sendable, hrow r hr]
  have hval : ∀ r, r < P → (loc r).received = (loc r).arr := by
    intro r hr
    simp only [View.received, View.arr, View.pos, hrow r hr]
  constructor
  · obtain ⟨⟨C, h1, h2⟩, _⟩ := C05_gather_partial gs a P hP (fun q => (loc q).received) hloc junk junkB root hroot
    refine ⟨C, ?_, h2.axis, h2.others, fun r hr i hi => ?_⟩
    · show gatherViews gs a P root known loc true junk junkB root = _
      unfold gatherViews
      rw [if_pos rfl, List.find?_eq_none.2 (by
        intro q hq
        rw [hsend q (List.mem_range.1 hq)]
        decide)]
      simp only [h1]
    · exact (h2.elems r hr i hi).trans (congrArg (fun A : Arr d α => A.val i) (hval r hr))
  · intro r hr hne
    show gatherViews gs a P root known loc true junk junkB r = _
    unfold gatherViews
    rw [if_neg hne, if_pos (hsend r hr)]

/-! ## Where it fails -/

/-- A transposed array is the transposed array, and if the original is in row-major order it is in column-major order. -/
theorem transpose_arr (A : View 2 α) (h : A.layout = .rowMajor) :
    A.transpose.layout = .colMajor ∧ ∀ i, A.transpose.arr.val i = A.arr.val fun k => i (1 - k) := by
  refine ⟨by simp [View.transpose, h], fun i => ?_⟩
  simp only [View.arr, View.pos, View.transpose, h]
  congr 1
  simp [offC, offF, List.finRange]
  ring

/-- If an element of a block that has been received differs from the element of that block, the result is not the concatenation. -/
theorem not_concat (gs : Idx d) (a : Fin d) (P root : Nat) (_hroot : root < P) (loc : Nat → View d α) (known : Bool)
    (hloc : ∀ r, r < P → (loc r).shape = upd gs a (blockLen (gs a) P r)) (hsend : ∀ r, r < P → (loc r).sendable known = true)
    (arrived : Bool) (junk : Idx d → α) (junkB : Nat → Idx d → α) (r : Nat) (hr : r < P) (hne : r ≠ root ∨ arrived = true)
    (i : Idx d) (hi : Inside (loc r).shape i) (hdiff : (loc r).received.val i ≠ (loc r).arr.val i) :
    ∃ C, gatherViews gs a P root known loc arrived junk junkB root = .returns (some C) ∧ ¬ IsConcat (fun q => (loc q).arr) a P C := by
  obtain ⟨C, h1, h2, h3⟩ := collect_spec gs a P (gatherBuf (fun q => (loc q).received) (fresh gs a P junkB) root arrived) (by
      intro q hq
      unfold gatherBuf
      split
      · split
        · exact hloc q hq
        · show upd gs a (num (gs a) P q) = _; rw [num_eq _ _ hq]
      · exact hloc q hq) ⟨gs, junk⟩ rfl
  refine ⟨C, ?_, fun hC => ?_⟩
  · unfold gatherViews
    rw [if_pos rfl, List.find?_eq_none.2 (by
      intro q hq
      rw [hsend q (List.mem_range.1 hq)]
      decide)]
    unfold gather
    rw [if_pos rfl, h1]
    rfl
  · have h4 := hC.elems r hr i hi
    have hsum : ((List.range r).map fun q => (loc q).arr.shape a).sum = blockStart (gs a) P r := by
      rw [← sum_blockLen]
      congr 1
      apply List.map_congr_left
      intro q hq
      show (loc q).shape a = _
      rw [hloc q (by have := List.mem_range.1 hq; omega), upd_self]
    simp only [hsum] at h4
    have hb : gatherBuf (fun q => (loc q).received) (fresh gs a P junkB) root arrived r = (loc r).received := by
      unfold gatherBuf
      rcases hne with h | h
      · rw [if_neg h]
      · rw [h]; simp
    have h5 := h3 r hr
    rw [hb] at h5
    exact hdiff ((h5 i hi).symm.trans h4)

/-- **C05 fails** for transposed arrays: `gather` succeeds, but the elements are in the wrong places. `loc r` are the local arrays before `transpose()`; if the one of some process has at least two
rows and two columns, and its elements at `(0, 1)` and `(1, 0)` differ, what is returned on the root is not the concatenation of the transposed ones. So already on a single process. -/
theorem C05_transposed_violated (gs : Idx 2) (a : Fin 2) (P root : Nat) (hroot : root < P) (loc : Nat → View 2 α)
    (hrow : ∀ r, r < P → (loc r).layout = .rowMajor)
    (hloc : ∀ r, r < P → (loc r).transpose.shape = upd gs a (blockLen (gs a) P r))
    (arrived : Bool) (r : Nat) (hr : r < P) (hne : r ≠ root ∨ arrived = true) (h0 : 2 ≤ (loc r).shape 0) (h1 : 2 ≤ (loc r).shape 1)
    (hdiff : (loc r).arr.val (fun k => if k = 0 then 0 else 1) ≠ (loc r).arr.val (fun k => if k = 0 then 1 else 0))
    (junk : Idx 2 → α) (junkB : Nat → Idx 2 → α) :
    ∃ C, gatherViews gs a P root true (fun q => (loc q).transpose) arrived junk junkB root = .returns (some C) ∧
      ¬ IsConcat (fun q => (loc q).transpose.arr) a P C := by
  refine not_concat gs a P root hroot (fun q => (loc q).transpose) true hloc (fun q hq => ?_) arrived junk junkB r hr hne (fun k => if k = 0 then 0 else 1) ?_ ?_
  · simp [View.sendable, (transpose_arr (loc q) (hrow q hq)).1]
  · intro k
    rcases (by omega : k = 0 ∨ k = 1) with rfl | rfl
    · show 0 < (loc r).shape 1; omega
    · show 1 < (loc r).shape 0; omega
  · rw [(transpose_arr (loc r) (hrow r hr)).2]
    have e1 : (loc r).transpose.received.val (fun k => if k = 0 then 0 else 1) = (loc r).arr.val (fun k => if k = 0 then 0 else 1) := by
      simp only [View.received, View.arr, View.pos, View.transpose, hrow r hr]
      congr 1
      simp [offC, List.finRange]
    rw [e1]
    have e2 : (fun k : Fin 2 => if (1 - k : Fin 2) = 0 then 0 else 1) = fun k : Fin 2 => if k = 0 then 1 else 0 := by
      funext k
      rcases (by omega : k = 0 ∨ k = 1) with rfl | rfl <;> rfl
    rw [e2]
    exact hdiff

/-- Two processes with two rows and two columns each. -/
def exViews (r : Nat) : View 2 Nat := ⟨fun _ => 2, .rowMajor, fun p => 10 * r + p⟩

example : ∃ C, gatherViews (fun k => if k = 0 then 2 else 4) 1 2 0 true (fun q => (exViews q).transpose) true (fun _ => 0) (fun _ _ => 0) 0 = .returns (some C) ∧
    ¬ IsConcat (fun q => (exViews q).transpose.arr) 1 2 C :=
  C05_transposed_violated _ 1 2 0 (by omega) exViews (fun _ _ => rfl)
    (by
      intro r hr
      funext k
      have : r = 0 ∨ r = 1 := by omega
      rcases this with rfl | rfl <;> rcases (by omega : k = 0 ∨ k = 1) with rfl | rfl <;> rfl)
    true 1 (by omega) (.inl (by decide)) (by decide) (by decide) (by decide) _ _

example : ∃ C, gatherOn (some 2) (fun k => if k = 0 then 4 else 2) 0 1 false exViews true (fun _ => 0) (fun _ _ => 0) 1 = .returns (some C) ∧
    IsConcat (fun q => (exViews q).arr) 0 2 C :=
  (C05_gather_layout_partial _ 0 2 (by omega) 1 (by omega) false exViews
    (by
      intro r hr
      funext k
      have : r = 0 ∨ r = 1 := by omega
      rcases this with rfl | rfl <;> rcases (by omega : k = 0 ∨ k = 1) with rfl | rfl <;> rfl)
    (fun _ _ => rfl) _ _).1

/-- **C05 fails** for arrays that are not contiguous, such as a slice of columns: a process with such an array raises `ValueError`, and the root raises or waits for ever, whatever the other arrays are.
The same for arrays in column-major order of a type that MPI does not know. -/
theorem C05_slice_violated (gs : Idx d) (a : Fin d) (P root : Nat) (known : Bool) (loc : Nat → View d α) (r : Nat) (hr : r < P)
    (hgaps : (∃ off, (loc r).layout = .gaps off) ∨ (known = false ∧ (loc r).layout = .colMajor))
    (arrived : Bool) (junk : Idx d → α) (junkB : Nat → Idx d → α) :
    (r ≠ root → gatherViews gs a P root known loc arrived junk junkB r = .raises .valueError) ∧
    (gatherViews gs a P root known loc arrived junk junkB root = .raises .valueError ∨ gatherViews gs a P root known loc arrived junk junkB root = .hangs) := by
  have hs : (loc r).sendable known = false := by
    rcases hgaps with ⟨off, h⟩ | ⟨h1, h2⟩
    · simp [View.sendable, h]
    · simp [View.sendable, h1, h2]
  constructor
  · intro hne
    unfold gatherViews
    rw [if_neg hne, if_neg (by simp [hs])]
  · unfold gatherViews
    rw [if_pos rfl]
    cases hf : (List.range P).find? fun q => !(loc q).sendable known with
    | none =>
      have := List.find?_eq_none.1 hf r (List.mem_range.2 hr)
      simp [hs] at this
    | some q =>
      by_cases hq : q = root
      · left; simp only [hq, if_true]
      · right; simp only [hq, if_false]

/-- The first column of the arrays above: every process raises. -/
example : ∀ r, r < 2 → gatherViews (fun k => if k = 0 then 4 else 1) 0 2 0 true (fun q => (exViews q).columns 1) true (fun _ => 0) (fun _ _ => 0) r = .raises .valueError := by
  intro r hr
  have : r = 0 ∨ r = 1 := by omega
  rcases this with rfl | rfl <;> rfl

/-- The elements of a slice are those of the array. -/
example (A : View 2 α) (h : A.layout = .rowMajor) (n : Nat) (i : Idx 2) : (A.columns n).arr.val i = A.arr.val i := by
  simp [View.columns, View.arr, View.pos, h]

/-- **C05 fails** without `mpi4py`, although the code is meant to run on one process then: both raise `AttributeError`. -/
theorem C05_serial_violated (gs : Idx d) (a : Fin d) (known : Bool) (loc : Nat → View d α) (arrived : Bool) (junk : Idx d → α) (junkB : Nat → Idx d → α) :
    gatherOn none gs a 0 known loc arrived junk junkB 0 = .raises .attributeError ∧ allgatherOn none gs a loc junk junkB = .error .attributeError :=
  ⟨rfl, rfl⟩

end Verif.Mpi
