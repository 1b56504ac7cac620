import Verif.Mpi.Lemmas
import Mathlib.Tactic.Common

/-!
# C51: `parallel_rows_write_hdf5`

Models `caput/util/mpitools.py:906-962` (`lock_and_write_buffer`, `parallel_rows_write_hdf5`). Of
`allocate_hdf5_dataset` (843-903) only the result is used: the offset of the dataset in the file. The file is its
bytes. The local arrays are contiguous; `os.write` writes everything and is not interrupted. The processes come to
their writes in any order.
-/
namespace Verif.RowWrite

open Verif.Mpi (blockStart blockLen)

variable {B : Type}

/-- A local array: its shape and its bytes in row-major order. -/
structure Local (B : Type) where
  rows : Nat
  bytes : List B

/-- How a call ends. -/
inductive WRes where
  | ok
  /-- "Size doesn't match array length." -/
  | sizeError
  /-- "Something funny happened with the reading." -/
  | countError
  | typeError
  deriving DecidableEq

/-- `os.write` on a file just opened: the position is 0. -/
def writeAtStart (file : Nat → B) (bytes : List B) : Nat → B := fun p =>
  match bytes[p]? with
  | some b => b
  | none => file p

/-- mpitools.py:925-943: `lock_and_write_buffer`. The length of a `memoryview` is that of its first axis. Neither the
offset nor the size matter for what is written; `intArgs` tells whether they are integers, as `lockf` wants. -/
def lockAndWrite (file : Nat → B) (d : Local B) (intArgs : Bool) (size : Nat) : WRes × (Nat → B) :=
  if d.rows > size then (.sizeError, file)
  else if !intArgs then (.typeError, file)
  else (if d.bytes.length ≠ d.rows then .countError else .ok, writeAtStart file d.bytes)

/-- `np.prod(shape[1:])`. -/
def innerCount (inner : List Nat) : Nat := inner.foldl (· * ·) 1

/-- mpitools.py:954-962: one process. `lr` is its number of rows; `inner` is `shape[1:]`, whose product is a float
if there are no axes left. -/
def rowsWrite (file : Nat → B) (lr : Nat) (inner : List Nat) (d : Local B) : WRes × (Nat → B) :=
  lockAndWrite file d (!inner.isEmpty) (lr * innerCount inner)

/-- The processes of `order`, one after the other: how each call ends, and the file. -/
def runAll (n P : Nat) (inner : List Nat) (data : Nat → Local B) :
    (Nat → B) → List Nat → List WRes × (Nat → B)
  | file, [] => ([], file)
  | file, r :: rs =>
    ((rowsWrite file (blockLen n P r) inner (data r)).1 ::
        (runAll n P inner data (rowsWrite file (blockLen n P r) inner (data r)).2 rs).1,
      (runAll n P inner data (rowsWrite file (blockLen n P r) inner (data r)).2 rs).2)

/-! ## Specification -/

/-- The number of bytes in a row. -/
def rowBytes (inner : List Nat) (itemsize : Nat) : Nat := innerCount inner * itemsize

/-- Each process has its block of the rows. -/
def Blocks (n P : Nat) (inner : List Nat) (itemsize : Nat) (data : Nat → Local B) : Prop :=
  ∀ r < P, (data r).rows = blockLen n P r ∧ (data r).bytes.length = blockLen n P r * rowBytes inner itemsize

/-- The dataset at `offset` is the blocks of the processes in rank order. -/
def Written (n P : Nat) (inner : List Nat) (itemsize : Nat) (data : Nat → Local B) (offset : Nat)
    (file : Nat → B) : Prop :=
  ∀ r < P, ∀ j < (data r).bytes.length,
    (data r).bytes[j]? = some (file (offset + blockStart n P r * rowBytes inner itemsize + j))

/-! ## The property -/

theorem rowsWrite_far (file : Nat → B) (lr : Nat) (inner : List Nat) (d : Local B) (p : Nat)
    (h : d.bytes.length ≤ p) : (rowsWrite file lr inner d).2 p = file p := by
  unfold rowsWrite lockAndWrite
  split
  · rfl
  · split
    · rfl
    · simp [writeAtStart, List.getElem?_eq_none h]

/-- C51. An array without rows. -/
theorem C51_empty_partial (P : Nat) (inner : List Nat) (itemsize : Nat) (hi : inner ≠ []) (data : Nat → Local B)
    (hb : Blocks 0 P inner itemsize data) (offset : Nat) (file : Nat → B) (order : List Nat)
    (ho : ∀ r ∈ order, r < P) :
    Written 0 P inner itemsize data offset (runAll 0 P inner data file order).2 ∧
      (runAll 0 P inner data file order).2 = file ∧ ∀ x ∈ (runAll 0 P inner data file order).1, x = .ok := by
  have hz : ∀ r, blockLen 0 P r = 0 := by intro r; simp [blockLen]
  constructor
  · intro r hr j hj
    rw [(hb r hr).2, hz] at hj
    simp at hj
  · induction order with
    | nil => simp [runAll]
    | cons r rs ih =>
      have hr := hb r (ho r (List.mem_cons_self ..))
      rw [hz, Nat.zero_mul] at hr
      have hbytes : (data r).bytes = [] := List.length_eq_zero_iff.1 hr.2
      have hie : inner.isEmpty = false := by cases inner <;> simp_all
      have hw : rowsWrite file (blockLen 0 P r) inner (data r) = (.ok, file) := by
        unfold rowsWrite lockAndWrite writeAtStart
        simp [hr.1, hbytes, hie]
      obtain ⟨h1, h2⟩ := ih (fun x hx => ho x (List.mem_cons_of_mem _ hx))
      simp only [runAll, hw]
      refine ⟨h1, ?_⟩
      intro x hx
      rcases List.mem_cons.1 hx with rfl | hx
      · rfl
      · exact h2 x hx

/-- C51 fails: the dataset is never written. Unless a block is so large that it reaches from the start of the file
into the dataset, the bytes of the dataset are afterwards what they were before, whatever the processes hold. -/
theorem C51_not_written_violated (n P : Nat) (inner : List Nat) (data : Nat → Local B) (offset : Nat)
    (hoff : ∀ r < P, (data r).bytes.length ≤ offset) (file : Nat → B) (order : List Nat)
    (ho : ∀ r ∈ order, r < P) (k : Nat) :
    (runAll n P inner data file order).2 (offset + k) = file (offset + k) := by
  induction order generalizing file with
  | nil => rfl
  | cons r rs ih =>
    simp only [runAll]
    rw [ih _ (fun x hx => ho x (List.mem_cons_of_mem _ hx)), rowsWrite_far]
    have := hoff r (ho r (List.mem_cons_self ..))
    omega

/-- C51 fails: so a dataset whose bytes were not already the data does not hold them. -/
theorem C51_rows_violated (n P : Nat) (inner : List Nat) (itemsize : Nat) (data : Nat → Local B) (offset : Nat)
    (hoff : ∀ r < P, (data r).bytes.length ≤ offset) (file : Nat → B) (order : List Nat)
    (ho : ∀ r ∈ order, r < P) (hne : ¬ Written n P inner itemsize data offset file) :
    ¬ Written n P inner itemsize data offset (runAll n P inner data file order).2 := by
  intro hw
  apply hne
  intro r hr j hj
  have := hw r hr j hj
  rw [Nat.add_assoc, C51_not_written_violated n P inner data offset hoff file order ho, ← Nat.add_assoc] at this
  exact this

/-- C51 fails: instead the last process that writes overwrites the start of the file. -/
theorem C51_start_violated (n P : Nat) (inner : List Nat) (hi : inner ≠ []) (hpos : 0 < innerCount inner)
    (data : Nat → Local B) (itemsize : Nat) (hb : Blocks n P inner itemsize data) (file : Nat → B) (r : Nat)
    (hr : r < P) (order : List Nat) (j : Nat) (hj : j < (data r).bytes.length) :
    some ((runAll n P inner data file (order ++ [r])).2 j) = (data r).bytes[j]? := by
  induction order generalizing file with
  | nil =>
    have hie : inner.isEmpty = false := by cases inner <;> simp_all
    have hle : ¬ (data r).rows > blockLen n P r * innerCount inner := by
      rw [(hb r hr).1]
      have := Nat.le_mul_of_pos_right (blockLen n P r) hpos
      omega
    simp only [List.nil_append, runAll, rowsWrite, lockAndWrite, if_neg hle, hie]
    simp [writeAtStart, List.getElem?_eq_getElem hj]
  | cons q qs ih =>
    simp only [List.cons_append, runAll]
    exact ih _

/-- C51 fails: a process with rows of more than one byte always raises, after having written. -/
theorem C51_raises_violated (n P : Nat) (inner : List Nat) (itemsize : Nat) (data : Nat → Local B)
    (hb : Blocks n P inner itemsize data) (r : Nat) (hr : r < P) (hrow : 0 < blockLen n P r)
    (hbytes : rowBytes inner itemsize ≠ 1) (file : Nat → B) :
    (rowsWrite file (blockLen n P r) inner (data r)).1 ≠ .ok := by
  obtain ⟨h1, h2⟩ := hb r hr
  have hne : (data r).bytes.length ≠ (data r).rows := by
    rw [h1, h2]
    intro h
    apply hbytes
    exact Nat.eq_of_mul_eq_mul_left hrow (by rw [h, Nat.mul_one])
  unfold rowsWrite lockAndWrite
  split
  · simp
  · split
    · simp
    · simp

/-- C51 fails: with a one-dimensional array every call raises a `TypeError`. -/
theorem C51_vector_violated (n P r : Nat) (d : Local B) (hd : d.rows = blockLen n P r) (file : Nat → B) :
    rowsWrite file (blockLen n P r) [] d = (.typeError, file) := by
  simp [rowsWrite, lockAndWrite, innerCount, hd]

/-- Two processes with two rows each of one byte, a dataset at offset 4. -/
example : (List.range 8).map (runAll 4 2 [1] (fun r => ⟨2, [10 * r + 1, 10 * r + 2]⟩) (fun _ => 0) [0, 1]).2 =
    [11, 12, 0, 0, 0, 0, 0, 0] := by decide +kernel

example : Blocks 4 2 [1] 1 (fun r => (⟨2, [10 * r + 1, 10 * r + 2]⟩ : Local Nat)) := by
  intro r hr
  have : r = 0 ∨ r = 1 := by omega
  rcases this with rfl | rfl <;> exact ⟨rfl, rfl⟩

end Verif.RowWrite
