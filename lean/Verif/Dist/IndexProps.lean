import Verif.Dist.IndexLemmas
import Verif.Dist.UfuncProps

/-!
# C63: indexing a distributed array
-/
namespace Verif.Dist

open Verif.Mpi (blockStart blockLen)
open Verif.Reshape (InShape)

variable {α : Type}

/-- C63. If the entry for the distributed axis is `:` (written or implied), indexing gives every process
its block of the indexed global array, distributed over the axis of the result that the distributed
axis became. The other entries are arbitrary integers, slices, new axes, `...` and at most one list
(without integers then). The array, the index and the process are arbitrary. -/
theorem C63_getitem_partial (G : NArr α) (a : Nat) (c : Comm) (A : MArr α) (hA : IsBlock G a c A)
    (sel es : List Idx) (h : SpelledOut sel G.shape.length es) (hs : simple es = true) (b : Nat)
    (he : EntryAt es a .full b) (R : NArr α) (hR : npGetitem G sel = .ok R) :
    ∃ B, getitem A sel = .ok (.mpi B) ∧ IsBlock R b c B := by
  have hlt := hA.lt
  obtain ⟨B, h1, h2, h3, h4⟩ := (npGetitem_block G a c A hA sel es h hs b he).1 R hR
  have hb : b < R.shape.length := by
    rw [List.getElem?_eq_getElem hlt] at h2
    exact (List.getElem?_eq_some_iff.1 h2).1
  have hN : R.shape.getD b 0 = G.shape.getD a 0 := by
    rw [List.getD_eq_getElem?_getD, h2, ← List.getD_eq_getElem?_getD]
  obtain ⟨C, h5, h6⟩ := viewFrom_block R b c B hb hA.rank (by rw [hN]; exact h3) (by rw [hN]; exact h4)
  rw [hN] at h5
  have hBl : B.shape.length = R.shape.length := by rw [h3]; simp
  refine ⟨C, ?_, h6⟩
  rw [getitem_eq G a c A hA sel es h _ b he, if_neg (by simp), h1]
  simp only [bind, Except.bind]
  by_cases hba : b = a
  · subst hba
    rw [if_pos rfl]
    have h7 : finalize A B.shape B = .ok C := by
      rw [← h5]
      unfold finalize
      obtain ⟨e1, -, -⟩ := block_get hA
      rw [hA.axis, e1]
      simp only [bind, Except.bind]
      rw [hA.comm, localStart_eq _ _ hA.rank]
      rfl
    rw [h7]
    rfl
  · rw [if_neg hba, if_neg (by intro h; rw [h] at hBl; simp at hBl; omega), h5]
    rfl

/-- C63: such an index is refused exactly when `numpy` refuses it for the global array. -/
theorem C63_accepts (G : NArr α) (a : Nat) (c : Comm) (A : MArr α) (hA : IsBlock G a c A)
    (sel es : List Idx) (h : SpelledOut sel G.shape.length es) (hs : simple es = true) (b : Nat)
    (he : EntryAt es a .full b) :
    (∃ x, getitem A sel = .ok x) ↔ ∃ R, npGetitem G sel = .ok R := by
  constructor
  · rintro ⟨x, hx⟩
    rw [getitem_eq G a c A hA sel es h _ b he, if_neg (by simp)] at hx
    cases h1 : npGetitem A.arr es with
    | error e => rw [h1] at hx; simp only [bind, Except.bind] at hx; split at hx <;> simp at hx
    | ok B => exact (npGetitem_block G a c A hA sel es h hs b he).2 B h1
  · rintro ⟨R, hR⟩
    obtain ⟨B, h1, -⟩ := C63_getitem_partial G a c A hA sel es h hs b he R hR
    exact ⟨_, h1⟩

/-- C63: an index that cannot be spelled out for the axes of the array (several `...`, or too many
entries) raises `IndexError`. -/
theorem C63_malformed (A : MArr α) (sel : List Idx) (h : ¬ ∃ es, SpelledOut sel A.arr.shape.length es) :
    getitem A sel = .error .indexError := by
  unfold getitem
  rw [sanitize_eq]
  cases h1 : npExpand sel A.arr.shape.length with
  | error e => rfl
  | ok es => exact absurd ⟨es, (npExpand_iff _ _ _).1 h1⟩ h

/-- C63: with any other entry for the distributed axis (except a slice from 0 to the local length, see
below) the result is a plain array: the local array indexed. -/
theorem C63_local (G : NArr α) (a : Nat) (c : Comm) (A : MArr α) (hA : IsBlock G a c A)
    (sel es : List Idx) (h : SpelledOut sel G.shape.length es) (e : Idx) (b : Nat) (he : EntryAt es a e b)
    (h1 : e ≠ .full) (h2 : e ≠ .sl (some 0) (some (blockLen (G.shape.getD a 0) c.size c.rank : Int)) none) :
    getitem A sel = (npGetitem A.arr sel).map .plain := by
  have hAl : A.arr.shape.length = G.shape.length := by rw [hA.shape]; simp
  rw [getitem_eq G a c A hA sel es h e b he, if_pos ⟨h1, h2⟩]
  unfold npGetitem
  rw [hAl, npExpand_self es _ h.1 h.2.1, (npExpand_iff _ _ _).2 h]

/-- A global (2, 5, 3) array whose elements are their own indices, distributed over axis 1. -/
def ex253 : NArr (List Nat) := ⟨[2, 5, 3], id⟩

/-- The part of `ex253` on process 0 of 2. -/
def ex253part : MArr (List Nat) :=
  { arr := ⟨[2, 3, 3], fun i => i.modify 1 (· + 0)⟩, gshape := [2, 5, 3], axis := 1, lshape := [2, 3, 3],
    loff := [0, 0, 0], comm := ⟨7, 2, 0⟩ }

theorem ex253_block : IsBlock ex253 1 ⟨7, 2, 0⟩ ex253part :=
  ⟨by decide, by decide, rfl, rfl, rfl, rfl, rfl, rfl, fun _ _ => rfl⟩

/-- `a[np.newaxis, -1, ..., ::2]`: the distributed axis stays axis 1, because one was added and one
removed; the result has global shape (1, 5, 2). -/
example : ∃ B, getitem ex253part [.newaxis, .int (-1), .ellipsis, .sl none none (some 2)] = .ok (.mpi B) ∧
    B.axis = 1 ∧ B.gshape = [1, 5, 2] ∧ B.arr.shape = [1, 3, 2] ∧ B.arr.val [0, 2, 1] = [1, 2, 2] :=
  ⟨_, rfl, rfl, rfl, rfl, rfl⟩

/-- `a[0]`: the distributed axis becomes axis 0. -/
example : ∃ B, getitem ex253part [.int 0] = .ok (.mpi B) ∧ B.axis = 0 ∧ B.gshape = [5, 3] :=
  ⟨_, rfl, rfl, rfl⟩

/-- The hypotheses hold for the first of these. -/
example : SpelledOut [.newaxis, .int (-1), .ellipsis, .sl none none (some 2)] 3
      [.newaxis, .int (-1), .full, .sl none none (some 2)] ∧
    EntryAt [.newaxis, .int (-1), .full, .sl none none (some 2)] 1 .full 1 ∧
    simple [.newaxis, .int (-1), .full, .sl none none (some 2)] = true :=
  ⟨⟨by decide, rfl, [.newaxis, .int (-1)], [.sl none none (some 2)], 1, rfl, .inl rfl⟩,
    ⟨[.newaxis, .int (-1)], [.sl none none (some 2)], rfl, by decide, rfl, rfl⟩, rfl⟩

/-- The hypothesis of `C63_malformed` holds for two `...`. -/
example : getitem ex253part [.ellipsis, .ellipsis] = .error .indexError := rfl

/-- An integer for the distributed axis gives the local element. -/
example : ∃ R, getitem ex253part [.int 1, .int (-1)] = .ok (.plain R) ∧ R.shape = [3] ∧
    R.val [0] = [1, 2, 0] := ⟨_, rfl, rfl, rfl⟩

/-- C63 fails for the slice from 0 to the local length of a process: of the first three of five elements
process 0, which holds three, returns an array that says it is distributed with five elements, while
process 1, which holds two, returns a plain array of its own. -/
theorem C63_prefix_violated : (∃ R, npGetitem col5 [.sl (some 0) (some 3) none] = .ok R ∧ R.shape = [3]) ∧
    (∃ B, getitem (col5part 0) [.sl (some 0) (some 3) none] = .ok (.mpi B) ∧ B.gshape = [5]) ∧
    (∃ R, getitem (col5part 1) [.sl (some 0) (some 3) none] = .ok (.plain R) ∧ R.shape = [2]) :=
  ⟨⟨_, rfl, rfl⟩, ⟨_, rfl, rfl⟩, ⟨_, rfl, rfl⟩⟩

/-- C63 fails for a list and an integer on both sides of the distributed axis, as in `a[0, :, [0, 1]]`:
`numpy` puts the axis of the list in front, so the global result has shape (2, 5) and is distributed over
axis 1, but the array returned says that it is distributed over axis 0 with shape (5, 3). -/
theorem C63_list_violated : ∃ R B,
    npGetitem ex253 [.int 0, .full, .list [0, 1]] = .ok R ∧ R.shape = [2, 5] ∧ R.val [1, 4] = [0, 4, 1] ∧
    getitem ex253part [.int 0, .full, .list [0, 1]] = .ok (.mpi B) ∧ B.axis = 0 ∧ B.gshape = [5, 3] ∧
    B.arr.shape = [2, 3] ∧ ∀ b, ¬ IsBlock R b ⟨7, 2, 0⟩ B := by
  refine ⟨_, _, rfl, rfl, rfl, rfl, rfl, rfl, rfl, fun b h => ?_⟩
  have h1 := h.gshape
  revert h1
  decide

/-- A global (2, 2, 5) array distributed over its last axis, on process 0 of 2. -/
def ex225part : MArr (List Nat) :=
  { arr := ⟨[2, 2, 3], id⟩, gshape := [2, 2, 5], axis := 2, lshape := [2, 2, 3], loff := [0, 0, 0],
    comm := ⟨7, 2, 0⟩ }

/-- C63 fails for two lists before the distributed axis, which `numpy` combines into one axis: the call
raises `IndexError`. -/
theorem C63_two_lists_violated :
    (∃ R, npGetitem (⟨[2, 2, 5], id⟩ : NArr (List Nat)) [.list [0, 1], .list [0, 1]] = .ok R ∧ R.shape = [2, 5]) ∧
    IsBlock (⟨[2, 2, 5], id⟩ : NArr (List Nat)) 2 ⟨7, 2, 0⟩ ex225part ∧
    getitem ex225part [.list [0, 1], .list [0, 1]] = .error .indexError := by
  refine ⟨⟨_, rfl, rfl⟩, ⟨by decide, by decide, rfl, rfl, rfl, rfl, rfl, rfl, ?_⟩, rfl⟩
  intro i hi
  have : blockStart ((([2, 2, 5] : List Nat)).getD 2 0) 2 0 = 0 := by decide
  simp only [this, ex225part, id, Nat.add_zero]
  exact (List.modify_id _ _).symm

/-- C63 fails for `::1`, which selects everything like `:`: the result is a plain array. -/
theorem C63_step_one_violated :
    (∃ R, npGetitem col5 [.sl none none (some 1)] = .ok R ∧ R.shape = [5]) ∧
    (∃ R, getitem (col5part 0) [.sl none none (some 1)] = .ok (.plain R) ∧ R.shape = [3]) :=
  ⟨⟨_, rfl, rfl⟩, ⟨_, rfl, rfl⟩⟩

end Verif.Dist
