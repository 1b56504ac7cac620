import Verif.Slice.Assign
import Verif.Slice.Props

/-! # C08: assigning several values through `global_slice` -/
namespace Verif.Slice

variable {α : Type}

theorem setEach_range (vals : List α) : ∀ (l : List α) (k : Nat), k + vals.length ≤ l.length →
    setEach l ((List.range' k vals.length).zip vals) = l.take k ++ vals ++ l.drop (k + vals.length) := by
  induction vals with
  | nil => intro l k _; simp [setEach]
  | cons v vs ih =>
    intro l k h
    simp only [List.length_cons] at h
    rw [List.length_cons, List.range'_succ, List.zip_cons_cons, setEach, ih _ _ (by simp; omega)]
    rw [List.drop_set_of_lt (by omega), List.take_set, List.take_add_one]
    have : l[k]? = some (l[k]'(by omega)) := List.getElem?_eq_getElem _
    rw [this]
    simp only [Option.toList, List.append_assoc]
    rw [List.set_append_right _ _ (by simp)]
    simp [Nat.min_eq_left (by omega : k ≤ l.length)]
    omega

theorem setAll_one (v : α) (l : List α) (ps : List Nat) : setAll v l ps = setEach l (ps.map fun p => (p, v)) := by
  induction ps generalizing l with
  | nil => rfl
  | cons p ps ih => simp [setAll, setEach, ih]

/-- **C08** (assignment of several values). When all the elements selected by `start:stop` are in the block of one
process, that process stores the values in their place, in order. A process whose block ends before `start`, or begins
after `stop`, keeps its elements.

Partial: see `C08_set_values_violated` for a selection over several blocks, and `C08_set_values_edge_violated` for a block
that begins exactly at `stop`. -/
theorem C08_set_values_partial (loc : List α) (off n start stop : Nat) (vals : List α)
    (hse : start + vals.length = stop) :
    (off ≤ start → stop ≤ off + loc.length →
      globalSetList loc off n (.slc ⟨some start, some stop, none⟩) vals =
        .ok (loc.take (start - off) ++ vals ++ loc.drop (stop - off))) ∧
    (off + loc.length ≤ start ∨ stop < off →
      globalSetList loc off n (.slc ⟨some start, some stop, none⟩) vals = .ok loc) := by
  have hst : startOf off n (some (start : Int)) = start - off := by simp [startOf]
  have hsp : stopOf off n loc.length (some (stop : Int)) = stop - off := by simp [stopOf]
  unfold globalSetList resolve
  simp only
  rw [hst, hsp]
  refine ⟨fun h1 h2 => ?_, fun h => ?_⟩
  · by_cases hout : (loc.length : Int) ≤ start - off ∨ (stop : Int) - off < 0
    · rw [if_pos hout]
      have hs : start = off + loc.length := by omega
      have hv : vals = [] := List.length_eq_zero_iff.1 (by omega)
      subst hv
      simp [show start - off = loc.length by omega, show stop - off = loc.length by simp at hse; omega]
    · rw [if_neg hout]
      have e1 : max (min ((start : Int) - off) loc.length) 0 = ((start - off : Nat) : Int) := by omega
      have e2 : max (min ((stop : Int) - off) loc.length) 0 = ((stop - off : Nat) : Int) := by omega
      rw [e1, e2]
      simp only [localSetList]
      have hidx : PySlice.indices ⟨some ((start - off : Nat) : Int), some ((stop - off : Nat) : Int), none⟩ loc.length =
          .ok (((start - off : Nat) : Int), ((stop - off : Nat) : Int), 1) := by
        unfold PySlice.indices
        simp only [Option.getD_none, show ¬ (1 : Int) = 0 by decide, show ¬ (1 : Int) < 0 by decide, if_false]
        rw [if_neg (by omega), if_neg (by omega)]
        congr 2
        · omega
        · congr 1; omega
      rw [hidx]
      simp only
      have hps : (pyRange ((start - off : Nat) : Int) ((stop - off : Nat) : Int) 1).map Int.toNat =
          List.range' (start - off) vals.length := by
        apply List.ext_getElem?
        intro k
        rw [List.getElem?_map, pyRange_getElem?]
        have hl : rangeLen ((start - off : Nat) : Int) ((stop - off : Nat) : Int) 1 = vals.length := by
          unfold rangeLen; rw [if_pos (by decide)]; omega
        rw [hl]
        by_cases hk : k < vals.length
        · rw [if_pos hk, List.getElem?_range' hk]; simp; omega
        · rw [if_neg hk, List.getElem?_eq_none (by simp; omega)]; rfl
      rw [hps]
      have hmain := setEach_range vals loc (start - off) (by omega)
      rw [show start - off + vals.length = stop - off by omega] at hmain
      match vals, hmain with
      | [], hmain => simpa using hmain
      | [v], hmain => simpa [setAll_one] using hmain
      | v :: w :: r, hmain => simpa using hmain
  · rw [if_pos (by omega)]

/-- Elements 3 and 4 of six on two processes. -/
example : globalSetList [10, 11, 12] 0 6 (.slc ⟨some 4, some 6, none⟩) [7, 8] = .ok [10, 11, 12] ∧
    globalSetList [13, 14, 15] 3 6 (.slc ⟨some 4, some 6, none⟩) [7, 8] = .ok [13, 7, 8] :=
  ⟨(C08_set_values_partial [10, 11, 12] 0 6 4 6 [7, 8] rfl).2 (by simp),
    (C08_set_values_partial [13, 14, 15] 3 6 4 6 [7, 8] rfl).1 (by simp) (by simp)⟩

/-- **C08** (assignment of an array with one value). It is repeated: on each process exactly the elements whose global index
is selected are changed, also where the selection goes over several blocks. -/
theorem C08_set_repeated (loc : List α) (off n : Nat) (hL : off + loc.length ≤ n) (start stop : Option Int) (v : α) :
    ∃ loc', globalSetList loc off n (.slc ⟨start, stop, none⟩) [v] = .ok loc' ∧ loc'.length = loc.length ∧
      ∀ k, k < loc.length → loc'[k]? = if Spec.Selects n start stop 1 (off + k) then some v else loc[k]? := by
  have he : globalSetList loc off n (.slc ⟨start, stop, none⟩) [v] = globalSet loc off n (.slc ⟨start, stop, none⟩) v := by
    unfold globalSetList globalSet
    cases (resolve off n loc.length (.slc ⟨start, stop, none⟩)).1 with
    | none => rfl
    | some e =>
      cases e with
      | idx i => rfl
      | npidx i => rfl
      | slc s => rfl
  rw [he]
  exact C08_setitem loc off n hL start stop v

/-- Elements 1 to 4 of six on two processes. -/
example : globalSetList [10, 11, 12] 0 6 (.slc ⟨some 1, some 5, none⟩) [7] = .ok [10, 7, 7] ∧
    globalSetList [13, 14, 15] 3 6 (.slc ⟨some 1, some 5, none⟩) [7] = .ok [7, 7, 15] := ⟨rfl, rfl⟩

/-- **C08** (assignment, negation). Two values for the elements 1 and 2 of four on two processes: both processes raise,
for neither has two of the elements. -/
theorem C08_set_values_violated (x y z w a b : α) :
    globalSetList [x, y] 0 4 (.slc ⟨some 1, some 3, none⟩) [a, b] = .error .valueError ∧
    globalSetList [z, w] 2 4 (.slc ⟨some 1, some 3, none⟩) [a, b] = .error .valueError := by
  constructor <;> simp [globalSetList, resolve, startOf, stopOf, localSetList, PySlice.indices, pyRange, rangeLen]

/-- **C08** (assignment, negation). Two values for the elements 0 and 1 of four on two processes: process 0 has them and
stores the values, but process 1, whose block begins where the selection stops, raises `ValueError`. -/
theorem C08_set_values_edge_violated (x y z w a b : α) :
    globalSetList [x, y] 0 4 (.slc ⟨some 0, some 2, none⟩) [a, b] = .ok [a, b] ∧
    globalSetList [z, w] 2 4 (.slc ⟨some 0, some 2, none⟩) [a, b] = .error .valueError := by
  refine ⟨(C08_set_values_partial [x, y] 0 4 0 2 [a, b] rfl).1 (by simp) (by simp), ?_⟩
  simp [globalSetList, resolve, startOf, stopOf, localSetList, PySlice.indices, pyRange, rangeLen]

end Verif.Slice
