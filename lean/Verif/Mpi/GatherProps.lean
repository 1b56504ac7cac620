import Verif.Mpi.GatherLemmas
import Verif.Mpi.RedistProps

/-!
# C05: `gather` and `allgather`; C07: `wrap`

`IsConcat loc a P C` (Spec): `C` is the concatenation of the local arrays in the order of the
processes along axis `a`. The local arrays of an `MPIArray` with global shape `gs` have the block
length along the distributed axis and the global length along the others.
-/
namespace Verif.Mpi

variable {d : Nat} {α : Type}

section
variable (gs : Idx d) (a : Fin d) (P : Nat) (hP : 0 < P) (loc : Nat → Arr d α)
  (hloc : ∀ r, r < P → (loc r).shape = upd gs a (blockLen (gs a) P r))
  (junk : Idx d → α) (junkB : Nat → Idx d → α)
include hP hloc

/-- C05. `allgather` succeeds and gives every process the concatenation of the local arrays. -/
theorem C05_allgather :
    ∃ C, allgather gs a P loc junk junkB = .ok C ∧ IsConcat loc a P C := by
  obtain ⟨C, h1, h2, h3⟩ := allgather_spec gs a P loc hloc junk junkB
  exact ⟨C, h1, isConcat_of_placed gs a P hP loc hloc C h2 h3⟩

/-- C05. `gather` gives the root the concatenation of the local arrays and the others nothing.

Partial: provided the message of the root to itself has arrived when the root copies it, which the
code does not wait for (`C05_gather_violated`). -/
theorem C05_gather_partial (root : Nat) (_hroot : root < P) :
    (∃ C, gather gs a P root loc true junk junkB root = .ok (some C) ∧ IsConcat loc a P C) ∧
    ∀ r, r ≠ root → gather gs a P root loc true junk junkB r = .ok none := by
  have hbuf : gatherBuf loc (fresh gs a P junkB) root true = loc := by
    funext ri; unfold gatherBuf; split <;> rfl
  obtain ⟨C, h1, h2, h3⟩ := collect_spec gs a P loc hloc ⟨gs, junk⟩ rfl
  refine ⟨⟨C, ?_, isConcat_of_placed gs a P hP loc hloc C h2 h3⟩, fun r hr => ?_⟩
  · unfold gather; rw [if_pos rfl, hbuf, h1]; rfl
  · unfold gather; rw [if_neg hr]

omit hP in
/-- C05. On one process as well as on many, when the message of the root has not arrived all the
other blocks are still in their places. -/
theorem C05_gather_others_partial (root : Nat) (_hroot : root < P) (arrived : Bool) :
    ∃ C, gather gs a P root loc arrived junk junkB root = .ok (some C) ∧ C.shape = gs ∧
      ∀ r, r < P → r ≠ root → ∀ i, Inside (loc r).shape i →
        C.val (upd i a (i a + blockStart (gs a) P r)) = (loc r).val i := by
  obtain ⟨C, h1, h2, h3⟩ := collect_spec gs a P
    (gatherBuf loc (fresh gs a P junkB) root arrived) (by
      intro r hr
      unfold gatherBuf
      split
      · split
        · exact hloc r hr
        · show upd gs a (num (gs a) P r) = _; rw [num_eq _ _ hr]
      · exact hloc r hr) ⟨gs, junk⟩ rfl
  refine ⟨C, ?_, h2, fun r hr hne i hi => ?_⟩
  · unfold gather; rw [if_pos rfl, h1]; rfl
  · have := h3 r hr
    unfold gatherBuf at this
    rw [if_neg hne] at this
    exact this i hi

end

/-- C05. If the local arrays are the blocks of a global array, that array is what is returned. -/
theorem C05_global (G : Arr d α) (a : Fin d) (P : Nat) (hP : 0 < P) (loc : Nat → Arr d α)
    (hloc : ∀ r, r < P → IsBlock G a P r (loc r)) (junk : Idx d → α) (junkB : Nat → Idx d → α) :
    ∃ C, allgather G.shape a P loc junk junkB = .ok C ∧ Agrees C G := by
  obtain ⟨C, h1, h2, h3⟩ := allgather_spec G.shape a P loc (fun r hr => isBlock_shape (hloc r hr)) junk junkB
  exact ⟨C, h1, agrees_of_placed G a P hP loc hloc C h2 h3⟩

/-- C05 fails for `gather`: MPI only guarantees that the message of the root to itself has arrived
once its receive has been waited for. If it has not, the block of the root is whatever was in the
fresh buffer. -/
theorem C05_gather_violated (gs : Idx d) (a : Fin d) (P root : Nat) (hroot : root < P)
    (loc : Nat → Arr d α)
    (hloc : ∀ r, r < P → (loc r).shape = upd gs a (blockLen (gs a) P r)) (junk : Idx d → α)
    (junkB : Nat → Idx d → α) (i : Idx d) (hi : Inside (loc root).shape i)
    (hjunk : junkB root i ≠ (loc root).val i) :
    ∃ C, gather gs a P root loc false junk junkB root = .ok (some C) ∧ ¬ IsConcat loc a P C := by
  obtain ⟨C, h1, h2, h3⟩ := collect_spec gs a P
    (gatherBuf loc (fresh gs a P junkB) root false) (by
      intro r hr
      unfold gatherBuf
      split
      · show upd gs a (num (gs a) P r) = _; rw [num_eq _ _ hr]
      · exact hloc r hr) ⟨gs, junk⟩ rfl
  refine ⟨C, by unfold gather; rw [if_pos rfl, h1]; rfl, fun hC => ?_⟩
  have h4 := hC.elems root hroot i hi
  have hsum : ((List.range root).map fun q => (loc q).shape a).sum = blockStart (gs a) P root := by
    rw [← sum_blockLen]
    congr 1
    apply List.map_congr_left
    intro q hq
    rw [hloc q (by have := List.mem_range.1 hq; omega), upd_self]
  rw [hsum] at h4
  have h5 := h3 root hroot
  unfold gatherBuf at h5
  rw [if_pos rfl, if_neg (by simp)] at h5
  have h6 := h5 i (by
    rw [hloc root hroot] at hi
    show Inside (upd gs a (num (gs a) P root)) i
    rw [num_eq _ _ hroot]; exact hi)
  rw [h4] at h6
  exact hjunk h6.symm

/-- The 4 × 2 array on three processes of C04. -/
example : ∃ C, allgather exG.shape 0 3 exLoc (fun _ => 5) (fun _ _ => 6) = .ok C ∧ Agrees C exG :=
  C05_global exG 0 3 (by omega) exLoc exLoc_block _ _

example : ∃ C, gather exG.shape 0 3 1 exLoc false (fun _ => 5) (fun _ _ => 6) 1 = .ok (some C) ∧
    ¬ IsConcat exLoc 0 3 C :=
  C05_gather_violated exG.shape 0 3 1 (by omega) exLoc (fun r hr => isBlock_shape (exLoc_block r hr))
    _ _ (fun _ => 0) (by intro k; revert k; decide) (by decide)

example := C05_gather_partial exG.shape 0 3 (by omega) exLoc
  (fun r hr => isBlock_shape (exLoc_block r hr)) (fun _ => 5) (fun _ _ => 6) 2 (by omega)

/-! ## C07 -/

/-- C07. With local lengths `len 0, …, len (P-1)` and their total `n`: if every process has the
length of its block of `n`, `wrap` returns on every process, with the global length `n` and the start
of its block; otherwise it raises `AxisException` on every process. -/
theorem C07_wrap (P : Nat) (len : Nat → Nat) (n : Nat) (hn : n = ((List.range P).map len).sum) :
    ((∀ r, r < P → len r = blockLen n P r) →
      ∀ r, r < P → wrap P (fun q => some (len q)) r = .returns (n, blockStart n P r)) ∧
    (¬ (∀ r, r < P → len r = blockLen n P r) →
      ∀ r, r < P → wrap P (fun q => some (len q)) r = .raises .axisException) := by
  have htot : allSum P (fun q => (some (len q)).getD 0) = n := by rw [hn]; rfl
  have hnone : ((List.range P).any fun q => (some (len q)).isNone) = false := by
    rw [List.any_eq_false]; intro q _; simp
  have hany : (allAny P fun q => (some (len q)).getD 0 != num n P q) = true ↔
      ¬ ∀ r, r < P → len r = blockLen n P r := by
    unfold allAny
    rw [List.any_eq_true]
    constructor
    · rintro ⟨q, hq, h⟩ hall
      have hq' := List.mem_range.1 hq
      rw [Option.getD_some, num_eq _ _ hq', hall q hq'] at h
      simp at h
    · intro h
      refine Classical.byContradiction fun hno => h fun r hr => ?_
      refine Classical.byContradiction fun hne => hno ⟨r, List.mem_range.2 hr, ?_⟩
      rw [Option.getD_some, num_eq _ _ hr]
      simpa using hne
  constructor
  · intro h r hr
    unfold wrap
    simp only [hnone, htot]
    rw [if_neg (by simp), if_neg (fun h2 => hany.1 h2 h), bounds_eq _ _ hr]
  · intro h r hr
    unfold wrap
    simp only [hnone, htot]
    rw [if_neg (by simp), if_pos (hany.2 h)]

/-- Lengths 2, 1, 1 are accepted and 1, 2, 1 are not. -/
example : (List.range 3).map (wrap 3 (fun r => some (if r = 0 then 2 else 1))) =
      [.returns (4, 0), .returns (4, 2), .returns (4, 3)] ∧
    (List.range 3).map (wrap 3 (fun r => some (if r = 1 then 2 else 1))) =
      [.raises .axisException, .raises .axisException, .raises .axisException] := by
  decide +kernel

/-- Outside the claim: if the axis does not exist in the array of some process, that process raises
before it takes part in the communication, and those whose array has the axis wait for ever. -/
theorem C07_missing_axis (P : Nat) (len : Nat → Option Nat) (q r n : Nat) (hq : q < P)
    (h1 : len q = none) (h2 : len r = some n) :
    wrap P len q = .raises .axisException ∧ wrap P len r = .hangs := by
  constructor
  · unfold wrap; rw [h1]
  · unfold wrap
    rw [h2]
    simp only
    rw [if_pos]
    rw [List.any_eq_true]
    exact ⟨q, List.mem_range.2 hq, by rw [h1]; rfl⟩

example : wrap 2 (fun r => if r = 0 then none else some 3) 1 = .hangs := by decide +kernel

end Verif.Mpi
