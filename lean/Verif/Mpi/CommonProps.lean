import Verif.Mpi.Common
import Verif.Mpi.GatherProps

/-! # C34: converting between common and distributed datasets -/
namespace Verif.Mpi

variable {d : Nat} {α : Type}

/-- C34. Converting a common dataset into one distributed over its first axis (given by its positive
or negative number) gives every process its block.

Partial: for other axes see `C34_axis_violated` and `C34_axis_raises_violated`. -/
theorem C34_common_to_distributed_partial (G : Arr d α) (axis : Int) (a : Fin d)
    (haxis : axisOf d axis = some a) (ha : a.val = 0) (P r : Nat) (hr : r < P) (junk : Idx d → α) :
    ∃ A, commonToDist G axis P r junk = .ok A ∧ IsBlock G a P r A := by
  have hfirst : (⟨0, Nat.lt_of_le_of_lt (Nat.zero_le _) a.isLt⟩ : Fin d) = a := Fin.ext ha.symm
  have hle := block_le (G.shape a) P hr
  have hVs : (G.slice (upd G.full a (bounds (G.shape a) P r))).shape
      = upd G.shape a (num (G.shape a) P r) := by
    funext k
    show min (upd G.full a (bounds (G.shape a) P r) k).2 (G.shape k)
      - min (upd G.full a (bounds (G.shape a) P r) k).1 (G.shape k) = _
    by_cases h : k = a
    · subst h; rw [upd_self, upd_self, num_eq _ _ hr, bounds_eq _ _ hr]; simp only; omega
    · rw [upd_ne _ _ _ h, upd_ne _ _ _ h]; simp [Arr.full]
  have hp := put_full (⟨upd G.shape a (num (G.shape a) P r), junk⟩ : Arr d α)
    (G.slice (upd G.full a (bounds (G.shape a) P r))) hVs
  refine ⟨_, by unfold commonToDist; rw [haxis]; simp only; rw [hfirst]; exact hp.1, ?_⟩
  have hs := hp.2.1
  constructor
  · rw [hs, hVs, upd_self, num_eq _ _ hr]
  · intro k hk; rw [hs, hVs, upd_ne _ _ _ hk]
  · intro i hi
    rw [hp.2.2 i hi]
    show G.val _ = _
    congr 1
    funext k
    by_cases h : k = a
    · subst h; rw [upd_self, upd_self, bounds_eq _ _ hr]; simp only; omega
    · rw [upd_ne _ _ _ h, upd_ne _ _ _ h]; simp [Arr.full]

/-- C34. Converting a distributed dataset into a common one gives every process the global array, in
whatever order the parts arrive.

Partial: on one process the conversion always raises (`C34_one_process_violated`). -/
theorem C34_distributed_to_common_partial (G : Arr d α) (a : Fin d) (P : Nat) (hP : 2 ≤ P)
    (loc : Nat → Arr d α) (hloc : ∀ r, r < P → IsBlock G a P r (loc r)) (zero : α)
    (order : List Nat) (horder : ∀ r, r ∈ order ↔ r < P) :
    ∃ C, distToCommon G.shape a P loc zero order = .ok C ∧ Agrees C G := by
  have hsl : ∀ r, r < P → subarray G.shape a P loc r = axisSl G.shape a (bounds (G.shape a) P r) := by
    intro r hr
    funext k
    unfold subarray axisSl
    by_cases h : k = a
    · subst h; rw [upd_self, upd_self, (hloc r hr).axis, bounds_eq _ _ hr]
    · rw [upd_ne _ _ _ h, upd_ne _ _ _ h, (hloc r hr).others k h]; simp
  obtain ⟨C, h1, h2, h3⟩ := collect_list G.shape a P loc (fun r hr => isBlock_shape (hloc r hr))
    (order.filter fun r => nonEmpty (loc r))
    (fun r hr => (horder r).1 (List.mem_filter.1 hr).1) ⟨G.shape, fun _ => zero⟩ rfl
    (fun _ => False) (fun r hr => hr.elim)
  refine ⟨C, ?_, agrees_of_placed G a P (by omega) loc hloc C h2 fun r hr => ?_⟩
  · unfold distToCommon
    rw [if_neg (by omega), ← h1]
    apply foldlM_congr
    intro r hr y
    rw [hsl r ((horder r).1 (List.mem_filter.1 hr).1)]
  · by_cases hne : nonEmpty (loc r) = true
    · exact h3 r (.inr (List.mem_filter.2 ⟨(horder r).2 hr, hne⟩))
    · intro i hi
      refine absurd ?_ hne
      unfold nonEmpty
      rw [decide_eq_true_iff]
      intro k
      have := hi k
      omega

/-- C34. Distributing over the first axis and converting back gives the original dataset. -/
theorem C34_round_trip_partial (G : Arr d α) (axis : Int) (a : Fin d)
    (haxis : axisOf d axis = some a) (ha : a.val = 0) (P : Nat) (hP : 2 ≤ P)
    (junk : Nat → Idx d → α) (zero : α) (order : List Nat) (horder : ∀ r, r ∈ order ↔ r < P)
    (loc : Nat → Arr d α) (hloc : ∀ r, r < P → commonToDist G axis P r (junk r) = .ok (loc r)) :
    ∃ C, distToCommon G.shape a P loc zero order = .ok C ∧ Agrees C G := by
  refine C34_distributed_to_common_partial G a P hP loc (fun r hr => ?_) zero order horder
  obtain ⟨A, h1, h2⟩ := C34_common_to_distributed_partial G axis a haxis ha P r hr (junk r)
  rw [hloc r hr] at h1
  cases h1
  exact h2

example (r : Nat) (hr : r < 3) := C34_common_to_distributed_partial exG (-2) 0 (by decide) rfl 3 r hr
  (fun _ => 9)

example : ∃ C, distToCommon exG.shape 0 3 exLoc 0 [2, 0, 1] = .ok C ∧ Agrees C exG :=
  C34_distributed_to_common_partial exG 0 3 (by omega) exLoc exLoc_block 0 _ (by intro r; simp; omega)

/-! ## Where it fails -/

/-- C34 fails for axes other than the first, silently: a 3 × 1 dataset distributed over its second
axis on one process gets its first row repeated. -/
theorem C34_axis_violated : ∃ (G A : Arr 2 Nat), G.shape 0 = 3 ∧ G.shape 1 = 1 ∧
    commonToDist G 1 1 0 (fun _ => 9) = .ok A ∧
    (List.range 3).map (fun x => G.val fun k => if k = 0 then x else 0) = [10, 20, 30] ∧
    (List.range 3).map (fun x => A.val fun k => if k = 0 then x else 0) = [10, 10, 10] ∧
    ¬ IsBlock G 1 1 0 A := by
  let G : Arr 2 Nat := ⟨fun k => if k = 0 then 3 else 1, fun i => 10 * (i 0 + 1)⟩
  let md : Arr 2 Nat := ⟨upd G.shape 1 (num (G.shape 1) 1 0), fun _ => 9⟩
  let A := md.put md.full (G.slice (upd G.full 0 (bounds (G.shape 1) 1 0)))
  have hA : commonToDist G 1 1 0 (fun _ => 9) = .ok A := by
    have hax : axisOf 2 1 = some 1 := by decide
    unfold commonToDist
    rw [hax]
    show Arr.assign md md.full (G.slice (upd G.full 0 (bounds (G.shape 1) 1 0))) = _
    unfold Arr.assign
    rw [if_pos (by decide +kernel)]
  refine ⟨G, A, rfl, rfl, hA, by decide +kernel, by decide +kernel, fun h => ?_⟩
  have h1 := h.elems (fun k => if k = 0 then 2 else 0) (by intro k; revert k; decide +kernel)
  have h2 : A.val (fun k => if k = 0 then 2 else 0) = 10 := by decide +kernel
  rw [h2] at h1
  revert h1
  decide +kernel

/-- C34 fails for axes other than the first: a 3 × 2 dataset cannot be distributed over its second
axis, on one process or on two. -/
theorem C34_axis_raises_violated (val junk : Idx 2 → α) :
    commonToDist ⟨fun k => if k = 0 then 3 else 2, val⟩ 1 1 0 junk = .error .valueError ∧
    commonToDist ⟨fun k => if k = 0 then 3 else 2, val⟩ 1 2 0 junk = .error .valueError ∧
    commonToDist ⟨fun k => if k = 0 then 3 else 2, val⟩ 1 2 1 junk = .error .valueError := by
  have hax : axisOf 2 1 = some 1 := by decide
  refine ⟨?_, ?_, ?_⟩
  all_goals
    unfold commonToDist
    rw [hax]
    simp only [Arr.assign]
    rw [if_neg]
  · show ¬ Arr.fitsIn (Arr.slice (⟨fun k => if k = 0 then 3 else 2, fun _ => 0⟩ : Arr 2 Nat)
      (upd (Arr.full ⟨fun k => if k = 0 then 3 else 2, fun _ => 0⟩) 0 (bounds 2 1 0))).shape
      (Arr.slice (⟨upd (fun k => if k = 0 then 3 else 2) 1 (num 2 1 0), fun _ => 0⟩ : Arr 2 Nat)
        (Arr.full ⟨upd (fun k => if k = 0 then 3 else 2) 1 (num 2 1 0), fun _ => 0⟩)).shape
    decide +kernel
  · show ¬ Arr.fitsIn (Arr.slice (⟨fun k => if k = 0 then 3 else 2, fun _ => 0⟩ : Arr 2 Nat)
      (upd (Arr.full ⟨fun k => if k = 0 then 3 else 2, fun _ => 0⟩) 0 (bounds 2 2 0))).shape
      (Arr.slice (⟨upd (fun k => if k = 0 then 3 else 2) 1 (num 2 2 0), fun _ => 0⟩ : Arr 2 Nat)
        (Arr.full ⟨upd (fun k => if k = 0 then 3 else 2) 1 (num 2 2 0), fun _ => 0⟩)).shape
    decide +kernel
  · show ¬ Arr.fitsIn (Arr.slice (⟨fun k => if k = 0 then 3 else 2, fun _ => 0⟩ : Arr 2 Nat)
      (upd (Arr.full ⟨fun k => if k = 0 then 3 else 2, fun _ => 0⟩) 0 (bounds 2 2 1))).shape
      (Arr.slice (⟨upd (fun k => if k = 0 then 3 else 2) 1 (num 2 2 1), fun _ => 0⟩ : Arr 2 Nat)
        (Arr.full ⟨upd (fun k => if k = 0 then 3 else 2) 1 (num 2 2 1), fun _ => 0⟩)).shape
    decide +kernel

/-- C34 fails on one process: converting a distributed dataset into a common one always raises. -/
theorem C34_one_process_violated (gs : Idx d) (a : Fin d) (loc : Nat → Arr d α) (zero : α)
    (order : List Nat) : distToCommon gs a 1 loc zero order = .error .indexError := by
  unfold distToCommon; rw [if_pos rfl]

end Verif.Mpi
