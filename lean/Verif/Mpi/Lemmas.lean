import Verif.Mpi.Model
import Verif.Mpi.Spec
import Verif.Split.Lemmas

/-! # Lemmas on blocks and slice assignment -/
namespace Verif.Mpi

theorem upd_self {ι β : Type} [DecidableEq ι] (f : ι → β) (k : ι) (v : β) : upd f k v k = v := by
  simp [upd]

theorem upd_ne {ι β : Type} [DecidableEq ι] (f : ι → β) (k : ι) (v : β) {j : ι} (h : j ≠ k) :
    upd f k v j = f j := by simp [upd, h]

/-! ### Blocks -/

theorem blockStart_eq (n P r : Nat) : blockStart n P r = Split.blk n P r := rfl

theorem blockStart_succ (n P r : Nat) : blockStart n P (r + 1) = blockStart n P r + blockLen n P r := by
  rw [blockStart_eq, blockStart_eq, Split.blk_succ]; rfl

theorem blockStart_zero (n P : Nat) : blockStart n P 0 = 0 := Split.blk_zero n P

theorem blockStart_last (n P : Nat) (h : 0 < P) : blockStart n P P = n := Split.blk_last n P h

theorem blockStart_mono (n P : Nat) {i j : Nat} (h : i ≤ j) : blockStart n P i ≤ blockStart n P j :=
  Split.blk_mono n P h

theorem block_le (n P : Nat) {r : Nat} (h : r < P) : blockStart n P r + blockLen n P r ≤ n := by
  rw [← blockStart_succ]; exact Split.blk_le n P h (by omega)

theorem bounds_eq (n P : Nat) {r : Nat} (h : r < P) :
    bounds n P r = (blockStart n P r, blockStart n P r + blockLen n P r) := by
  unfold bounds
  rw [Split.splitLocal_ok n P r h]
  show (Split.blk n P r, Split.blk n P (r + 1)) = _
  rw [← blockStart_eq, ← blockStart_eq, blockStart_succ]

theorem num_eq (n P : Nat) {r : Nat} (h : r < P) : num n P r = blockLen n P r := by
  unfold num; rw [bounds_eq n P h]; simp

theorem foldl_max_ge (l : List Nat) (b : Nat) : b ≤ l.foldl max b ∧ ∀ x ∈ l, x ≤ l.foldl max b := by
  induction l generalizing b with
  | nil => simp
  | cons y ys ih =>
    have h := ih (max b y)
    simp only [List.foldl_cons, List.mem_cons, forall_eq_or_imp]
    refine ⟨by omega, by omega, h.2⟩

theorem num_le_max (n P : Nat) {r : Nat} (h : r < P) : blockLen n P r ≤ maxNum n P := by
  rw [← num_eq n P h]
  exact (foldl_max_ge _ 0).2 _ (List.mem_map_of_mem (List.mem_range.2 h))

theorem block_owner (n P : Nat) (hP : 0 < P) (g : Nat) (hg : g < n) :
    ∃ r, r < P ∧ blockStart n P r ≤ g ∧ g < blockStart n P r + blockLen n P r := by
  obtain ⟨r, h1, h2, h3⟩ := Split.blk_owner n P hP g hg
  refine ⟨r, h1, h2, ?_⟩
  rwa [← blockStart_succ]

theorem sum_blockLen (n P r : Nat) :
    ((List.range r).map (blockLen n P)).sum = blockStart n P r := by
  induction r with
  | zero => simp [blockStart_zero]
  | succ r ih => rw [List.range_succ, List.map_append, List.sum_append, ih, blockStart_succ]; simp

/-! ### Slice assignment -/

section
variable {d : Nat} {α : Type}

theorem assign_ok (A V : Arr d α) (sl : Sl d) (h : V.shape = (A.slice sl).shape) :
    A.assign sl V = .ok (A.put sl V) := by
  unfold Arr.assign
  rw [if_pos]
  intro k
  left
  rw [h]

theorem put_inside (A V : Arr d α) (sl : Sl d) (h : V.shape = (A.slice sl).shape) (i : Idx d)
    (hi : A.inSlice sl i) :
    (A.put sl V).val i = V.val fun k => i k - min (sl k).1 (A.shape k) := by
  show (if A.inSlice sl i then V.val (A.bcastIdx sl V i) else A.val i) = _
  rw [if_pos hi]
  congr 1
  funext k
  unfold Arr.bcastIdx
  split
  · next h1 =>
    have h2 := hi k
    rw [h] at h1
    simp only [Arr.slice] at h1
    omega
  · rfl

theorem put_outside (A V : Arr d α) (sl : Sl d) (i : Idx d) (hi : ¬ A.inSlice sl i) :
    (A.put sl V).val i = A.val i := by
  show (if A.inSlice sl i then V.val (A.bcastIdx sl V i) else A.val i) = _
  rw [if_neg hi]

end

/-! ### Rounds -/

theorem sendTo_eq (P r i : Nat) (hr : r < P) (hi : i < P) :
    (r + i) % P = if r + i < P then r + i else r + i - P := by
  split
  · exact Nat.mod_eq_of_lt ‹_›
  · rw [Nat.mod_eq_sub_mod (by omega), Nat.mod_eq_of_lt (by omega)]

theorem recvFrom_eq (P r i : Nat) (hr : r < P) (hi : i < P) :
    (r + P - i) % P = if i ≤ r then r - i else r + P - i := by
  split
  · rw [Nat.mod_eq_sub_mod (by omega), Nat.mod_eq_of_lt (by omega)]; omega
  · exact Nat.mod_eq_of_lt (by omega)

theorem send_recv (P r i : Nat) (hr : r < P) (hi : i < P) : ((r + P - i) % P + i) % P = r := by
  rw [recvFrom_eq P r i hr hi]
  split
  · rw [sendTo_eq _ _ _ (by omega) hi]; split <;> omega
  · rw [sendTo_eq _ _ _ (by omega) hi]; split <;> omega

theorem round_unique (P r i j : Nat) (hr : r < P) (hi : i < P) (hj : j < P)
    (h : (r + i) % P = (r + j) % P) : i = j := by
  rw [sendTo_eq P r i hr hi, sendTo_eq P r j hr hj] at h
  split at h <;> split at h <;> omega

/-- The round in which two processes exchange their message. -/
theorem round_exists (P r q : Nat) (hr : r < P) (hq : q < P) : ∃ i, i < P ∧ (r + P - i) % P = q := by
  rcases Nat.lt_or_ge r q with h | h
  · refine ⟨r + P - q, by omega, ?_⟩
    rw [recvFrom_eq P r _ hr (by omega)]; split <;> omega
  · refine ⟨r - q, by omega, ?_⟩
    rw [recvFrom_eq P r _ hr (by omega)]; split <;> omega

end Verif.Mpi
