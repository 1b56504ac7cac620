import Verif.PartIO.Lemmas

/-!
# Property theorem C09
-/
namespace Verif.PartIO

/-- **C09** (the write is broken up). Whenever the IO of a non-empty array has to be split (MPI-IO,
more than one piece) and a partition is returned: the chosen axis is not the distributed one, the
slices cover it from 0 to its length exactly once, every process gets the same answer, and on every
process no piece exceeds the threshold of `p / q` bytes. -/
theorem C09_split_io_partial (A : Arr) (p q : Nat) (hp : 0 < p)
    (len : Nat) (hk : A.minAxisSize p q ≠ 1)
    (ax : Nat) (slices : List (Nat × Nat))
    (h : partitionIO A len false p q = .ok (ax, slices)) :
    ax ≠ A.axis ∧ (∃ n, A.shape[ax]? = some n ∧ Covers n slices) ∧
    (∀ len', partitionIO A len' false p q = .ok (ax, slices)) ∧
    (∀ len' ∈ A.lens, ∀ s e, (s, e) ∈ slices →
      pieceBytes (A.localShape len') A.item ax s e * q ≤ p) := by
  have hsame : ∀ len', partitionIO A len' false p q = partitionIO A len false p q := by
    intro len'
    unfold partitionIO
    simp [hk]
  refine ⟨?_, ?_, fun len' => by rw [hsame, h], ?_⟩
  all_goals
    unfold partitionIO at h
    simp only [hk, Bool.false_eq_true, or_self, if_false] at h
    split at h
    · cases h
    split at h
    · cases h
    rename_i ax' hfind
    split at h
    · cases h
    rename_i n hn
    split at h
    · cases h
    rename_i hk0
    injection h with h
    injection h with h1 h2
    obtain ⟨-, hne, n', hn', hkn⟩ := findAxis_spec _ _ _ _ _ hfind
    rw [Nat.sub_zero, hn] at hn'
    injection hn' with hn'
    subst h1 h2 hn'
  · exact hne
  · exact ⟨n, hn, covers_boundaries n _⟩
  · intro len' hlen' s e hse
    generalize hK : A.minAxisSize p q = k at *
    have hstep : 0 < n / k := Nat.div_pos hkn (by omega)
    have hle := boundaries_step n (n / k) hstep s e hse
    have hloc : (A.localShape len')[ax']? = some n := by
      unfold Arr.localShape
      rw [List.getElem?_set_ne (fun h => hne h.symm), hn]
    have hprod := prod_split _ _ _ hloc
    have hlarge : A.nbytes len' ≤ A.largest := by
      unfold Arr.largest
      exact foldl_max_ge _ _ _ (.inl (List.mem_map.2 ⟨len', hlen', rfl⟩))
    have hceil : A.largest * q ≤ k * p := by
      have h1 : (A.largest * q + p - 1) / p = k := hK
      have h2 := Nat.div_add_mod (A.largest * q + p - 1) p
      have h3 := Nat.mod_lt (A.largest * q + p - 1) hp
      rw [h1, Nat.mul_comm] at h2
      omega
    have hnk : n / k * k ≤ n := Nat.div_mul_le_self n k
    have hn0 : 0 < n := by omega
    unfold Arr.nbytes at hlarge
    rw [hprod] at hlarge
    unfold pieceBytes
    generalize ((A.localShape len').take ax').prod = a at *
    generalize ((A.localShape len').drop (ax' + 1)).prod = b at *
    generalize A.item = it at *
    -- piece * k ≤ whole
    have h1 : a * (e - s) * b * it * k ≤ a * n * b * it := by
      have : (e - s) * k ≤ n := Nat.le_trans (Nat.mul_le_mul_right k hle) hnk
      calc a * (e - s) * b * it * k = a * ((e - s) * k) * b * it := by
            simp only [Nat.mul_comm, Nat.mul_left_comm]
        _ ≤ a * n * b * it :=
            Nat.mul_le_mul_right it (Nat.mul_le_mul_right b (Nat.mul_le_mul_left a this))
    have h2 : (a * (e - s) * b * it * q) * k ≤ p * k := by
      calc (a * (e - s) * b * it * q) * k = (a * (e - s) * b * it * k) * q := by
            rw [Nat.mul_assoc _ q k, Nat.mul_comm q k, ← Nat.mul_assoc]
        _ ≤ A.largest * q := Nat.mul_le_mul_right q (Nat.le_trans h1 hlarge)
        _ ≤ k * p := hceil
        _ = p * k := Nat.mul_comm _ _
    exact Nat.le_of_mul_le_mul_right h2 (by omega)

/-- A 4x9 array of 8 byte items on two processes with a limit of 50 bytes: at most 144 bytes per
process, three pieces of the second axis. -/
example : partitionIO ⟨[4, 9], 0, 8, [2, 2]⟩ 2 false 50 1 = .ok (1, [(0, 3), (3, 6), (6, 9)]) := by
  rfl

/-- **C09** (no splitting). If the IO is not broken up there is one slice over the whole local length
of the first axis, and unless splitting was switched off every process is within the threshold. -/
theorem C09_whole (A : Arr) (p q : Nat) (hp : 0 < p) (len n : Nat) (skip : Bool)
    (hn : (A.localShape len)[0]? = some n) (hk : skip = true ∨ A.minAxisSize p q = 1) :
    partitionIO A len skip p q = .ok (0, [(0, n)]) ∧ Covers n [(0, n)] ∧
    (A.minAxisSize p q = 1 → ∀ len' ∈ A.lens, A.nbytes len' * q ≤ p) := by
  refine ⟨?_, by simp [Covers, CoversFrom], ?_⟩
  · unfold partitionIO
    simp only
    rw [if_pos hk, hn]
  · intro h1 len' hlen'
    have hlarge : A.nbytes len' ≤ A.largest := by
      unfold Arr.largest
      exact foldl_max_ge _ _ _ (.inl (List.mem_map.2 ⟨len', hlen', rfl⟩))
    unfold Arr.minAxisSize at h1
    have h2 := Nat.div_add_mod (A.largest * q + p - 1) p
    have h3 := Nat.mod_lt (A.largest * q + p - 1) hp
    rw [h1] at h2
    exact Nat.le_trans (Nat.mul_le_mul_right q hlarge) (by omega)

example : partitionIO ⟨[4, 9], 0, 8, [2, 2]⟩ 2 false 200 1 = .ok (0, [(0, 2)]) := by rfl

/-- **C09** (failure). A partition is refused, on every process alike, exactly when splitting is
needed and no axis other than the distributed one is long enough. -/
theorem C09_refused (A : Arr) (hax : A.axis < A.shape.length) (p q : Nat) (len : Nat)
    (hk : 1 < A.minAxisSize p q) :
    partitionIO A len false p q = .error .runtimeError ↔
      ∀ i n, A.shape[i]? = some n → i ≠ A.axis → n < A.minAxisSize p q := by
  generalize hK : A.minAxisSize p q = k at *
  have h1 : k ≠ 1 := by omega
  have h0 : k ≠ 0 := by omega
  unfold partitionIO
  simp only [hK, h1, h0, Bool.false_eq_true, or_self, if_false]
  constructor
  · intro h i n hi hne
    split at h
    · rename_i hl
      have : i < A.shape.length := (List.getElem?_eq_some_iff.1 hi).1
      omega
    · split at h
      · rename_i hf
        exact findAxis_none _ _ _ _ hf i n hi (by omega)
      · rename_i ax hf
        obtain ⟨-, -, m, hm, -⟩ := findAxis_spec _ _ _ _ _ hf
        rw [Nat.sub_zero] at hm
        rw [hm] at h
        cases h
  · intro h
    split
    · rfl
    · split
      · rfl
      · rename_i ax hf
        obtain ⟨-, hne, m, hm, hkm⟩ := findAxis_spec _ _ _ _ _ hf
        rw [Nat.sub_zero] at hm
        have := h ax m hm hne
        omega

example : partitionIO ⟨[4, 2], 0, 8, [2, 2]⟩ 2 false 8 1 = .error .runtimeError := by rfl

/-- **C09** (negation for empty arrays). For an array of two or more dimensions without elements a
collective write divides by zero instead of returning a partition. -/
theorem C09_empty_violated :
    partitionIO ⟨[0, 5], 0, 8, [0, 0]⟩ 0 false 100 1 = .error .zeroDivision := by rfl

end Verif.PartIO
