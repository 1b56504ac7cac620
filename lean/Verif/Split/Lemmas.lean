import Verif.Split.Model
import Verif.Split.Spec
import Mathlib.Data.List.Nodup
import Mathlib.Data.List.Perm.Basic
import Mathlib.Data.List.GetD
import Mathlib.Tactic.Ring
import Mathlib.Tactic.Linarith

namespace Verif.Split

/-- Closed form of the block boundaries. -/
def blk (n m i : Nat) : Nat := i * (n / m) + min i (n % m)

theorem blk_zero (n m : Nat) : blk n m 0 = 0 := by simp [blk]

theorem blk_succ (n m i : Nat) :
    blk n m (i + 1) = blk n m i + (n / m + if i < n % m then 1 else 0) := by
  unfold blk
  rw [Nat.succ_mul]
  split <;> omega

theorem blk_last (n m : Nat) (h : 0 < m) : blk n m m = n := by
  unfold blk
  have := Nat.mod_lt n h
  have h2 := Nat.div_add_mod n m
  rw [Nat.min_eq_right (by omega)]
  exact h2

theorem blk_mono (n m : Nat) {i j : Nat} (h : i ≤ j) : blk n m i ≤ blk n m j := by
  unfold blk
  have := Nat.mul_le_mul_right (n / m) h
  omega

theorem blk_le (n m : Nat) {i : Nat} (h : i ≤ m) (hm : 0 < m) : blk n m i ≤ n := by
  have := blk_mono n m h
  rwa [blk_last n m hm] at this

/-- Find the block that owns an index. -/
theorem blk_owner (n m : Nat) (hm : 0 < m) (g : Nat) (hg : g < n) :
    ∃ r, r < m ∧ blk n m r ≤ g ∧ g < blk n m (r + 1) := by
  have key : ∀ k, k ≤ m → g < blk n m k → ∃ r, r < k ∧ blk n m r ≤ g ∧ g < blk n m (r + 1) := by
    intro k
    induction k with
    | zero => intro _ h; rw [blk_zero] at h; omega
    | succ k ih =>
      intro hk h
      by_cases hlt : g < blk n m k
      · obtain ⟨r, h1, h2, h3⟩ := ih (by omega) hlt
        exact ⟨r, by omega, h2, h3⟩
      · exact ⟨k, by omega, by omega, h⟩
  have := key m (le_refl m) (by rw [blk_last n m hm]; exact hg)
  exact this

theorem blk_owner_unique (n m : Nat) (g r r' : Nat)
    (h1 : blk n m r ≤ g) (h2 : g < blk n m (r + 1))
    (h1' : blk n m r' ≤ g) (h2' : g < blk n m (r' + 1)) : r' = r := by
  rcases Nat.lt_trichotomy r r' with h | h | h
  · have := blk_mono n m (Nat.succ_le_of_lt h); simp only [Nat.succ_eq_add_one] at this; omega
  · exact h.symm
  · have := blk_mono n m (Nat.succ_le_of_lt h); simp only [Nat.succ_eq_add_one] at this; omega

/-! ### `cumsum` -/

theorem cumsumFrom_length (acc : Nat) (xs : List Nat) : (cumsumFrom acc xs).length = xs.length := by
  induction xs generalizing acc with
  | nil => rfl
  | cons x xs ih => simp [cumsumFrom, ih]

theorem cumsumFrom_getElem? (acc : Nat) (xs : List Nat) (k : Nat) (h : k < xs.length) :
    (cumsumFrom acc xs)[k]? = some (acc + (xs.take (k + 1)).sum) := by
  induction xs generalizing acc k with
  | nil => simp at h
  | cons x xs ih =>
    cases k with
    | zero => simp [cumsumFrom]
    | succ k =>
      simp only [cumsumFrom, List.getElem?_cons_succ]
      rw [ih _ _ (by simpa using h)]
      simp [Nat.add_assoc]

theorem partM_length (n m : Nat) : (partM n m).length = m := by simp [partM]

theorem partM_take_sum (n m k : Nat) (h : k ≤ m) : ((partM n m).take k).sum = blk n m k := by
  induction k with
  | zero => simp [blk]
  | succ k ih =>
    have hk : k < (partM n m).length := by rw [partM_length]; omega
    rw [List.take_succ_eq_append_getElem hk, List.sum_append, ih (by omega), blk_succ]
    simp [partM]

theorem partM_bound (n m k : Nat) (h : k ≤ m) :
    (cumsum (0 :: partM n m))[k]? = some (blk n m k) := by
  unfold cumsum
  rw [cumsumFrom_getElem? _ _ _ (by simp [partM_length]; omega)]
  simp [partM_take_sum n m k h]

theorem splitM_ok (n m : Nat) (h : 0 < m) :
    ∃ s, splitM n m = .ok s ∧ s.num.length = m ∧ s.start.length = m ∧ s.stop.length = m ∧
      ∀ r, r < m →
        s.num[r]? = some (n / m + if r < n % m then 1 else 0) ∧
        s.start[r]? = some (blk n m r) ∧
        s.stop[r]? = some (blk n m (r + 1)) := by
  have hm : m ≠ 0 := by omega
  refine ⟨⟨partM n m, (cumsum (0 :: partM n m)).take m, ((cumsum (0 :: partM n m)).drop 1).take m⟩,
    by simp only [splitM, hm, if_false], ?_, ?_, ?_, ?_⟩
  · simp [partM_length]
  · simp [cumsum, cumsumFrom_length, partM_length]
  · simp [cumsum, cumsumFrom_length, partM_length]
  · intro r hr
    refine ⟨?_, ?_, ?_⟩
    · simp [partM, hr]
    · rw [List.getElem?_take_of_lt hr]
      exact partM_bound n m r (by omega)
    · rw [List.getElem?_take_of_lt hr, List.getElem?_drop, Nat.add_comm]
      exact partM_bound n m (r + 1) (by omega)

theorem splitLocal_ok (n size rank : Nat) (h : rank < size) :
    splitLocal n size rank =
      .ok (n / size + (if rank < n % size then 1 else 0), blk n size rank, blk n size (rank + 1)) := by
  obtain ⟨s, hs, -, -, -, hr⟩ := splitM_ok n size (by omega)
  obtain ⟨h1, h2, h3⟩ := hr rank h
  simp [splitLocal, hs, h1, h2, h3]

/-! ### `partition_list` -/

theorem rep_take_sum (N n k : Nat) (h : k ≤ n) (hn : 0 < n) :
    ((List.replicate (N % n) (N / n + 1) ++ List.replicate (n - N % n) (N / n)).take k).sum
      = blk N n k := by
  have hr := Nat.mod_lt N hn
  unfold blk
  rw [List.take_append, List.sum_append, List.take_replicate, List.take_replicate,
    List.sum_replicate_nat, List.sum_replicate_nat, List.length_replicate]
  by_cases hk : k ≤ N % n
  · rw [Nat.min_eq_left hk, Nat.sub_eq_zero_of_le hk]
    simp [Nat.mul_add]
  · rw [Nat.min_eq_right (by omega), Nat.min_eq_left (by omega)]
    obtain ⟨d, rfl⟩ : ∃ d, k = N % n + d := ⟨k - N % n, by omega⟩
    simp only [Nat.add_sub_cancel_left]
    ring

theorem partitionBounds_ok (N n i : Nat) (h : i < n) :
    partitionBounds N n i = .ok (blk N n i, blk N n (i + 1)) := by
  have hn : n ≠ 0 := by omega
  have hr := Nat.mod_lt N (show 0 < n by omega)
  unfold partitionBounds cumsum
  simp only [hn, if_false]
  rw [cumsumFrom_getElem? _ _ _ (by simp; omega), cumsumFrom_getElem? _ _ _ (by simp; omega)]
  simp only [List.take_succ_cons, List.sum_cons]
  rw [rep_take_sum _ _ _ (by omega) (by omega), rep_take_sum _ _ _ (by omega) (by omega)]
  simp

theorem everyNth_getElem? {α : Type} (n : Nat) (hn : 0 < n) (xs : List α) (k : Nat) :
    (everyNth n xs)[k]? = xs[k * n]? := by
  induction k generalizing xs with
  | zero => cases xs <;> simp [everyNth]
  | succ k ih =>
    cases xs with
    | nil => simp [everyNth]
    | cons x xs =>
      rw [everyNth, List.getElem?_cons_succ, ih, List.getElem?_drop]
      have : (k + 1) * n = (n - 1 + k * n) + 1 := by rw [Nat.succ_mul]; omega
      rw [this, List.getElem?_cons_succ]

theorem strided_getElem? {α : Type} (xs : List α) (i n : Nat) (hn : 0 < n) (k : Nat) :
    (strided xs i n)[k]? = xs[i + k * n]? := by
  unfold strided
  rw [everyNth_getElem? n hn, List.getElem?_drop]

theorem take_drop_flatten {α : Type} (xs : List α) (b : Nat → Nat) (m : Nat)
    (h0 : b 0 = 0) (hmono : ∀ i, b i ≤ b (i + 1)) :
    ((List.range m).map fun i => (xs.drop (b i)).take (b (i + 1) - b i)).flatten
      = xs.take (b m) := by
  induction m with
  | zero => simp [h0]
  | succ m ih =>
    rw [List.range_succ, List.map_append, List.flatten_append, ih]
    simp only [List.map_cons, List.map_nil, List.flatten_cons, List.flatten_nil, List.append_nil]
    have := hmono m
    obtain ⟨d, hd⟩ : ∃ d, b (m + 1) = b m + d := ⟨b (m + 1) - b m, by omega⟩
    rw [hd, Nat.add_sub_cancel_left, List.take_add]

/-! ### Sorting by key -/

theorem insertByKey_perm {β : Type} (x : Nat × β) (l : List (Nat × β)) :
    (insertByKey x l).Perm (x :: l) := by
  induction l with
  | nil => exact List.Perm.refl _
  | cons y ys ih =>
    unfold insertByKey
    split
    · exact List.Perm.refl _
    · exact (List.Perm.cons y ih).trans (List.Perm.swap x y ys)

theorem sortByKey_perm {β : Type} (l : List (Nat × β)) : (sortByKey l).Perm l := by
  induction l with
  | nil => exact List.Perm.refl _
  | cons x xs ih => exact (insertByKey_perm x _).trans (List.Perm.cons x ih)

theorem insertByKey_sorted {β : Type} (x : Nat × β) (l : List (Nat × β))
    (h : l.Pairwise fun a b => a.1 ≤ b.1) :
    (insertByKey x l).Pairwise fun a b => a.1 ≤ b.1 := by
  induction l with
  | nil => simp [insertByKey]
  | cons y ys ih =>
    unfold insertByKey
    rw [List.pairwise_cons] at h
    split
    · rename_i hxy
      refine List.pairwise_cons.2 ⟨?_, List.pairwise_cons.2 h⟩
      intro a ha
      rcases List.mem_cons.1 ha with rfl | ha
      · exact hxy
      · exact Nat.le_trans hxy (h.1 a ha)
    · rename_i hxy
      refine List.pairwise_cons.2 ⟨?_, ih h.2⟩
      intro a ha
      rcases List.mem_cons.1 ((insertByKey_perm x ys).mem_iff.1 ha) with rfl | ha
      · omega
      · exact h.1 a ha

theorem sortByKey_sorted {β : Type} (l : List (Nat × β)) :
    (sortByKey l).Pairwise fun a b => a.1 ≤ b.1 := by
  induction l with
  | nil => simp [sortByKey]
  | cons x xs ih => exact insertByKey_sorted x _ ih

/-- Two permutations of the same list, both sorted by keys that are pairwise distinct, agree. -/
theorem sorted_perm_eq {β : Type} {l₁ l₂ : List (Nat × β)} (hp : l₁.Perm l₂)
    (h₁ : l₁.Pairwise fun a b => a.1 ≤ b.1) (h₂ : l₂.Pairwise fun a b => a.1 < b.1) :
    l₁ = l₂ := by
  induction l₂ generalizing l₁ with
  | nil => exact hp.eq_nil
  | cons y ys ih =>
    cases l₁ with
    | nil => exact absurd hp.symm.eq_nil (by simp)
    | cons x xs =>
      rw [List.pairwise_cons] at h₁ h₂
      have hx : x ∈ y :: ys := hp.mem_iff.1 (by simp)
      have hy : y ∈ x :: xs := hp.mem_iff.2 (by simp)
      have hxy : x = y := by
        rcases List.mem_cons.1 hx with h | h
        · exact h
        · have hlt := h₂.1 x h
          rcases List.mem_cons.1 hy with h' | h'
          · exact h'.symm
          · have := h₁.1 y h'; omega
      subst hxy
      rw [ih (List.Perm.cons_inv hp) h₁.2 h₂.2]

theorem range_zip_pairwise {α : Type} (xs : List α) (s : Nat) :
    ((List.range' s xs.length).zip xs).Pairwise fun a b => a.1 < b.1 := by
  induction xs generalizing s with
  | nil => simp
  | cons x xs ih =>
    rw [List.length_cons, List.range'_succ, List.zip_cons_cons, List.pairwise_cons]
    refine ⟨?_, ih (s + 1)⟩
    intro a ha
    have := (List.of_mem_zip ha).1
    rw [List.mem_range'_1] at this
    simp only
    omega

/-- The `alt` pieces of a list together are a rearrangement of the list. -/
theorem strided_flatten_perm {α : Type} (xs : List α) (n : Nat) (hn : 0 < n) (hnd : xs.Nodup) :
    (((List.range n).map fun i => strided xs i n).flatten).Perm xs := by
  have hinj : ∀ (i j : Nat) (a : α), xs[i]? = some a → xs[j]? = some a → i = j := by
    intro i j a hi hj
    obtain ⟨hi', hi⟩ := List.getElem?_eq_some_iff.1 hi
    obtain ⟨hj', hj⟩ := List.getElem?_eq_some_iff.1 hj
    exact (List.Nodup.getElem_inj_iff hnd).1 (hi.trans hj.symm)
  have hmod : ∀ i k, i < n → (i + k * n) % n = i ∧ (i + k * n) / n = k := by
    intro i k hi
    constructor
    · rw [Nat.add_mul_mod_self_right, Nat.mod_eq_of_lt hi]
    · rw [Nat.add_mul_div_right _ _ hn, Nat.div_eq_of_lt hi, Nat.zero_add]
  rw [List.perm_ext_iff_of_nodup ?_ hnd]
  · intro a
    simp only [List.mem_flatten, List.mem_map, List.mem_range]
    constructor
    · rintro ⟨l, ⟨i, hi, rfl⟩, ha⟩
      obtain ⟨k, hk⟩ := List.mem_iff_getElem?.1 ha
      rw [strided_getElem? _ _ _ hn] at hk
      exact List.mem_iff_getElem?.2 ⟨_, hk⟩
    · intro ha
      obtain ⟨g, hg⟩ := List.mem_iff_getElem?.1 ha
      refine ⟨_, ⟨g % n, Nat.mod_lt _ hn, rfl⟩, List.mem_iff_getElem?.2 ⟨g / n, ?_⟩⟩
      rw [strided_getElem? _ _ _ hn, Nat.mul_comm, Nat.mod_add_div]
      exact hg
  · rw [List.nodup_flatten]
    constructor
    · intro l hl
      obtain ⟨i, hi, rfl⟩ := List.mem_map.1 hl
      rw [List.mem_range] at hi
      rw [List.nodup_iff_injective_getElem]
      intro ⟨p, hp⟩ ⟨q, hq⟩ heq
      have h1 := List.getElem?_eq_getElem hp
      have h2 := List.getElem?_eq_getElem hq
      rw [strided_getElem? _ _ _ hn] at h1 h2
      simp only at heq
      have := hinj _ _ _ h1 (h2.trans (by rw [heq]))
      have e1 := (hmod i p hi).2
      have e2 := (hmod i q hi).2
      rw [this] at e1
      simp only [Fin.mk.injEq]
      omega
    · rw [List.pairwise_map]
      refine List.Pairwise.imp_of_mem ?_ (List.nodup_range (n := n))
      intro i j hi hj hij
      rw [List.mem_range] at hi hj
      intro a ha hb
      obtain ⟨p, hp⟩ := List.mem_iff_getElem?.1 ha
      obtain ⟨q, hq⟩ := List.mem_iff_getElem?.1 hb
      rw [strided_getElem? _ _ _ hn] at hp hq
      have := hinj _ _ _ hp hq
      have e1 := (hmod i p hi).1
      have e2 := (hmod j q hj).1
      rw [this] at e1
      exact hij (by omega)

theorem mapM_ok {γ : Type} (g : Nat → γ) (c : Nat → Except PyErr γ) (l : List Nat)
    (h : ∀ r ∈ l, c r = .ok (g r)) : l.mapM c = .ok (l.map g) := by
  induction l with
  | nil => rfl
  | cons x xs ih =>
    rw [List.mapM_cons, h x (by simp), ih (fun r hr => h r (by simp [hr]))]
    rfl

end Verif.Split
