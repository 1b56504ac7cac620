import Verif.PartIO.Model
import Verif.PartIO.Spec

/-!
# Helper lemmas for the partitioning
-/
namespace Verif.PartIO

theorem findAxis_spec (axis k : Nat) (l : List Nat) (i ax : Nat)
    (h : findAxis axis k l i = some ax) :
    i ≤ ax ∧ ax ≠ axis ∧ ∃ n, l[ax - i]? = some n ∧ k ≤ n := by
  induction l generalizing i with
  | nil => simp [findAxis] at h
  | cons x xs ih =>
    unfold findAxis at h
    split at h
    · rename_i hc
      cases h
      exact ⟨Nat.le_refl _, hc.1, x, by simp, hc.2⟩
    · obtain ⟨h1, h2, n, h3, h4⟩ := ih (i + 1) h
      refine ⟨by omega, h2, n, ?_, h4⟩
      rw [show ax - i = (ax - (i + 1)) + 1 by omega, List.getElem?_cons_succ]
      exact h3

theorem findAxis_none (axis k : Nat) (l : List Nat) (i : Nat)
    (h : findAxis axis k l i = none) (j n : Nat) (hj : l[j]? = some n) (hne : i + j ≠ axis) :
    n < k := by
  induction l generalizing i j with
  | nil => simp at hj
  | cons x xs ih =>
    unfold findAxis at h
    split at h
    · cases h
    · rename_i hc
      cases j with
      | zero =>
        simp at hj
        subst hj
        simp only [Nat.add_zero] at hne
        by_cases hk : k ≤ x
        · exact absurd ⟨hne, hk⟩ hc
        · omega
      | succ j => exact ih (i + 1) h j hj (by omega)

theorem pairwise_cons_cons (a b : Nat) (l : List Nat) :
    pairwise (a :: b :: l) = (a, b) :: pairwise (b :: l) := rfl

/-- Equally spaced boundaries starting at `a`, then the end. -/
theorem covers_steps (step m a b : Nat) (hb : a + m * step ≤ b) :
    CoversFrom a b (pairwise ((List.range (m + 1)).map (fun i => a + i * step) ++ [b])) := by
  induction m generalizing a with
  | zero => simp [pairwise, CoversFrom]; omega
  | succ m ih =>
    have e : (List.range (m + 1 + 1)).map (fun i => a + i * step)
        = a :: (List.range (m + 1)).map (fun i => (a + step) + i * step) := by
      rw [List.range_succ_eq_map, List.map_cons, List.map_map]
      congr 1
      · simp
      · apply List.map_congr_left
        intro i _
        simp only [Function.comp_apply, Nat.succ_eq_add_one, Nat.add_mul]
        omega
    have e2 : (List.range (m + 1)).map (fun i => (a + step) + i * step)
        = (a + step) :: ((List.range m).map (fun i => (a + step) + (i + 1) * step)) := by
      rw [List.range_succ_eq_map, List.map_cons, List.map_map]
      congr 1
      simp
    have ih' := ih (a + step) (by rw [Nat.add_mul] at hb; omega)
    rw [e, e2, List.cons_append, List.cons_append, pairwise_cons_cons]
    rw [e2, List.cons_append] at ih'
    exact ⟨rfl, by omega, ih'⟩

theorem covers_steps_exact (step m a : Nat) :
    CoversFrom a (a + m * step) (pairwise ((List.range (m + 1)).map fun i => a + i * step)) := by
  induction m generalizing a with
  | zero => simp [pairwise, CoversFrom]
  | succ m ih =>
    have e : (List.range (m + 1 + 1)).map (fun i => a + i * step)
        = a :: (List.range (m + 1)).map (fun i => (a + step) + i * step) := by
      rw [List.range_succ_eq_map, List.map_cons, List.map_map]
      congr 1
      · simp
      · apply List.map_congr_left
        intro i _
        simp only [Function.comp_apply, Nat.succ_eq_add_one, Nat.add_mul]
        omega
    have e2 : (List.range (m + 1)).map (fun i => (a + step) + i * step)
        = (a + step) :: ((List.range m).map (fun i => (a + step) + (i + 1) * step)) := by
      rw [List.range_succ_eq_map, List.map_cons, List.map_map]
      congr 1
      simp
    have ih' := ih (a + step)
    rw [e, e2, pairwise_cons_cons]
    rw [e2] at ih'
    refine ⟨rfl, by omega, ?_⟩
    rw [show a + (m + 1) * step = a + step + m * step by rw [Nat.add_mul]; omega]
    exact ih'

theorem boundariesRange_last (len step : Nat) :
    (boundariesRange len step).getLast? = some (len / step * step) := by
  unfold boundariesRange
  rw [List.range_succ, List.map_append]
  simp

theorem covers_boundaries (len step : Nat) : Covers len (pairwise (boundaries len step)) := by
  unfold boundaries Covers
  simp only
  have hrw : boundariesRange len step = (List.range (len / step + 1)).map fun i => 0 + i * step := by
    unfold boundariesRange; simp
  split
  · rename_i h
    rw [boundariesRange_last] at h
    injection h with h
    have := covers_steps_exact step (len / step) 0
    rw [← hrw] at this
    rw [Nat.zero_add, h] at this
    exact this
  · have := covers_steps step (len / step) 0 len (by have := Nat.div_mul_le_self len step; omega)
    rw [← hrw] at this
    exact this

/-- Every slice is at most one step long. -/
theorem boundaries_step (len step : Nat) (hs : 0 < step) (s e : Nat)
    (h : (s, e) ∈ pairwise (boundaries len step)) : e - s ≤ step := by
  have hget : ∀ i x, (boundaries len step)[i]? = some x →
      (i ≤ len / step ∧ x = i * step) ∨ (i = len / step + 1 ∧ x = len) := by
    intro i x hx
    unfold boundaries boundariesRange at hx
    simp only at hx
    have aux : ∀ y, ((List.range (len / step + 1)).map (· * step))[i]? = some y →
        i ≤ len / step ∧ y = i * step := by
      intro y hy
      rw [List.getElem?_map] at hy
      by_cases hi : i < len / step + 1
      · rw [List.getElem?_range hi] at hy
        simp at hy
        omega
      · rw [List.getElem?_eq_none (by simp; omega)] at hy
        simp at hy
    split at hx
    · exact .inl (aux x hx)
    · by_cases hi : i < len / step + 1
      · rw [List.getElem?_append_left (by simpa using hi)] at hx
        exact .inl (aux x hx)
      · right
        rw [List.getElem?_append_right (by simp; omega)] at hx
        simp only [List.length_map, List.length_range] at hx
        by_cases h0 : i - (len / step + 1) = 0
        · rw [h0] at hx
          simp at hx
          omega
        · rw [List.getElem?_eq_none (by simp; omega)] at hx
          cases hx
  unfold pairwise at h
  obtain ⟨i, hi⟩ := List.mem_iff_getElem?.1 h
  rw [List.getElem?_zip_eq_some] at hi
  obtain ⟨h1, h2⟩ := hi
  rw [List.getElem?_tail] at h2
  rcases hget _ _ h1 with ⟨a1, a2⟩ | ⟨a1, a2⟩ <;> rcases hget _ _ h2 with ⟨b1, b2⟩ | ⟨b1, b2⟩
  · rw [Nat.add_mul] at b2
    omega
  · have hi' : i = len / step := by omega
    have h1 : len / step * step + len % step = len := by
      rw [Nat.mul_comm]; exact Nat.div_add_mod len step
    have := Nat.mod_lt len hs
    rw [hi'] at a2
    omega
  · omega
  · omega

theorem foldl_max_ge (l : List Nat) (a x : Nat) (h : x ∈ l ∨ x ≤ a) : x ≤ l.foldl max a := by
  induction l generalizing a with
  | nil => rcases h with h | h
           · simp at h
           · exact h
  | cons y ys ih =>
    rw [List.foldl_cons]
    apply ih
    rcases h with h | h
    · rcases List.mem_cons.1 h with rfl | h
      · right; omega
      · exact .inl h
    · right; omega

theorem prod_split (l : List Nat) (i n : Nat) (h : l[i]? = some n) :
    l.prod = (l.take i).prod * n * (l.drop (i + 1)).prod := by
  obtain ⟨hi, hn⟩ := List.getElem?_eq_some_iff.1 h
  conv => lhs; rw [← List.take_append_drop i l, List.drop_eq_getElem_cons hi, hn]
  rw [List.prod_append, List.prod_cons, Nat.mul_assoc]

end Verif.PartIO
