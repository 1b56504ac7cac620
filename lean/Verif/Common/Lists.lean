/-!
# List helper lemmas shared by several areas (no model content)
-/
namespace Verif.Common

/-- Two strictly increasing lists (for any transitive irreflexive relation) with the same elements
are equal. -/
theorem eq_of_pairwise_of_mem {α : Type} {R : α → α → Prop} (irr : ∀ a, ¬ R a a)
    (asymm : ∀ a b, R a b → ¬ R b a) {l₁ l₂ : List α}
    (h₁ : l₁.Pairwise R) (h₂ : l₂.Pairwise R) (h : ∀ a, a ∈ l₁ ↔ a ∈ l₂) : l₁ = l₂ := by
  induction l₁ generalizing l₂ with
  | nil =>
    cases l₂ with
    | nil => rfl
    | cons y ys => exact absurd ((h y).2 (by simp)) (by simp)
  | cons x xs ih =>
    cases l₂ with
    | nil => exact absurd ((h x).1 (by simp)) (by simp)
    | cons y ys =>
      rw [List.pairwise_cons] at h₁ h₂
      have hxy : x = y := by
        rcases List.mem_cons.1 ((h x).1 (by simp)) with e | e
        · exact e
        · rcases List.mem_cons.1 ((h y).2 (by simp)) with e' | e'
          · exact e'.symm
          · exact absurd (h₁.1 y e') (asymm _ _ (h₂.1 x e))
      subst hxy
      congr 1
      refine ih h₁.2 h₂.2 ?_
      intro a
      constructor
      · intro ha
        rcases List.mem_cons.1 ((h a).1 (List.mem_cons_of_mem _ ha)) with e | e
        · exact absurd (e ▸ h₁.1 a ha) (irr _)
        · exact e
      · intro ha
        rcases List.mem_cons.1 ((h a).2 (List.mem_cons_of_mem _ ha)) with e | e
        · exact absurd (e ▸ h₂.1 a ha) (irr _)
        · exact e

/-- Cutting a list at increasing positions and gluing the pieces back. -/
theorem cut_flatten {α : Type} (xs : List α) (b : Nat → Nat) (m : Nat)
    (h0 : b 0 = 0) (hmono : ∀ i, b i ≤ b (i + 1)) :
    ((List.range m).map fun i => (xs.drop (b i)).take (b (i + 1) - b i)).flatten
      = xs.take (b m) := by
  induction m with
  | zero => simp [h0]
  | succ m ih =>
    rw [List.range_succ, List.map_append, List.flatten_append, ih]
    simp only [List.map_cons, List.map_nil, List.flatten_cons, List.flatten_nil, List.append_nil]
    have := hmono m
    rw [show b (m + 1) = b m + (b (m + 1) - b m) by omega, List.take_add]
    congr 2
    omega

theorem range_drop_take (n a k : Nat) (h : a + k ≤ n) :
    ((List.range n).drop a).take k = List.range' a k := by
  apply List.ext_getElem?
  intro i
  by_cases hi : i < k
  · rw [List.getElem?_take_of_lt hi, List.getElem?_drop, List.getElem?_range (by omega),
      List.getElem?_range' hi]
    simp
  · rw [List.getElem?_eq_none (by simp; omega), List.getElem?_eq_none (by simp; omega)]

/-- Looking up all indices of a range in a list returns the corresponding segment. -/
theorem filterMap_range'_getElem? {α : Type} (xs : List α) (a k : Nat) :
    (List.range' a k).filterMap (xs[·]?) = (xs.drop a).take k := by
  induction k generalizing a with
  | zero => simp
  | succ k ih =>
    rw [List.range'_succ, List.filterMap_cons]
    by_cases h : a < xs.length
    · rw [List.getElem?_eq_getElem h, ih, List.drop_eq_getElem_cons h, List.take_succ_cons]
    · rw [List.getElem?_eq_none (by omega), ih, List.drop_eq_nil_of_le (by omega),
        List.drop_eq_nil_of_le (by omega)]
      simp

theorem filterMap_range_getElem? {α : Type} (xs : List α) :
    (List.range xs.length).filterMap (xs[·]?) = xs := by
  rw [List.range_eq_range', filterMap_range'_getElem?]
  simp

theorem filterMap_congr {α β : Type} {f g : α → Option β} {l : List α}
    (h : ∀ a ∈ l, f a = g a) : l.filterMap f = l.filterMap g := by
  induction l with
  | nil => rfl
  | cons x xs ih =>
    rw [List.filterMap_cons, List.filterMap_cons, h x (by simp),
      ih (fun a ha => h a (List.mem_cons_of_mem _ ha))]

theorem map_some_inj {α : Type} {l₁ l₂ : List α} (h : l₁.map some = l₂.map some) : l₁ = l₂ := by
  have := congrArg (List.filterMap id) h
  simpa [List.filterMap_map] using this

end Verif.Common
