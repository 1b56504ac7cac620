import Verif.Quick.Outer
import Mathlib.Tactic.FieldSimp
import Mathlib.Tactic.NormNum

/-!
# Property theorems C19

`row` is one row of the arrays `A` and `W`; `effective row` is the row with the weights that count.
-/
namespace Verif.Quick
open Verif.Median (Item)

theorem total_nonneg (l : List Item) (h : NonNeg l) : 0 ≤ total l := by
  have := fs_nonneg (fun _ => true) l h
  have := fs_le (fun _ => true) l h
  linarith

theorem total_uniform (l : List Item) : total (uniform l) = l.length := by
  induction l with
  | nil => simp [total, uniform]
  | cons x l ih =>
    simp only [uniform, List.map_cons, total_cons, List.length_cons] at *
    rw [ih]
    push_cast
    ring

theorem total_zero_iff (l : List Item) (h : NonNeg l) : total l = 0 ↔ ∀ x ∈ l, x.w = 0 := by
  constructor
  · intro ht x hx
    obtain ⟨l1, l2, rfl⟩ := List.append_of_mem hx
    rw [total_append, total_cons] at ht
    have h1 := total_nonneg l1 fun z hz => h z (by simp [hz])
    have h2 := total_nonneg l2 fun z hz => h z (by simp [hz])
    have h3 := h x hx
    linarith
  · intro hz
    induction l with
    | nil => simp [total]
    | cons x l ih =>
      rw [total_cons, hz x (by simp), ih (fun y hy => h y (by simp [hy])) fun y hy => hz y (by simp [hy])]
      ring

/-- The row with the weights that count: equal weights when all are zero. -/
def effective (row : List Item) : List Item :=
  if ∀ x ∈ row, x.w = 0 then row.map fun x => ⟨x.v, 1⟩ else row

theorem row_answer (m : Char) (q : Rat) (row : List Item) (hne : row ≠ [])
    (hw : ∀ x ∈ row, 0 ≤ x.w) (hq0 : 0 ≤ q) (hq1 : q ≤ 1) (h1 : row.length = 1 → q < 1) :
    0 < total (effective row) ∧
    ∃ r, quantileRow id m q row = some r ∧
      Answer (effective row) (q * total (effective row)) m r := by
  have hlen : 0 < row.length := List.length_pos_iff.2 hne
  have heff : (if total row = 0 then uniform row else row) = effective row := by
    unfold effective uniform
    by_cases h : total row = 0
    · rw [if_pos h, if_pos ((total_zero_iff row hw).1 h)]
    · rw [if_neg h, if_neg fun hc => h ((total_zero_iff row hw).2 hc)]
  have hn : NonNeg (effective row) := by
    intro x hx
    unfold effective at hx
    split at hx
    · obtain ⟨y, _, rfl⟩ := List.mem_map.1 hx
      simp
    · exact hw x hx
  have hl : (effective row).length = row.length := by
    unfold effective
    split <;> simp
  have ht : 0 < total (effective row) := by
    unfold effective
    split
    · have := total_uniform row
      unfold uniform at this
      rw [this]
      exact_mod_cast hlen
    · rename_i h
      rcases eq_or_lt_of_le (total_nonneg row hw) with he | hlt
      · exact absurd ((total_zero_iff row hw).1 he.symm) h
      · exact hlt
  refine ⟨ht, ?_⟩
  have hQ0 : 0 ≤ q * total (effective row) := mul_nonneg hq0 (le_of_lt ht)
  have hQ1 : q * total (effective row) ≤ total (effective row) := by nlinarith
  have hs := select_ok (effective row) m (q * total (effective row)) ht
    (fun h => by have := h1 (by omega); nlinarith)
    ((effective row).length + 1) (effective row) 0 ((effective row).length - 1)
    { perm := List.Perm.refl _, nonneg := hn, le := by omega, bound := by omega, lt := by omega,
      low := fun k l x y _ _ h _ => absurd h (by omega),
      high := fun k l x y _ hy _ h2 => by
        rw [List.getElem?_eq_none (by omega)] at hy
        simp at hy
      preLe := by rw [pre_zero]; exact hQ0
      lePre := by rw [pre_all _ _ (by omega)]; exact hQ1
      preLt := fun h => by rw [pre_zero]; exact h
      ltPre := fun h => by rw [pre_all _ _ (by omega)]; exact h } (by omega)
  rw [pre_zero, sub_zero] at hs
  obtain ⟨r, e, hr⟩ := hs
  refine ⟨r, ?_, hr⟩
  unfold quantileRow
  rw [heff]
  simp only [mul_comm (total (effective row)) q]
  exact e

/-- C19: for `q` strictly inside, the function terminates, stays inside of the arrays and returns the
element of positive weight at which the cumulative weight passes `q` times the total, or what the
method takes of the two neighbours when it falls exactly between them. -/
theorem C19_inner (m : Char) (q : Rat) (row : List Item) (hne : row ≠ [])
    (hw : ∀ x ∈ row, 0 ≤ x.w) (hq0 : 0 < q) (hq1 : q < 1) :
    ∃ r, quantileRow id m q row = some r ∧
      QuantileSpec (effective row) (q * total (effective row)) m r := by
  obtain ⟨ht, r, e, hr⟩ := row_answer m q row hne hw (le_of_lt hq0) (le_of_lt hq1) fun _ => hq1
  exact ⟨r, e, hr.inner (mul_pos hq0 ht) (by nlinarith)⟩

example : quantileRow id 's' (1/2) [⟨3, 1⟩, ⟨1, 1⟩, ⟨7, 0⟩, ⟨5, 2⟩] = some 4 ∧
    quantileRow id 'l' (1/2) [⟨3, 1⟩, ⟨1, 1⟩, ⟨7, 0⟩, ⟨5, 2⟩] = some 3 ∧
    quantileRow id 'h' (1/2) [⟨3, 1⟩, ⟨1, 1⟩, ⟨7, 0⟩, ⟨5, 2⟩] = some 5 ∧
    quantileRow id 's' (1/3) [⟨3, 1⟩, ⟨1, 1⟩, ⟨7, 0⟩, ⟨5, 2⟩] = some 3 := by decide +kernel

/-- C19: the value described is unique, so the order of the elements and the choice of the pivots
have no influence. -/
theorem C19_spec_unique (xs : List Item) (hw : ∀ x ∈ xs, 0 ≤ x.w) (Q : Rat) (m : Char) (r r' : Rat)
    (h : QuantileSpec xs Q m r) (h' : QuantileSpec xs Q m r') : r = r' := by
  -- at or below a smaller value is at most below a larger one
  have mono : ∀ u v : Rat, u < v → atOrBelow xs u ≤ below xs v := by
    intro u v huv
    clear h h'
    induction xs with
    | nil => simp [atOrBelow, below]
    | cons x xs ih =>
      have := ih fun y hy => hw y (by simp [hy])
      have hx := hw x (by simp)
      rw [atOrBelow_eq, below_eq, fs_cons, fs_cons, ← atOrBelow_eq, ← below_eq]
      by_cases h1 : x.v ≤ u
      · have h2 : x.v < v := by linarith
        simp [h1, h2, this]
      · by_cases h2 : x.v < v
        · simp [h1, h2]; linarith
        · simp [h1, h2, this]
  -- an element of positive weight makes a difference
  have jump : ∀ x ∈ xs, 0 < x.w → ∀ v, x.v = v → below xs v < atOrBelow xs v := by
    clear h h' mono
    intro x hx hxw v hv
    subst hv
    have h1 : ∀ ys : List Item, (∀ y ∈ ys, 0 ≤ y.w) → below ys x.v ≤ atOrBelow ys x.v := by
      intro ys hys
      induction ys with
      | nil => simp [atOrBelow, below]
      | cons y ys ih =>
        have := ih fun z hz => hys z (by simp [hz])
        have hy := hys y (by simp)
        rw [atOrBelow_eq, below_eq, fs_cons, fs_cons, ← atOrBelow_eq, ← below_eq]
        by_cases h2 : y.v < x.v
        · simp [h2, le_of_lt h2, this]
        · by_cases h3 : y.v ≤ x.v
          · simp [h2, h3]; linarith
          · simp [h2, h3, this]
    obtain ⟨l1, l2, rfl⟩ := List.append_of_mem hx
    have g1 := h1 l1 fun y hy => hw y (by simp [hy])
    have g2 := h1 l2 fun y hy => hw y (by simp [hy])
    rw [atOrBelow_eq, below_eq, fs_append, fs_append, fs_cons, fs_cons, ← atOrBelow_eq, ← below_eq,
      ← atOrBelow_eq, ← below_eq]
    simp
    linarith
  rcases h with ⟨x, hx, hxw, b1, b2, rfl⟩ | ⟨a, ha, b, hb, haw, hbw, hab, e1, e2, rfl⟩ <;>
    rcases h' with ⟨x', hx', hxw', b1', b2', rfl⟩ |
      ⟨a', ha', b', hb', haw', hbw', hab', e1', e2', rfl⟩
  · rcases lt_trichotomy x.v x'.v with c | c | c
    · have := mono _ _ c; linarith
    · exact c
    · have := mono _ _ c; linarith
  · exfalso
    rcases lt_trichotomy x.v b'.v with c | c | c
    · have := mono _ _ c
      linarith
    · rw [c] at b1; linarith
    · have := mono _ _ c
      have := jump b' hb' hbw' _ rfl
      linarith
  · exfalso
    rcases lt_trichotomy x'.v b.v with c | c | c
    · have := mono _ _ c
      linarith
    · rw [c] at b1'; linarith
    · have := mono _ _ c
      have := jump b hb hbw _ rfl
      linarith
  · have ea : a.v = a'.v := by
      rcases lt_trichotomy a.v a'.v with c | c | c
      · have := mono _ _ c
        have := jump a' ha' haw' _ rfl
        linarith
      · exact c
      · have := mono _ _ c
        have := jump a ha haw _ rfl
        linarith
    have eb : b.v = b'.v := by
      rcases lt_trichotomy b.v b'.v with c | c | c
      · have := mono _ _ c
        have := jump b hb hbw _ rfl
        linarith
      · exact c
      · have := mono _ _ c
        have := jump b' hb' hbw' _ rfl
        linarith
    rw [ea, eb]

/-- C19: the result does not depend on the order of the elements. -/
theorem C19_order_free (m : Char) (q : Rat) (row row' : List Item) (hne : row ≠ [])
    (hp : row.Perm row') (hw : ∀ x ∈ row, 0 ≤ x.w) (hq0 : 0 < q) (hq1 : q < 1) :
    quantileRow id m q row = quantileRow id m q row' := by
  have hne' : row' ≠ [] := by
    rintro rfl
    exact hne hp.eq_nil
  have hw' : ∀ x ∈ row', 0 ≤ x.w := fun x hx => hw x (hp.mem_iff.2 hx)
  obtain ⟨r, e, hr⟩ := C19_inner m q row hne hw hq0 hq1
  obtain ⟨r', e', hr'⟩ := C19_inner m q row' hne' hw' hq0 hq1
  have heff : (effective row).Perm (effective row') := by
    unfold effective
    by_cases hz : ∀ x ∈ row, x.w = 0
    · rw [if_pos hz, if_pos fun x hx => hz x (hp.mem_iff.2 hx)]
      exact hp.map _
    · rw [if_neg hz, if_neg fun hc => hz fun x hx => hc x (hp.mem_iff.1 hx)]
      exact hp
  have hn : ∀ x ∈ effective row, 0 ≤ x.w := by
    intro x hx
    unfold effective at hx
    split at hx
    · obtain ⟨y, _, rfl⟩ := List.mem_map.1 hx
      simp
    · exact hw x hx
  rw [e, e']
  congr 1
  apply C19_spec_unique (effective row) hn _ m r r' hr
  rw [total_perm heff]
  rcases hr' with ⟨x, hx, h1, h2, h3, h4⟩ | ⟨a, ha, b, hb, h1, h2, h3, h4, h5, h6⟩
  · exact Or.inl ⟨x, heff.mem_iff.2 hx, h1, by rw [below_perm heff]; exact h2,
      by rw [atOrBelow_perm heff]; exact h3, h4⟩
  · exact Or.inr ⟨a, heff.mem_iff.2 ha, b, heff.mem_iff.2 hb, h1, h2, h3,
      by rw [atOrBelow_perm heff]; exact h4, by rw [below_perm heff]; exact h5, h6⟩

example : quantileRow id 's' (1/2) [⟨1, 1⟩, ⟨2, 5⟩, ⟨9, 1⟩] =
    quantileRow id 's' (1/2) [⟨9, 1⟩, ⟨2, 5⟩, ⟨1, 1⟩] := by decide +kernel

/-- C19 on the whole range `0 ≤ q ≤ 1` for real-valued data. `_partial`: a row of length one with
`q = 1` is excluded. -/
theorem C19_quantile_partial (m : Char) (q : Rat) (row : List Item) (hne : row ≠ [])
    (hw : ∀ x ∈ row, 0 ≤ x.w) (hq0 : 0 ≤ q) (hq1 : q ≤ 1) (h1 : row.length = 1 → q < 1) :
    ∃ r, quantileRow id m q row = some r ∧
      (IsQuantile (effective row) (q * total (effective row)) r ∨
        ∃ a ∈ row, ∃ b ∈ row, a.v < b.v ∧ r = (a.v + b.v) / 2 ∧
          IsQuantile (effective row) (q * total (effective row)) a.v ∧
          IsQuantile (effective row) (q * total (effective row)) b.v ∧
          -- adjacent: no weight strictly between them
          atOrBelow (effective row) a.v = below (effective row) b.v) := by
  obtain ⟨ht, r, e, hr⟩ := row_answer m q row hne hw hq0 hq1 h1
  refine ⟨r, e, ?_⟩
  have hv : ∀ x ∈ effective row, ∃ y ∈ row, y.v = x.v := by
    intro x hx
    unfold effective at hx
    split at hx
    · obtain ⟨y, hy, rfl⟩ := List.mem_map.1 hx
      exact ⟨y, hy, rfl⟩
    · exact ⟨x, hx, rfl⟩
  have hn : NonNeg (effective row) := by
    intro x hx
    unfold effective at hx
    split at hx
    · obtain ⟨y, _, rfl⟩ := List.mem_map.1 hx
      simp
    · exact hw x hx
  rcases eq_or_lt_of_le hq0 with h0 | h0
  · left
    exact hr.outer (Or.inl (by rw [← h0]; ring))
  · rcases eq_or_lt_of_le hq1 with h2 | h2
    · left
      exact hr.outer (Or.inr (by rw [h2]; ring))
    · rcases hr.inner (mul_pos h0 ht) (by nlinarith) with
        ⟨x, hx, c1, c2, c3, rfl⟩ | ⟨a, ha, b, hb, c1, c2, c3, c4, c5, c6⟩
      · left
        exact ⟨⟨x, hx, rfl⟩, le_of_lt c2, le_of_lt c3⟩
      · have qa : IsQuantile (effective row) (q * total (effective row)) a.v := by
          refine ⟨⟨a, ha, rfl⟩, ?_, le_of_eq c4.symm⟩
          rw [← c4, below_eq, atOrBelow_eq]
          clear * - hn
          revert hn
          generalize effective row = xs
          intro hn
          induction xs with
          | nil => simp [fs]
          | cons y ys ih =>
            have h1 := ih fun z hz => hn z (by simp [hz])
            have h2 := hn y (by simp)
            rw [fs_cons, fs_cons]
            by_cases h3 : y.v < a.v
            · simp [h3, le_of_lt h3, h1]
            · by_cases h4 : y.v ≤ a.v
              · simp [h3, h4]; linarith
              · simp [h3, h4, h1]
        have qb : IsQuantile (effective row) (q * total (effective row)) b.v := by
          refine ⟨⟨b, hb, rfl⟩, le_of_eq c5, ?_⟩
          rw [← c5, below_eq, atOrBelow_eq]
          clear * - hn
          revert hn
          generalize effective row = xs
          intro hn
          induction xs with
          | nil => simp [fs]
          | cons y ys ih =>
            have h1 := ih fun z hz => hn z (by simp [hz])
            have h2 := hn y (by simp)
            rw [fs_cons, fs_cons]
            by_cases h3 : y.v < b.v
            · simp [h3, le_of_lt h3, h1]
            · by_cases h4 : y.v ≤ b.v
              · simp [h3, h4]; linarith
              · simp [h3, h4, h1]
        unfold pick at c6
        split at c6
        · left; rw [c6]; exact qa
        · split at c6
          · left; rw [c6]; exact qb
          · right
            obtain ⟨a', ha', ea⟩ := hv a ha
            obtain ⟨b', hb', eb⟩ := hv b hb
            refine ⟨a', ha', b', hb', ?_, ?_, ?_, ?_, ?_⟩
            · rw [ea, eb]; exact c3
            · rw [ea, eb]; exact c6
            · rw [ea]; exact qa
            · rw [eb]; exact qb
            · rw [ea, eb, c4, c5]

example : quantileRow id 's' 1 [⟨3, 1⟩, ⟨1, 1⟩, ⟨7, 0⟩, ⟨5, 2⟩] = some 5 ∧
    quantileRow id 's' 0 [⟨3, 1⟩, ⟨1, 0⟩, ⟨7, 0⟩, ⟨5, 2⟩] = some 3 := by decide +kernel

/-- C19 is violated for arrays of length one and `q = 1`: the code reads beyond the end of both
arrays, whatever the value, weight and method. -/
theorem C19_single_element_violated (m : Char) (cast : Rat → Rat) (v w : Rat) :
    quantileRow cast m 1 [⟨v, w⟩] = none := by
  have hr : ∀ w, hoare v 2 [⟨v, w⟩] 0 0 0 = some ([⟨v, w⟩], 0, w) := by
    intro w
    have hs : scanL [⟨v, w⟩] v 0 0 = some (0, 0) := by rw [scanL]; simp
    have hr : scanR [⟨v, w⟩] v 0 = some 0 := by rw [scanR]; simp
    rw [hoare, hs, hr]
    simp [meet, weightAt]
  have key : ∀ w, select cast m 2 [⟨v, w⟩] 0 0 (total [⟨v, w⟩]) = none := by
    intro w
    rw [select]
    simp [valueAt, hr, total, boundary, maxNonZero, minNonZero]
  unfold quantileRow
  by_cases h : w = 0
  · have h0 : total [(⟨v, w⟩ : Item)] = 0 := by simp [total, h]
    rw [if_pos h0]
    simpa [uniform] using key 1
  · have h0 : ¬ total [(⟨v, w⟩ : Item)] = 0 := by simpa [total] using h
    rw [if_neg h0]
    simpa using key w

/-- C19: all-zero weights give the result of equal weights. -/
theorem C19_zero_weights (m : Char) (cast : Rat → Rat) (q : Rat) (vs : List Rat) :
    quantileRow cast m q (vs.map fun v => ⟨v, 0⟩) = quantileRow cast m q (vs.map fun v => ⟨v, 1⟩) ∧
    effective (vs.map fun v => ⟨v, 0⟩) = vs.map fun v => ⟨v, 1⟩ := by
  have h0 : total (vs.map fun v => (⟨v, 0⟩ : Item)) = 0 := by
    apply (total_zero_iff _ _).2
    · simp
    · intro x hx
      obtain ⟨v, _, rfl⟩ := List.mem_map.1 hx
      simp
  have e : uniform (vs.map fun v => (⟨v, 0⟩ : Item)) = vs.map fun v => ⟨v, 1⟩ := by
    simp [uniform]
  have e1 : uniform (vs.map fun v => (⟨v, 1⟩ : Item)) = vs.map fun v => ⟨v, 1⟩ := by
    simp [uniform]
  constructor
  · unfold quantileRow
    rw [if_pos h0, e, e1]
    simp
  · unfold effective
    rw [if_pos]
    · simp
    · simp

example : quantileRow id 's' (1/2) [⟨4, 0⟩, ⟨1, 0⟩] = some (5/2) := by decide +kernel

/-- C19: `method` and the scalar checks. Mismatched shapes, `q` outside `[0, 1]` and an unknown
method raise `ValueError` before anything is computed. -/
theorem C19_errors (rows : List (List Item)) (n : Nat) (ta tw : DType) (q : Rat) (method : String) :
    (method ≠ "split" → method ≠ "lower" → method ≠ "higher" → ∀ s,
      quantile rows n s ta tw q method = .valueError) ∧
    quantile rows n false ta tw q method = .valueError ∧
    (q < 0 ∨ 1 < q → ∀ s, quantile rows n s ta tw q method = .valueError) ∧
    (∀ s, quantile rows 0 s ta tw q method = .valueError) := by
  refine ⟨?_, ?_, ?_, ?_⟩
  · intro h1 h2 h3 s
    simp [quantile, checkMethod, h1, h2, h3]
  · unfold quantile
    cases checkMethod method <;> simp
  · intro h s
    unfold quantile
    have : q < 0 ∨ q > 1 := h
    cases checkMethod method <;> cases s <;> simp [this]
  · intro s
    unfold quantile
    cases checkMethod method <;> cases s <;> simp

example : quantile [[⟨1, 1⟩]] 1 true .double .double (3/2) "split" = .valueError ∧
    quantile [[⟨1, 1⟩]] 1 true .double .double (1/2) "linear" = .valueError ∧
    quantile [[⟨1, 1⟩]] 1 true .double .double (1/2) "split" = .ok [1] := by decide +kernel

theorem collect_ok {α β : Type} (f : α → Option β) (P : α → β → Prop) (l : List α)
    (h : ∀ x ∈ l, ∃ r, f x = some r ∧ P x r) :
    ∃ out, collect (l.map f) = .ok out ∧ List.Forall₂ P l out := by
  induction l with
  | nil => exact ⟨[], rfl, .nil⟩
  | cons x l ih =>
    obtain ⟨r, e, hr⟩ := h x (by simp)
    obtain ⟨out, e', ho⟩ := ih fun y hy => h y (by simp [hy])
    exact ⟨r :: out, by simp [collect, e, e'], .cons hr ho⟩

/-- C19, the function on whole arrays of floating point type: one result per row, each the quantile of
that row. `_partial`: `q` inside `(0, 1)`; rounding is not modelled. -/
theorem C19_rows_partial (rows : List (List Item)) (n : Nat) (hn : 0 < n)
    (hrows : ∀ row ∈ rows, row.length = n) (hw : ∀ row ∈ rows, ∀ x ∈ row, 0 ≤ x.w)
    (ta tw : DType) (hta : ta = .single ∨ ta = .double) (htw : tw ≠ .other) (q : Rat) (hq0 : 0 < q)
    (hq1 : q < 1) (method : String) (c : Char) (hm : checkMethod method = some c) :
    ∃ out, quantile rows n true ta tw q method = .ok out ∧
      List.Forall₂ (fun row r => QuantileSpec (effective row) (q * total (effective row)) c r)
        rows out := by
  have h1 : ¬ (q < 0 ∨ q > 1) := by
    rintro (h | h) <;> linarith
  have h2 : ¬ (ta = .other ∨ tw = .other) := by
    rintro (h | h)
    · rcases hta with h' | h' <;> rw [h'] at h <;> cases h
    · exact htw h
  have hcast : castTo ta = id := by
    funext x
    rcases hta with h' | h' <;> rw [h'] <;> rfl
  obtain ⟨out, e, ho⟩ := collect_ok (quantileRow id c q)
    (fun row r => QuantileSpec (effective row) (q * total (effective row)) c r) rows
    (fun row hr => C19_inner c q row (by
      intro he
      have := hrows row hr
      rw [he] at this
      simp at this
      omega) (hw row hr) hq0 hq1)
  refine ⟨out, ?_, ho⟩
  unfold quantile
  rw [hm]
  have h3 : ¬ n = 0 := by omega
  simp only [Bool.true_eq_false, if_false, h1, h2, h3, hcast]
  exact e

example : quantile [[⟨3, 1⟩, ⟨1, 1⟩], [⟨8, 0⟩, ⟨6, 2⟩]] 2 true .double .long (1/2) "split" =
    .ok [2, 6] := by decide +kernel

/-- C19 is violated for integer data: the mean of the two neighbours is truncated to an integer, so
the result is not their mean. -/
theorem C19_integer_mean_violated :
    quantile [[⟨1, 1⟩, ⟨2, 1⟩]] 2 true .long .double (1/2) "split" = .ok [1] ∧
    ¬ QuantileSpec [⟨1, 1⟩, ⟨2, 1⟩] (1/2 * 2) 's' 1 := by
  refine ⟨by decide +kernel, ?_⟩
  intro h
  have h' : QuantileSpec [⟨1, 1⟩, ⟨2, 1⟩] (1/2 * 2) 's' (3/2) := by
    right
    exact ⟨⟨1, 1⟩, by simp, ⟨2, 1⟩, by simp, by norm_num, by norm_num, by norm_num,
      by decide +kernel, by decide +kernel, by decide +kernel⟩
  have := C19_spec_unique [⟨1, 1⟩, ⟨2, 1⟩] (by simp) _ _ _ _ h h'
  norm_num at this

/-- On the lower boundary, method `lower` may return an element of weight zero. -/
example : quantileRow id 'l' 0 [⟨1, 0⟩, ⟨2, 1⟩, ⟨3, 1⟩] = some 1 ∧
    quantileRow id 'h' 0 [⟨1, 0⟩, ⟨2, 1⟩, ⟨3, 1⟩] = some 2 ∧
    quantileRow id 's' 0 [⟨1, 0⟩, ⟨2, 1⟩, ⟨3, 1⟩] = some 2 := by decide +kernel

end Verif.Quick
