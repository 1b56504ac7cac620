import Verif.Median.Spec
import Mathlib.Data.Nat.Fib.Basic
import Mathlib.Data.List.Perm.Basic
import Mathlib.Tactic.Linarith

/-! # Helper lemmas for C15: the tree invariants -/
namespace Verif.Median

variable (add : Rat → Rat → Rat)

/-- The weight recomputed from scratch with the same additions. -/
def wsum : Tree → Rat
  | .nil => 0
  | .node l d _ _ _ _ r => add (add (wsum l) (wsum r)) d.w

/-- Caches are right and the tree is balanced. -/
def Good : Tree → Prop
  | .nil => True
  | .node l _ lh rh lw rw r => Good l ∧ Good r ∧ lh = height l ∧ rh = height r ∧
      lw = wsum add l ∧ rw = wsum add r ∧ height l ≤ height r + 1 ∧ height r ≤ height l + 1

variable {add}

theorem Good.th {t : Tree} (h : Good add t) : totalHeight t = height t := by
  cases t with
  | nil => rfl
  | node l d lh rh lw rw r => obtain ⟨_, _, rfl, rfl, _⟩ := h; rfl

theorem Good.tw {t : Tree} (h : Good add t) : totalWeight add t = wsum add t := by
  cases t with
  | nil => rfl
  | node l d lh rh lw rw r => obtain ⟨_, _, _, _, rfl, rfl, _⟩ := h; rfl

theorem th_node (l : Tree) (d : Item) (lh rh : Nat) (lw rw : Rat) (r : Tree) :
    totalHeight (.node l d lh rh lw rw r) = max lh rh + 1 := rfl

theorem good_mk {l r : Tree} (d : Item) (hl : Good add l) (hr : Good add r)
    (h1 : height l ≤ height r + 1) (h2 : height r ≤ height l + 1) : Good add (mk add l d r) :=
  ⟨hl, hr, hl.th, hr.th, hl.tw, hr.tw, h1, h2⟩

@[simp] theorem height_mk (l : Tree) (d : Item) (r : Tree) :
    height (mk add l d r) = max (height l) (height r) + 1 := rfl

@[simp] theorem items_mk (l : Tree) (d : Item) (r : Tree) :
    items (mk add l d r) = items l ++ d :: items r := rfl

/-- Balanced subtrees: the first round does not rotate. -/
theorem visitN_flat {l r : Tree} (n : Nat) (d : Item) (lh rh : Nat) (lw rw : Rat)
    (hl : Good add l) (hr : Good add r)
    (h1 : height l ≤ height r + 1) (h2 : height r ≤ height l + 1) :
    visitN add (n + 1) (.node l d lh rh lw rw r) = some (mk add l d r) := by
  simp only [visitN, update, Option.bind_eq_bind, Option.bind_some, mk, balance]
  rw [hl.th, hr.th, if_neg (by omega), if_neg (by omega)]
  simp

theorem visit_left {l r : Tree} (d : Item) (lh rh : Nat) (lw rw : Rat)
    (hl : Good add l) (hr : Good add r) (h : height l = height r + 2) :
    ∃ t, visit add (.node l d lh rh lw rw r) = some t ∧ Good add t ∧
      items t = items l ++ d :: items r ∧ height l ≤ height t ∧ height t ≤ height l + 1 := by
  cases l with
  | nil => simp [height] at h
  | node a ld lh' rh' lw' rw' b =>
    obtain ⟨ga, gb, rfl, rfl, rfl, rfl, i1, i2⟩ := hl
    simp only [height] at h
    by_cases hab : height b ≤ height a
    · have e : visit add (.node (.node a ld (height a) (height b) (wsum add a) (wsum add b) b)
          d lh rh lw rw r) = visitN add 1 (mk add a ld (mk add b d r)) := by
        simp only [visit]
        rw [visitN]
        simp only [update, Option.bind_eq_bind, Option.bind_some, mk, balance, th_node, hr.th]
        rw [if_pos (by omega)]
        simp [balanceLeft, heights, hab, rotateR, mk, th_node, hr.th]
      rw [e]
      rw [mk, visitN_flat 0 ld _ _ _ _ ga
        (good_mk d gb hr (by omega) (by omega)) (by simp; omega) (by simp; omega)]
      refine ⟨_, rfl, good_mk _ ga (good_mk d gb hr (by omega) (by omega)) (by simp; omega)
        (by simp; omega), by simp [items], ?_, ?_⟩ <;> simp [height] <;> omega
    · cases b with
      | nil => simp [height] at hab
      | node b1 bd l3 r3 w3 x3 b2 =>
        obtain ⟨g1, g2, rfl, rfl, rfl, rfl, i3, i4⟩ := gb
        simp only [height] at h i1 i2 hab
        have e : visit add (.node (.node a ld (height a)
            (height (.node b1 bd (height b1) (height b2) (wsum add b1) (wsum add b2) b2))
            (wsum add a)
            (wsum add (.node b1 bd (height b1) (height b2) (wsum add b1) (wsum add b2) b2))
            (.node b1 bd (height b1) (height b2) (wsum add b1) (wsum add b2) b2)) d lh rh lw rw r) =
            visitN add 1 (mk add (mk add a ld b1) bd (mk add b2 d r)) := by
          simp only [visit]
          rw [visitN]
          simp only [update, Option.bind_eq_bind, Option.bind_some, mk, balance, th_node, hr.th,
            height]
          rw [if_pos (by omega)]
          simp only [balanceLeft, heights, Option.bind_eq_bind, Option.bind_some]
          rw [if_neg (by omega)]
          simp [rotateR, rotateL, mk, th_node, hr.th]
        rw [e]
        have G1 := good_mk (add := add) ld ga g1 (by omega) (by omega)
        have G2 := good_mk (add := add) d g2 hr (by omega) (by omega)
        rw [mk, visitN_flat 0 bd _ _ _ _ G1 G2 (by simp; omega) (by simp; omega)]
        refine ⟨_, rfl, good_mk _ G1 G2 (by simp; omega) (by simp; omega), by simp [items],
          ?_, ?_⟩ <;> simp [height] <;> omega

theorem visit_right {l r : Tree} (d : Item) (lh rh : Nat) (lw rw : Rat)
    (hl : Good add l) (hr : Good add r) (h : height r = height l + 2) :
    ∃ t, visit add (.node l d lh rh lw rw r) = some t ∧ Good add t ∧
      items t = items l ++ d :: items r ∧ height r ≤ height t ∧ height t ≤ height r + 1 := by
  cases r with
  | nil => simp [height] at h
  | node a rd lh' rh' lw' rw' b =>
    obtain ⟨ga, gb, rfl, rfl, rfl, rfl, i1, i2⟩ := hr
    simp only [height] at h
    by_cases hab : height a ≤ height b
    · have e : visit add (.node l d lh rh lw rw
          (.node a rd (height a) (height b) (wsum add a) (wsum add b) b)) =
          visitN add 1 (mk add (mk add l d a) rd b) := by
        simp only [visit]
        rw [visitN]
        simp only [update, Option.bind_eq_bind, Option.bind_some, mk, balance, th_node, hl.th]
        rw [if_neg (by omega), if_pos (by omega)]
        simp [balanceRight, heights, hab, rotateL, mk, th_node, hl.th]
      rw [e]
      have G := good_mk (add := add) d hl ga (by omega) (by omega)
      rw [mk, visitN_flat 0 rd _ _ _ _ G gb (by simp; omega) (by simp; omega)]
      refine ⟨_, rfl, good_mk _ G gb (by simp; omega)
        (by simp; omega), by simp [items], ?_, ?_⟩ <;> simp [height] <;> omega
    · cases a with
      | nil => simp [height] at hab
      | node b1 bd l3 r3 w3 x3 b2 =>
        obtain ⟨g1, g2, rfl, rfl, rfl, rfl, i3, i4⟩ := ga
        simp only [height] at h i1 i2 hab
        have e : visit add (.node l d lh rh lw rw (.node
            (.node b1 bd (height b1) (height b2) (wsum add b1) (wsum add b2) b2) rd
            (height (.node b1 bd (height b1) (height b2) (wsum add b1) (wsum add b2) b2)) (height b)
            (wsum add (.node b1 bd (height b1) (height b2) (wsum add b1) (wsum add b2) b2))
            (wsum add b) b)) =
            visitN add 1 (mk add (mk add l d b1) bd (mk add b2 rd b)) := by
          simp only [visit]
          rw [visitN]
          simp only [update, Option.bind_eq_bind, Option.bind_some, mk, balance, th_node, hl.th,
            height]
          rw [if_neg (by omega), if_pos (by omega)]
          simp only [balanceRight, heights, Option.bind_eq_bind, Option.bind_some]
          rw [if_neg (by omega)]
          simp [rotateR, rotateL, mk, th_node, hl.th]
        rw [e]
        have G1 := good_mk (add := add) d hl g1 (by omega) (by omega)
        have G2 := good_mk (add := add) rd g2 gb (by omega) (by omega)
        rw [mk, visitN_flat 0 bd _ _ _ _ G1 G2 (by simp; omega) (by simp; omega)]
        refine ⟨_, rfl, good_mk _ G1 G2 (by simp; omega) (by simp; omega), by simp [items],
          ?_, ?_⟩ <;> simp [height] <;> omega

/-- One place of the path: whatever the caches were, the result is good, keeps the items in order,
and its height is what is expected. -/
theorem visit_ok {l r : Tree} (d : Item) (lh rh : Nat) (lw rw : Rat)
    (hl : Good add l) (hr : Good add r)
    (h1 : height l ≤ height r + 2) (h2 : height r ≤ height l + 2) :
    ∃ t, visit add (.node l d lh rh lw rw r) = some t ∧ Good add t ∧
      items t = items l ++ d :: items r ∧
      (height l ≤ height r + 1 → height r ≤ height l + 1 →
        height t = max (height l) (height r) + 1) ∧
      max (height l) (height r) ≤ height t ∧ height t ≤ max (height l) (height r) + 1 := by
  by_cases c1 : height l = height r + 2
  · obtain ⟨t, e, g, i, a, b⟩ := visit_left d lh rh lw rw hl hr c1
    exact ⟨t, e, g, i, by omega, by omega, by omega⟩
  · by_cases c2 : height r = height l + 2
    · obtain ⟨t, e, g, i, a, b⟩ := visit_right d lh rh lw rw hl hr c2
      exact ⟨t, e, g, i, by omega, by omega, by omega⟩
    · refine ⟨_, visitN_flat 1 d lh rh lw rw hl hr (by omega) (by omega),
        good_mk d hl hr (by omega) (by omega), rfl, fun _ _ => rfl, ?_, ?_⟩ <;> simp

/-! ## Order -/

theorem lt_iff (a b : Item) : a.lt b = true ↔ ¬ b.le a := by
  unfold Item.lt Item.le
  by_cases h : a.v = b.v
  · simp [h]
  · simp only [if_neg h, decide_eq_true_eq, not_or, not_and, not_lt]
    constructor
    · intro h'
      exact ⟨le_of_lt h', fun e => absurd e.symm h⟩
    · intro h'
      exact lt_of_le_of_ne h'.1 h

theorem not_lt_iff (a b : Item) : a.lt b = false ↔ b.le a := by
  rw [← Bool.not_eq_true, lt_iff, not_not]

theorem Item.le_refl (a : Item) : a.le a := Or.inr ⟨rfl, le_rfl⟩

theorem Item.le_of_lt {a b : Item} (h : a.lt b = true) : a.le b := by
  rw [lt_iff] at h
  unfold Item.le at *
  rcases lt_trichotomy a.v b.v with h' | h' | h'
  · exact Or.inl h'
  · refine Or.inr ⟨h', ?_⟩
    by_contra h2
    exact h (Or.inr ⟨h'.symm, by linarith⟩)
  · exact absurd (Or.inl h') h

theorem Item.le_trans {a b c : Item} (h : a.le b) (h' : b.le c) : a.le c := by
  unfold Item.le at *
  rcases h with h | ⟨h, h2⟩ <;> rcases h' with h' | ⟨h', h3⟩
  · exact Or.inl (by linarith)
  · exact Or.inl (by linarith)
  · exact Or.inl (by linarith)
  · exact Or.inr ⟨by linarith, by linarith⟩

theorem Item.le_antisymm {a b : Item} (h : a.le b) (h' : b.le a) : a = b := by
  unfold Item.le at *
  cases a; cases b
  simp only [Item.mk.injEq] at *
  rcases h with h | ⟨h, h2⟩ <;> rcases h' with h' | ⟨h', h3⟩
  · exact absurd h (by linarith)
  · exact absurd h (by linarith)
  · exact absurd h' (by linarith)
  · exact ⟨h, by linarith⟩

/-- Sorted list of items. -/
def Sorted (xs : List Item) : Prop := xs.Pairwise Item.le

theorem sorted_mid {a b : List Item} {d : Item} :
    Sorted (a ++ d :: b) ↔ Sorted a ∧ Sorted b ∧ (∀ x ∈ a, x.le d) ∧ (∀ x ∈ b, d.le x) := by
  unfold Sorted
  rw [List.pairwise_append, List.pairwise_cons]
  constructor
  · rintro ⟨h1, ⟨h2, h3⟩, h4⟩
    exact ⟨h1, h3, fun x hx => h4 x hx d (by simp), h2⟩
  · rintro ⟨h1, h2, h3, h4⟩
    refine ⟨h1, ⟨h4, h2⟩, fun x hx y hy => ?_⟩
    rcases List.mem_cons.mp hy with rfl | hy
    · exact h3 x hx
    · exact Item.le_trans (h3 x hx) (h4 y hy)

theorem insertAt_ok (x : Item) (t : Tree) (h : Good add t) (hs : Sorted (items t)) :
    ∃ t', insertAt add x t = some t' ∧ Good add t' ∧ Sorted (items t') ∧
      (items t').Perm (x :: items t) ∧ height t ≤ height t' ∧ height t' ≤ height t + 1 := by
  induction t with
  | nil => exact ⟨leaf x, rfl, ⟨trivial, trivial, rfl, rfl, rfl, rfl, by simp [height]⟩,
      by simp [leaf, items, Sorted], by simp [leaf, items], by simp [height, leaf]⟩
  | node l d lh rh lw rw r ihl ihr =>
    obtain ⟨gl, gr, rfl, rfl, rfl, rfl, i1, i2⟩ := h
    obtain ⟨sl, sr, bl, br⟩ := sorted_mid.mp hs
    by_cases c : x.lt d = true
    · obtain ⟨l', e, g', s', p', u, v⟩ := ihl gl sl
      obtain ⟨t, e', g, i, a1, a2, a3⟩ := visit_ok (add := add) (l := l') (r := r) d (height l)
        (height r) (wsum add l) (wsum add r) g' gr (by omega) (by omega)
      refine ⟨t, by simp [insertAt, c, e, e'], g, ?_, ?_, ?_, ?_⟩
      · rw [i, sorted_mid]
        refine ⟨s', sr, fun y hy => ?_, br⟩
        rcases List.mem_cons.mp (p'.mem_iff.mp hy) with rfl | hy
        · exact Item.le_of_lt c
        · exact bl y hy
      · rw [i]
        simp only [items]
        exact (p'.append_right _)
      · simp only [height]; omega
      · simp only [height]; omega
    · obtain ⟨r', e, g', s', p', u, v⟩ := ihr gr sr
      obtain ⟨t, e', g, i, a1, a2, a3⟩ := visit_ok (add := add) (l := l) (r := r') d (height l)
        (height r) (wsum add l) (wsum add r) gl g' (by omega) (by omega)
      have c' := (not_lt_iff x d).mp (by simpa using c)
      refine ⟨t, by simp [insertAt, c, e, e'], g, ?_, ?_, ?_, ?_⟩
      · rw [i, sorted_mid]
        refine ⟨sl, s', bl, fun y hy => ?_⟩
        rcases List.mem_cons.mp (p'.mem_iff.mp hy) with rfl | hy
        · exact c'
        · exact br y hy
      · rw [i]
        simp only [items]
        refine (List.Perm.append_left _ (p'.cons d)).trans ?_
        refine (List.Perm.append_left _ (List.Perm.swap x d _)).trans ?_
        exact List.perm_middle
      · simp only [height]; omega
      · simp only [height]; omega

theorem find_iff (x : Item) (t : Tree) (hs : Sorted (items t)) :
    find x t = true ↔ x ∈ items t := by
  induction t with
  | nil => simp [find, items]
  | node l d lh rh lw rw r ihl ihr =>
    obtain ⟨sl, sr, bl, br⟩ := sorted_mid.mp hs
    simp only [find, items, List.mem_append, List.mem_cons]
    by_cases e : d = x
    · simp [e]
    · rw [if_neg e]
      have e' : ¬ x = d := fun h => e h.symm
      by_cases c : x.lt d = true
      · rw [if_pos c, ihl sl]
        constructor
        · exact Or.inl
        · rintro (h | h | h)
          · exact h
          · exact absurd h e'
          · exact absurd (br x h) ((lt_iff _ _).mp c)
      · rw [if_neg c, ihr sr]
        have c' := (not_lt_iff x d).mp (by simpa using c)
        constructor
        · exact fun h => Or.inr (Or.inr h)
        · rintro (h | h | h)
          · exact absurd (Item.le_antisymm c' (bl x h)) e
          · exact absurd h e'
          · exact h

theorem removeMin_ok (t : Tree) (h : Good add t) (hne : t ≠ .nil) :
    ∃ m t', removeMin add t = some (m, t') ∧ Good add t' ∧ items t = m :: items t' ∧
      height t' ≤ height t ∧ height t ≤ height t' + 1 := by
  induction t with
  | nil => exact absurd rfl hne
  | node l d lh rh lw rw r ihl ihr =>
    obtain ⟨gl, gr, rfl, rfl, rfl, rfl, i1, i2⟩ := h
    cases l with
    | nil => exact ⟨d, r, by simp [removeMin], gr, by simp [items], by simp [height], by simp [height]⟩
    | node a b c e f g k =>
      obtain ⟨m, l', e1, g1, p1, u, v⟩ := ihl gl (by simp)
      obtain ⟨t, e', g', i, a1, a2, a3⟩ := visit_ok (add := add) (l := l') (r := r) d
        (height (.node a b c e f g k)) (height r) (wsum add (.node a b c e f g k)) (wsum add r)
        g1 gr (by omega) (by omega)
      refine ⟨m, t, by rw [removeMin, e1]; simp [e']; simp, g', ?_, ?_, ?_⟩
      · rw [i]; rw [items, p1]; simp
      · rw [height]; omega
      · rw [height]; omega

theorem removeRoot_ok (l : Tree) (d : Item) (r : Tree) (lh rh : Nat) (lw rw : Rat)
    (h : Good add (.node l d lh rh lw rw r)) :
    ∃ t', removeRoot add l lh rh lw rw r = some t' ∧ Good add t' ∧ items t' = items l ++ items r ∧
      height t' ≤ height (.node l d lh rh lw rw r) ∧
      height (.node l d lh rh lw rw r) ≤ height t' + 1 := by
  obtain ⟨gl, gr, rfl, rfl, rfl, rfl, i1, i2⟩ := h
  unfold removeRoot
  by_cases c : l = .nil
  · subst c
    exact ⟨r, by simp, gr, by simp [items], by simp [height], by simp [height]⟩
  · rw [if_neg c]
    by_cases c' : r = .nil
    · subst c'
      exact ⟨l, by simp, gl, by simp [items], by simp [height], by simp [height]⟩
    · rw [if_neg c']
      obtain ⟨m, r', e1, g1, p1, u, v⟩ := removeMin_ok r gr c'
      obtain ⟨t, e', g', i, a1, a2, a3⟩ := visit_ok (add := add) (l := l) (r := r') m
        (height l) (height r) (wsum add l) (wsum add r) gl g1 (by omega) (by omega)
      refine ⟨t, by simp [e1, e'], g', by rw [i, p1], ?_, ?_⟩ <;> simp only [height] <;> omega

theorem removeAt_ok (x : Item) (t : Tree) (h : Good add t) (hs : Sorted (items t))
    (hx : x ∈ items t) :
    ∃ t', removeAt add x t = some t' ∧ Good add t' ∧ Sorted (items t') ∧
      (items t).Perm (x :: items t') ∧ height t' ≤ height t ∧ height t ≤ height t' + 1 := by
  induction t with
  | nil => simp [items] at hx
  | node l d lh rh lw rw r ihl ihr =>
    have h0 := h
    obtain ⟨gl, gr, rfl, rfl, rfl, rfl, i1, i2⟩ := h
    obtain ⟨sl, sr, bl, br⟩ := sorted_mid.mp hs
    unfold removeAt
    by_cases e : d = x
    · rw [if_pos e]
      obtain ⟨t', e', g', i', u, v⟩ := removeRoot_ok _ _ _ _ _ _ _ h0
      refine ⟨t', e', g', ?_, ?_, u, v⟩
      · rw [i']
        exact hs.sublist (by simp [items])
      · rw [i', ← e]
        exact List.perm_middle
    · rw [if_neg e]
      have e' : ¬ x = d := fun h => e h.symm
      by_cases c : x.lt d = true
      · rw [if_pos c]
        have hx' : x ∈ items l := by
          simp only [items, List.mem_append, List.mem_cons] at hx
          rcases hx with hx | hx | hx
          · exact hx
          · exact absurd hx e'
          · exact absurd (br x hx) ((lt_iff _ _).mp c)
        obtain ⟨l', e1, g', s', p', u, v⟩ := ihl gl sl hx'
        obtain ⟨t, e2, g, i, a1, a2, a3⟩ := visit_ok (add := add) (l := l') (r := r) d (height l)
          (height r) (wsum add l) (wsum add r) g' gr (by omega) (by omega)
        refine ⟨t, by simp [e1, e2], g, ?_, ?_, ?_, ?_⟩
        · rw [i, sorted_mid]
          exact ⟨s', sr, fun y hy => bl y (p'.mem_iff.mpr (List.mem_cons_of_mem _ hy)), br⟩
        · rw [i]
          simp only [items]
          exact (p'.append_right _)
        · simp only [height]; omega
        · simp only [height]; omega
      · rw [if_neg c]
        have c' := (not_lt_iff x d).mp (by simpa using c)
        have hx' : x ∈ items r := by
          simp only [items, List.mem_append, List.mem_cons] at hx
          rcases hx with hx | hx | hx
          · exact absurd (Item.le_antisymm c' (bl x hx)) e
          · exact absurd hx e'
          · exact hx
        obtain ⟨r', e1, g', s', p', u, v⟩ := ihr gr sr hx'
        obtain ⟨t, e2, g, i, a1, a2, a3⟩ := visit_ok (add := add) (l := l) (r := r') d (height l)
          (height r) (wsum add l) (wsum add r) gl g' (by omega) (by omega)
        refine ⟨t, by simp [e1, e2], g, ?_, ?_, ?_, ?_⟩
        · rw [i, sorted_mid]
          exact ⟨sl, s', bl, fun y hy => br y (p'.mem_iff.mpr (List.mem_cons_of_mem _ hy))⟩
        · rw [i]
          simp only [items]
          refine (List.Perm.append_left _ (p'.cons d)).trans ?_
          refine (List.Perm.append_left _ (List.Perm.swap x d _)).trans ?_
          exact List.perm_middle
        · simp only [height]; omega
        · simp only [height]; omega

/-- Invariant of the tree object against a bag of items. -/
structure Inv (add : Rat → Rat → Rat) (t : MTree) (b : List Item) : Prop where
  good : Good add t.root
  sorted : Sorted (items t.root)
  perm : (items t.root).Perm b
  size : t.size = b.length

theorem inv_empty : Inv add MTree.empty [] :=
  ⟨trivial, by simp [MTree.empty, items, Sorted], by simp [MTree.empty, items], rfl⟩

theorem inv_insert {t : MTree} {b : List Item} (h : Inv add t b) (x : Item) :
    ∃ t', t.insert add x = some t' ∧ Inv add t' (b ++ [x]) := by
  obtain ⟨r, e, g, s, p, _, _⟩ := insertAt_ok x t.root h.good h.sorted
  refine ⟨⟨r, t.size + 1⟩, by simp [MTree.insert, e], g, s, ?_, by simp [h.size]⟩
  exact (p.trans (h.perm.cons x)).trans (List.perm_append_singleton x b).symm

theorem inv_remove {t : MTree} {b : List Item} (h : Inv add t b) (x : Item) :
    ∃ t', t.remove add x = some (t', decide (x ∈ b)) ∧ Inv add t' (b.erase x) := by
  have hf := find_iff x t.root h.sorted
  rw [h.perm.mem_iff] at hf
  unfold MTree.remove
  by_cases hx : x ∈ b
  · rw [if_pos (hf.mpr hx)]
    obtain ⟨r, e, g, s, p, _, _⟩ :=
      removeAt_ok x t.root h.good h.sorted (h.perm.mem_iff.mpr hx)
    refine ⟨⟨r, t.size - 1⟩, by simp [e, hx], g, s, ?_, by simp [h.size, List.length_erase_of_mem hx]⟩
    have : (x :: items r).Perm (x :: b.erase x) :=
      (p.symm.trans h.perm).trans (List.perm_cons_erase hx)
    exact this.cons_inv
  · rw [if_neg (fun c => hx (hf.mp c))]
    refine ⟨t, by simp [hx], h.good, h.sorted, ?_, ?_⟩
    · rw [List.erase_of_not_mem hx]; exact h.perm
    · rw [List.erase_of_not_mem hx]; exact h.size

theorem inv_run (ops : List Op) {t : MTree} {b : List Item} (h : Inv add t b) :
    ∃ t', runOps add ops t = some (t', (bag ops b).2) ∧ Inv add t' (bag ops b).1 := by
  induction ops generalizing t b with
  | nil => exact ⟨t, rfl, h⟩
  | cons op ops ih =>
    cases op with
    | insert x =>
      obtain ⟨t1, e1, h1⟩ := inv_insert h x
      obtain ⟨t2, e2, h2⟩ := ih h1
      exact ⟨t2, by simp [runOps, e1, e2, bag], h2⟩
    | remove x =>
      obtain ⟨t1, e1, h1⟩ := inv_remove h x
      obtain ⟨t2, e2, h2⟩ := ih h1
      exact ⟨t2, by simp [runOps, e1, e2, bag], h2⟩

theorem good_height_fib (t : Tree) (h : Good add t) :
    Nat.fib (height t + 2) ≤ (items t).length + 1 := by
  induction t with
  | nil => simp [height, items]
  | node l d lh rh lw rw r ihl ihr =>
    obtain ⟨gl, gr, _, _, _, _, i1, i2⟩ := h
    have hl := ihl gl
    have hr := ihr gr
    simp only [height, items, List.length_append, List.length_cons]
    rcases Nat.le_total (height l) (height r) with c | c
    · rw [max_eq_right c]
      have e : height r + 1 + 2 = (height r + 1) + 2 := rfl
      rw [e, Nat.fib_add_two]
      have : Nat.fib (height r + 1) ≤ Nat.fib (height l + 2) := Nat.fib_mono (by omega)
      have e2 : height r + 1 + 1 = height r + 2 := rfl
      rw [e2]
      omega
    · rw [max_eq_left c]
      have e : height l + 1 + 2 = (height l + 1) + 2 := rfl
      rw [e, Nat.fib_add_two]
      have : Nat.fib (height l + 1) ≤ Nat.fib (height r + 2) := Nat.fib_mono (by omega)
      have e2 : height l + 1 + 1 = height l + 2 := rfl
      rw [e2]
      omega

theorem wsum_exact (t : Tree) : wsum exact t = wt (items t) := by
  induction t with
  | nil => simp [wsum, items, wt]
  | node l d lh rh lw rw r ihl ihr =>
    simp only [wsum, ihl, ihr, items, wt, exact, List.map_append, List.map_cons, List.sum_append,
      List.sum_cons]
    ring

theorem good_all (t : Tree) (h : Good add t) :
    AllNodes (fun l lh rh lw rw r => lh = height l ∧ rh = height r ∧ lw = wsum add l ∧
      rw = wsum add r ∧ height l ≤ height r + 1 ∧ height r ≤ height l + 1) t := by
  induction t with
  | nil => trivial
  | node l d lh rh lw rw r ihl ihr =>
    obtain ⟨gl, gr, h⟩ := h
    exact ⟨h, ihl gl, ihr gr⟩

end Verif.Median
