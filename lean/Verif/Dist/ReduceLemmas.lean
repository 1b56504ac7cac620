import Verif.Dist.Reduce
import Verif.Dist.UfuncLemmas
import Verif.Dist.TransposeLemmas
import Mathlib.Tactic.Common
import Mathlib.Data.List.Perm.Lattice

/-!
# Lemmas about reductions
-/
namespace Verif.Dist

open Verif.Mpi (blockStart blockLen)
open Verif.Reshape (InShape prod)

variable {α β : Type}

theorem sel_true_set (m : List Bool) (s : List β) (a : Nat) (v : β) (h : m[a]? = some false) :
    sel m true (s.set a v) = sel m true s := by
  induction m generalizing s a with
  | nil => rfl
  | cons b m ih =>
    cases s with
    | nil => rfl
    | cons x s =>
      cases a with
      | zero =>
        simp only [List.getElem?_cons_zero, Option.some.injEq] at h
        subst h
        simp [sel]
      | succ a =>
        simp only [List.set_cons_succ, sel]
        rw [ih s a (by simpa using h)]

/-- Number of `false` before place `a`. -/
def falses (m : List Bool) (a : Nat) : Nat := ((m.take a).filter (· == false)).length

theorem falses_succ_false (m : List Bool) (a : Nat) : falses (false :: m) (a + 1) = falses m a + 1 := by
  simp [falses]

theorem falses_succ_true (m : List Bool) (a : Nat) : falses (true :: m) (a + 1) = falses m a := by
  simp [falses]

theorem sel_false_set (m : List Bool) (s : List β) (a : Nat) (v : β) (h : m[a]? = some false) :
    sel m false (s.set a v) = (sel m false s).set (falses m a) v := by
  induction m generalizing s a with
  | nil => rfl
  | cons b m ih =>
    cases s with
    | nil => rfl
    | cons x s =>
      cases a with
      | zero =>
        simp only [List.getElem?_cons_zero, Option.some.injEq] at h
        subst h
        simp [sel, falses]
      | succ a =>
        have h2 := ih s a (by simpa using h)
        cases b with
        | true => simp only [List.set_cons_succ, sel, falses_succ_true, h2]; rfl
        | false => simp only [List.set_cons_succ, sel, falses_succ_false, h2, if_true]

theorem sel_false_modify (m : List Bool) (s : List β) (a : Nat) (f : β → β) (h : m[a]? = some false) :
    sel m false (s.modify a f) = (sel m false s).modify (falses m a) f := by
  induction m generalizing s a with
  | nil => simp [sel]
  | cons b m ih =>
    cases s with
    | nil => simp [sel]
    | cons x s =>
      cases a with
      | zero =>
        simp only [List.getElem?_cons_zero, Option.some.injEq] at h
        subst h
        simp [sel, falses]
      | succ a =>
        have h2 := ih s a (by simpa using h)
        cases b with
        | true => simp only [List.modify_succ_cons, sel, falses_succ_true, h2]; rfl
        | false => simp only [List.modify_succ_cons, sel, falses_succ_false, h2, if_true]

theorem sel_false_get (m : List Bool) (s : List β) (a : Nat) (h : m[a]? = some false) (hl : m.length = s.length) :
    (sel m false s)[falses m a]? = s[a]? := by
  induction m generalizing s a with
  | nil => simp at h
  | cons b m ih =>
    cases s with
    | nil => simp at hl
    | cons x s =>
      cases a with
      | zero =>
        simp only [List.getElem?_cons_zero, Option.some.injEq] at h
        subst h
        simp [sel, falses]
      | succ a =>
        have h2 := ih s a (by simpa using h) (by simpa using hl)
        cases b with
        | true => simp only [sel, falses_succ_true, List.getElem?_cons_succ, ← h2]; rfl
        | false => simp only [sel, falses_succ_false, List.getElem?_cons_succ, ← h2, if_true]

theorem merge_modify (m : List Bool) (o k : List Nat) (a : Nat) (f : Nat → Nat) (h : m[a]? = some false) :
    (merge m o k).modify a f = merge m (o.modify (falses m a) f) k := by
  induction m generalizing o k a with
  | nil => simp at h
  | cons b m ih =>
    cases a with
    | zero =>
      simp only [List.getElem?_cons_zero, Option.some.injEq] at h
      subst h
      cases o with
      | nil => simp [merge, falses]
      | cons y o => simp [merge, falses]
    | succ a =>
      have h2 := fun o k => ih o k a (by simpa using h)
      cases b with
      | true =>
        cases k with
        | nil => simp [merge]
        | cons x k => simp only [merge, List.modify_succ_cons, falses_succ_true, h2]
      | false =>
        cases o with
        | nil => simp [merge]
        | cons y o => simp only [merge, List.modify_succ_cons, falses_succ_false, h2]

theorem merge_inShape (m : List Bool) (s o k : List Nat) (hl : m.length = s.length)
    (ho : InShape o (sel m false s)) (hk : InShape k (sel m true s)) : InShape (merge m o k) s := by
  induction m generalizing s o k with
  | nil =>
    cases s with
    | nil => exact List.Forall₂.nil
    | cons x s => simp at hl
  | cons b m ih =>
    cases s with
    | nil => simp at hl
    | cons x s =>
      cases b with
      | true =>
        simp only [sel, if_true, Bool.true_eq_false, if_false] at ho hk
        cases hk with
        | cons h1 h2 => exact List.Forall₂.cons h1 (ih s _ _ (by simpa using hl) ho h2)
      | false =>
        simp only [sel, if_true, Bool.false_eq_true, if_false] at ho hk
        cases ho with
        | cons h1 h2 => exact List.Forall₂.cons h1 (ih s _ _ (by simpa using hl) h2 hk)

theorem indices_inShape (s i : List Nat) : i ∈ indices s ↔ InShape i s := by
  induction s generalizing i with
  | nil =>
    simp only [indices, List.mem_singleton]
    constructor
    · rintro rfl; exact List.Forall₂.nil
    · intro h; cases h; rfl
  | cons n s ih =>
    simp only [indices, List.mem_flatMap, List.mem_range, List.mem_map]
    constructor
    · rintro ⟨x, hx, j, hj, rfl⟩
      exact List.Forall₂.cons hx ((ih j).1 hj)
    · intro h
      cases h with
      | cons h1 h2 => exact ⟨_, h1, _, (ih _).2 h2, rfl⟩

theorem keepShape_set (m : List Bool) (s : List Nat) (a L : Nat) (h : m[a]? = some false) :
    keepShape m (s.set a L) = (keepShape m s).set a L := by
  unfold keepShape
  induction m generalizing s a with
  | nil => simp at h
  | cons b m ih =>
    cases s with
    | nil => simp
    | cons x s =>
      cases a with
      | zero =>
        simp only [List.getElem?_cons_zero, Option.some.injEq] at h
        subst h
        simp
      | succ a => simp [ih s a (by simpa using h)]

theorem keepShape_get (m : List Bool) (s : List Nat) (a : Nat) (h : m[a]? = some false)
    (hl : m.length = s.length) : (keepShape m s)[a]? = s[a]? := by
  unfold keepShape
  induction m generalizing s a with
  | nil => simp at h
  | cons b m ih =>
    cases s with
    | nil => simp at hl
    | cons x s =>
      cases a with
      | zero =>
        simp only [List.getElem?_cons_zero, Option.some.injEq] at h
        subst h
        simp
      | succ a => simpa using ih s a (by simpa using h) (by simpa using hl)

theorem sel_inShape (m : List Bool) (s j : List Nat) (hl : m.length = s.length)
    (h : InShape j (keepShape m s)) : InShape (sel m false j) (sel m false s) := by
  induction m generalizing s j with
  | nil => exact List.Forall₂.nil
  | cons b m ih =>
    cases s with
    | nil => simp at hl
    | cons x s =>
      simp only [keepShape, List.zipWith_cons_cons] at h
      cases h with
      | cons h1 h2 =>
        have h3 := ih s _ (by simpa using hl) h2
        cases b with
        | true => simpa [sel] using h3
        | false => simp only [sel, if_true]; exact List.Forall₂.cons (by simpa using h1) h3

theorem prod_eq_zero (s : List Nat) : prod s = 0 ↔ 0 ∈ s := by
  induction s with
  | nil => simp [prod]
  | cons x s ih =>
    rw [Reshape.prod_cons, List.mem_cons, Nat.mul_eq_zero, ih]
    grind

theorem mem_set_zero {s : List Nat} {b L : Nat} (h : 0 ∈ s) (hb : s[b]? = some 0 → L = 0) : 0 ∈ s.set b L := by
  obtain ⟨k, hk, hk0⟩ := List.mem_iff_getElem.1 h
  by_cases hkb : b = k
  · subst hkb
    have := hb (by rw [List.getElem?_eq_getElem hk, hk0])
    subst this
    exact List.mem_iff_getElem.2 ⟨b, by simpa using hk, by simp⟩
  · exact List.mem_iff_getElem.2 ⟨k, by simpa using hk, by rw [List.getElem_set, if_neg hkb, hk0]⟩

/-- The reduction of a block is the block of the reduction. -/
theorem reduced_block (u : Red α) (G : NArr α) (a : Nat) (c : Comm) (A : MArr α) (hA : IsBlock G a c A)
    (m : List Bool) (hl : m.length = G.shape.length) (ha : m[a]? = some false) (keep : Bool) :
    ∀ b, b = (if keep then a else falses m a) →
    (reduced u A.arr m keep).shape = (reduced u G m keep).shape.set b
      (blockLen (G.shape.getD a 0) c.size c.rank) ∧
    (reduced u G m keep).shape[b]? = G.shape[a]? ∧
    ∀ j, InShape j (reduced u A.arr m keep).shape → (reduced u A.arr m keep).val j =
      (reduced u G m keep).val (j.modify b (· + blockStart (G.shape.getD a 0) c.size c.rank)) := by
  rintro b rfl
  have hin : ∀ o, InShape o (sel m false A.arr.shape) →
      (indices (sel m true A.arr.shape)).map (fun k => A.arr.val (merge m o k)) =
      (indices (sel m true G.shape)).map (fun k => G.val (merge m
        (o.modify (falses m a) (· + blockStart (G.shape.getD a 0) c.size c.rank)) k)) := by
    intro o ho
    have e : sel m true A.arr.shape = sel m true G.shape := by rw [hA.shape, sel_true_set _ _ _ _ ha]
    rw [e]
    apply List.map_congr_left
    intro k hk
    rw [hA.elems _ (merge_inShape m _ _ _ (by rw [hA.shape]; simpa using hl) ho
      (by rw [e]; exact (indices_inShape _ _).1 hk)), merge_modify _ _ _ _ _ ha]
  cases keep with
  | true =>
    refine ⟨?_, ?_, ?_⟩
    · simp only [reduced, if_true]
      rw [hA.shape, keepShape_set _ _ _ _ ha]
    · simp only [reduced, if_true]
      exact keepShape_get m _ a ha hl
    · intro j hj
      simp only [reduced, if_true] at hj ⊢
      rw [hin _ (sel_inShape m _ _ (by rw [hA.shape]; simpa using hl) hj), sel_false_modify _ _ _ _ ha]
  | false =>
    refine ⟨?_, ?_, ?_⟩
    · simp only [reduced, Bool.false_eq_true, if_false]
      rw [hA.shape, sel_false_set _ _ _ _ ha]
    · simp only [reduced, Bool.false_eq_true, if_false]
      exact sel_false_get m _ a ha hl
    · intro j hj
      simp only [reduced, Bool.false_eq_true, if_false] at hj ⊢
      rw [hin _ hj]

theorem blockLen_zero {N : Nat} (P r : Nat) (h : N = 0) : blockLen N P r = 0 := by
  subst h
  simp [blockLen]

/-- If the global reduction is possible, so is the local one. -/
theorem npReduce_block (u : Red α) (G : NArr α) (a : Nat) (c : Comm) (A : MArr α) (hA : IsBlock G a c A)
    (axis : Option (List Int)) (keep : Bool) (m : List Bool) (hm : axesMask G.shape.length axis = .ok m)
    (hl : m.length = G.shape.length) (ha : m[a]? = some false) (R : NArr α)
    (hR : npReduce u G axis keep = .ok R) :
    npReduce u A.arr axis keep = .ok (reduced u A.arr m keep) ∧ R = reduced u G m keep := by
  have hAl : A.arr.shape.length = G.shape.length := by rw [hA.shape]; simp
  unfold npReduce at hR ⊢
  rw [hm] at hR
  rw [hAl, hm]
  simp only at hR ⊢
  split at hR
  · simp at hR
  · rename_i hn
    refine ⟨?_, (Except.ok.inj hR).symm⟩
    rw [if_neg]
    rintro ⟨h1, h2, h3⟩
    apply hn
    refine ⟨h1, ?_, ?_⟩
    · rwa [hA.shape, sel_true_set _ _ _ _ ha] at h2
    · intro h4
      apply h3
      rw [prod_eq_zero] at h4 ⊢
      rw [hA.shape, sel_false_set _ _ _ _ ha]
      apply mem_set_zero h4
      intro h5
      rw [sel_false_get m _ a ha hl] at h5
      apply blockLen_zero
      rw [List.getD_eq_getElem?_getD, h5]
      rfl

theorem mask_get (n a : Nat) (p : List Nat) (h : a < n) :
    ((List.range n).map fun (k : Nat) => decide (k ∈ p))[a]? = some (decide (a ∈ p)) := by
  rw [List.getElem?_map, List.getElem?_range h]
  rfl

theorem mask_falses (n a : Nat) (p : List Nat) (h : a ≤ n) :
    falses ((List.range n).map fun (k : Nat) => decide (k ∈ p)) a =
      ((List.range a).filter fun k => decide (k ∉ p)).length := by
  unfold falses
  rw [← List.map_take, List.take_range, Nat.min_eq_left h, List.filter_map, List.length_map]
  congr 2
  funext k
  simp

theorem axisSet_names (n : Nat) (l : List Int) (p : List Nat) (h : List.Forall₂ (Names n) l p) :
    axisSet n l = p.map fun (k : Nat) => (k : Int) := by
  induction h with
  | nil => rfl
  | cons h1 _ ih =>
    obtain ⟨h1, h2⟩ := h1
    simp only [axisSet, List.map_cons] at ih ⊢
    rw [ih]
    congr 1
    split <;> omega

theorem mem_cast (p : List Nat) (k : Nat) : (k : Int) ∈ p.map (fun (k : Nat) => (k : Int)) ↔ k ∈ p := by
  simp

theorem filter_split (p : List Nat) (a : Nat) :
    ((List.range a).filter fun k => decide (k ∈ p)).length +
      ((List.range a).filter fun k => decide (k ∉ p)).length = a := by
  induction a with
  | zero => rfl
  | succ a ih =>
    rw [List.range_succ, List.filter_append, List.filter_append]
    simp only [List.length_append]
    by_cases h : a ∈ p <;> simp [h] at ih ⊢ <;> omega

theorem finalAxis_fold (n a : Nat) (p : List Nat) (keep : Bool) (x : Int) :
    (List.range n).foldl (fun (fin : Int) (ii : Nat) =>
      if (ii : Int) ∈ p.map (fun (k : Nat) => (k : Int)) ∧ (ii : Int) < (a : Int) ∧ keep = false
      then fin - 1 else fin) x =
    x - (if keep then 0 else (((List.range (min n a)).filter fun k => decide (k ∈ p)).length : Int)) := by
  induction n with
  | zero => simp
  | succ n ih =>
    rw [List.range_succ, List.foldl_append, ih]
    simp only [List.foldl_cons, List.foldl_nil, mem_cast]
    cases keep with
    | true => simp
    | false =>
      simp only [Bool.false_eq_true, if_false, and_true]
      by_cases h : n < a
      · rw [show min (n + 1) a = n + 1 by omega, show min n a = n by omega, List.range_succ,
          List.filter_append, List.length_append]
        by_cases h2 : n ∈ p
        · rw [if_pos ⟨h2, by omega⟩]; simp [h2]; omega
        · rw [if_neg (by tauto)]; simp [h2]
      · rw [show min (n + 1) a = a by omega, show min n a = a by omega, if_neg (by omega)]

theorem finalAxis_eq (n a : Nat) (p : List Nat) (keep : Bool) (h : a ≤ n) :
    finalAxis n a (p.map fun (k : Nat) => (k : Int)) keep =
      ((if keep then a else ((List.range a).filter fun k => decide (k ∉ p)).length : Nat) : Int) := by
  unfold finalAxis
  rw [finalAxis_fold, Nat.min_eq_right h]
  have := filter_split p a
  cases keep with
  | true => simp
  | false => simp only [Bool.false_eq_true, if_false]; omega

/-- The indices of the block of process `r` in the whole array, in the order of the block. -/
def blockIdx (s : List Nat) (a P r : Nat) : List (List Nat) :=
  (indices (s.set a (blockLen (s.getD a 0) P r))).map fun i => i.modify a (· + blockStart (s.getD a 0) P r)

theorem blocks_range (n P : Nat) (hP : 0 < P) :
    ((List.range P).flatMap fun r => (List.range (blockLen n P r)).map (· + blockStart n P r)) = List.range n := by
  have key : ∀ k, k ≤ P → ((List.range k).flatMap fun r =>
      (List.range (blockLen n P r)).map (· + blockStart n P r)) = List.range (blockStart n P k) := by
    intro k
    induction k with
    | zero => intro _; simp [blockStart]
    | succ k ih =>
      intro hk
      rw [List.range_succ, List.flatMap_append, ih (by omega)]
      simp only [List.flatMap_cons, List.flatMap_nil, List.append_nil]
      rw [Mpi.blockStart_succ, List.range_add]
      congr 1
      apply List.map_congr_left
      intro x _
      omega
  rw [key P (le_refl P)]
  congr 1
  simp only [blockStart]
  have h1 : n % P < P := Nat.mod_lt _ hP
  rw [Nat.min_eq_right (by omega)]
  exact Nat.div_add_mod n P

theorem flatMap_swap {γ δ ε : Type} (l : List γ) (m : List δ) (f : γ → δ → List ε) :
    (l.flatMap fun x => m.flatMap fun y => f x y).Perm (m.flatMap fun y => l.flatMap fun x => f x y) := by
  induction l with
  | nil => simp
  | cons x l ih =>
    simp only [List.flatMap_cons]
    exact (List.Perm.append_left _ ih).trans (List.flatMap_append_perm m _ _)

theorem blocks_indices (P : Nat) (hP : 0 < P) (s : List Nat) (a : Nat) (ha : a < s.length) :
    ((List.range P).flatMap fun r => blockIdx s a P r).Perm (indices s) := by
  induction s generalizing a with
  | nil => simp at ha
  | cons n s ih =>
    cases a with
    | zero =>
      have e : ∀ r, blockIdx (n :: s) 0 P r =
          ((List.range (blockLen n P r)).map (· + blockStart n P r)).flatMap
            fun x => (indices s).map (x :: ·) := by
        intro r
        simp [blockIdx, indices, List.map_flatMap, List.flatMap_map, Function.comp_def]
      simp only [e]
      rw [← List.flatMap_assoc, blocks_range n P hP]
      exact List.Perm.refl _
    | succ a =>
      have e : ∀ r, blockIdx (n :: s) (a + 1) P r =
          (List.range n).flatMap fun x => (blockIdx s a P r).map (x :: ·) := by
        intro r
        simp [blockIdx, indices, List.map_flatMap, Function.comp_def]
      simp only [e]
      refine (flatMap_swap _ _ _).trans ?_
      simp only [indices]
      apply List.Perm.flatMap_left
      intro x _
      rw [← List.map_flatMap]
      exact (ih a (by simpa using ha)).map _

theorem foldr_parts (op : α → α → α) (e : α) (hassoc : ∀ x y z, op (op x y) z = op x (op y z))
    (hid : ∀ x, op e x = x) (ll : List (List α)) :
    (ll.map fun l => l.foldr op e).foldr op e = ll.flatten.foldr op e := by
  induction ll with
  | nil => rfl
  | cons l ll ih =>
    simp only [List.map_cons, List.foldr_cons, List.flatten_cons, List.foldr_append, ih]
    generalize List.foldr op e ll.flatten = x
    induction l with
    | nil => exact hid x
    | cons y l ih2 => simp only [List.foldr_cons, hassoc, ih2]

end Verif.Dist
