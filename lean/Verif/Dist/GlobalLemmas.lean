import Verif.Dist.Global
import Verif.Dist.IndexProps

/-!
# Lemmas about `global_slice`
-/
namespace Verif.Dist

open Verif.Mpi (blockStart blockLen)
open Verif.Reshape (InShape)

variable {α β : Type}

/-- Without new axes the code spells an index out as specified. -/
theorem resolveExpand_eq (sel es : List Idx) (n : Nat) (h : SpelledOut sel n es) (hn : .newaxis ∉ es) :
    resolveExpand n sel = es := by
  obtain ⟨h1, h2, l, r, k, rfl, hs⟩ := h
  simp only [List.mem_append, not_or] at h1 hn
  have cz : ∀ {m : List Idx}, .newaxis ∉ m → .ellipsis ∉ m → used m = m.length := by
    intro m a b
    have := used_count m
    rw [List.count_eq_zero.2 a, List.count_eq_zero.2 b] at this
    omega
  have hl := cz hn.1.1 h1.1.1
  have hr := cz hn.2 h1.2
  rw [used_append, used_append, used_full, hl, hr] at h2
  unfold resolveExpand
  rcases hs with rfl | ⟨rfl, rfl⟩
  · rw [if_neg (by simp)]
    rw [List.flatMap_append, List.flatMap_cons, flatMap_none l _ h1.1.1, flatMap_none r _ h1.2, if_pos rfl]
    have : n + 1 - (l ++ Idx.ellipsis :: r).length = k := by simp; omega
    rw [this, List.append_assoc]
  · simp only [List.length_nil] at h2
    by_cases hlt : sel.length < n
    · rw [if_pos ⟨hlt, h1.1.1⟩]
      simp only
      rw [List.flatMap_append, flatMap_none sel _ h1.1.1]
      have : n + 1 - (sel ++ [Idx.ellipsis]).length = k := by simp; omega
      rw [this]
      simp
    · rw [if_neg (by tauto)]
      simp only
      rw [flatMap_none sel _ h1.1.1]
      have : k = 0 := by omega
      subst this
      simp

/-- The positions that `start:stop` selects of `n`. -/
theorem positions_filter (n : Nat) (start stop : Option Int) :
    Slice.Spec.positions n start stop 1 =
      (List.range n).filter (fun g : Nat => decide (Slice.Spec.ascFrom n start ≤ g ∧ (g : Int) < Slice.Spec.ascTo n stop)) := by
  unfold Slice.Spec.positions
  simp only [Int.zero_lt_one, if_true]
  congr 1
  funext g
  simp [Slice.Spec.Selects]

/-- The translated entry selects what the entry selects of the block. -/
theorem resolved_positions (N off L : Nat) (h : off + L ≤ N) (start stop : Option Int) :
    let ps := (List.range L).filter fun (k : Nat) => decide (Slice.Spec.ascFrom N start ≤ ((off + k : Nat) : Int) ∧
      ((off + k : Nat) : Int) < Slice.Spec.ascTo N stop)
    ((resolveEntry off N L (.sl start stop none)).1 = .newaxis ∧ ps = []) ∨
    ((resolveEntry off N L (.sl start stop none)).1 ≠ .newaxis ∧ (resolveEntry off N L (.sl start stop none)).1.adv = false ∧
      axisOf L (resolveEntry off N L (.sl start stop none)).1 = .ok (.kept ps)) := by
  intro ps
  simp only [resolveEntry]
  generalize hst : Slice.startOf off N start = st
  generalize hsp : Slice.stopOf off N L stop = sp
  have key : ∀ k : Nat, k < L → ((Slice.Spec.ascFrom N start ≤ ((off + k : Nat) : Int) ∧
      ((off + k : Nat) : Int) < Slice.Spec.ascTo N stop) ↔ (st ≤ k ∧ (k : Int) < sp)) := by
    intro k hk
    unfold Slice.Spec.ascFrom Slice.Spec.ascTo
    unfold Slice.startOf at hst
    unfold Slice.stopOf at hsp
    cases start <;> cases stop <;> simp only at hst hsp ⊢ <;> (try split_ifs at *) <;> omega
  have hps : ps = (List.range L).filter fun (k : Nat) => decide (st ≤ k ∧ (k : Int) < sp) := by
    apply List.filter_congr
    intro k hk
    simp only [key k (by simpa using hk)]
  by_cases hc : (L : Int) ≤ st ∨ sp < 0
  · left
    rw [if_pos hc]
    refine ⟨rfl, ?_⟩
    rw [hps, List.filter_eq_nil_iff]
    intro k hk
    have := List.mem_range.1 hk
    simp only [decide_eq_true_eq]
    omega
  · right
    rw [if_neg hc]
    refine ⟨by simp, rfl, ?_⟩
    simp only [axisOf, Option.getD_none]
    rw [if_neg (by simp), positions_filter, hps]
    congr 2
    apply List.filter_congr
    intro k hk
    have := List.mem_range.1 hk
    simp only [decide_eq_decide]
    unfold Slice.Spec.ascFrom Slice.Spec.ascTo
    simp only
    split_ifs <;> omega

/-- The selected positions, split at the block. -/
theorem positions_split (N off L : Nat) (h : off + L ≤ N) (p : Nat → Bool) :
    (List.range N).filter p = (List.range off).filter p ++
      ((List.range L).filter fun k => p (off + k)).map (off + ·) ++
      ((List.range (N - (off + L))).map (off + L + ·)).filter p := by
  have : N = off + L + (N - (off + L)) := by omega
  conv_lhs => rw [this, List.range_add, List.range_add]
  rw [List.filter_append, List.filter_append]
  congr 2
  rw [List.filter_map]
  rfl

/-- Indexing of an array with the entry for one axis singled out. -/
theorem npGetitem_at (A : NArr α) (s1 s2 : List Nat) (d : Nat) (hs : A.shape = s1 ++ d :: s2)
    (pre post : List Idx) (e : Idx) (hel : .ellipsis ∉ pre ++ e :: post) (hne : e ≠ .newaxis)
    (hu : used pre = s1.length) (hu2 : used (pre ++ e :: post) = A.shape.length)
    (hsim : simple (pre ++ e :: post) = true) :
    npGetitem A (pre ++ e :: post) = match walk pre s1 with
      | .error x => .error x
      | .ok as =>
        match axisOf d e with
        | .error x => .error x
        | .ok ax =>
          match walk post s2 with
          | .error x => .error x
          | .ok bs => .ok { shape := outShape (as ++ ax :: bs), val := fun j => A.val (srcIdx (as ++ ax :: bs) j) } := by
  unfold npGetitem
  rw [npExpand_self _ _ hel hu2]
  simp only
  simp only [List.mem_append, not_or] at hel
  rw [hs, walk_append pre hel.1 _ _ _ hu.symm, walk_cons _ _ _ _ hne]
  cases walk pre s1 with
  | error x => rfl
  | ok as =>
    cases axisOf d e with
    | error x => rfl
    | ok ax =>
      cases walk post s2 with
      | error x => rfl
      | ok bs => simp only [if_pos hsim]

theorem simple_congr (pre post : List Idx) (e e' : Idx) (h1 : e.isList = e'.isList) (h2 : e.adv = e'.adv) :
    simple (pre ++ e :: post) = simple (pre ++ e' :: post) := by
  unfold simple
  simp only [List.any_append, List.any_cons, List.filter_append, List.length_append, h1]
  rw [List.filter_cons, List.filter_cons, h2]
  cases e'.adv <;> simp

end Verif.Dist
