import Verif.Dist.Spec
import Verif.Split.Lemmas
import Verif.Mpi.Lemmas
import Verif.Reshape.Lemmas
import Mathlib.Data.List.Nodup
import Mathlib.Data.List.Perm.Subperm

/-!
# Lemmas about distributed arrays
-/
namespace Verif.Dist

open Verif.Mpi (blockStart blockLen)
open Verif.Reshape (InShape)

variable {α β : Type}

theorem localStart_eq (n : Nat) (c : Comm) (h : c.rank < c.size) :
    localStart n c = blockStart n c.size c.rank := by
  unfold localStart
  rw [Split.splitLocal_ok n c.size c.rank h]
  rfl

theorem pyGet_nat (l : List β) (k : Nat) (h : k < l.length) : pyGet l (k : Int) = .ok l[k] := by
  unfold pyGet
  rw [if_pos (by omega)]
  simp [h]

theorem pyGet_neg (l : List β) (i : Int) (h0 : i < 0) (h : -(l.length : Int) ≤ i) :
    ∃ hk : (i + l.length).toNat < l.length, pyGet l i = .ok l[(i + l.length).toNat] := by
  have hk : (i + l.length).toNat < l.length := by omega
  refine ⟨hk, ?_⟩
  unfold pyGet
  rw [if_neg (by omega), if_pos (by omega)]
  have : l.length - (-i).toNat = (i + l.length).toNat := by omega
  rw [this]
  simp [hk]

theorem pySet_nat (l : List β) (k : Nat) (v : β) (h : k < l.length) :
    pySet l (k : Int) v = .ok (l.set k v) := by
  unfold pySet
  rw [if_pos (by omega)]
  simp [h]

theorem viewFrom_ok (A : NArr α) (a glen start : Nat) (c : Comm) (h : a < A.shape.length) :
    viewFrom A a glen start c = .ok
      { arr := A, gshape := A.shape.set a glen, axis := a, lshape := A.shape,
        loff := (List.replicate A.shape.length 0).set a start, comm := c } := by
  unfold viewFrom
  rw [pySet_nat _ _ _ h, pySet_nat _ _ _ (by simpa using h)]
  rfl

theorem InShape.get {i s : List Nat} (h : InShape i s) (k : Nat) (hk : k < s.length) :
    ∃ hi : k < i.length, i[k] < s[k] := by
  have hl := h.length
  refine ⟨by omega, ?_⟩
  unfold InShape at h
  exact List.Forall₂.get h (by omega) hk

theorem inShape_of {i s : List Nat} (hl : i.length = s.length)
    (h : ∀ k (h1 : k < i.length) (h2 : k < s.length), i[k] < s[k]) : InShape i s := by
  unfold InShape
  exact List.forall₂_iff_get.2 ⟨hl, fun k h1 h2 => by simpa using h k h1 h2⟩

theorem getD_set_self (s : List Nat) (a v : Nat) (h : a < s.length) : (s.set a v).getD a 0 = v := by
  rw [List.getD_eq_getElem _ _ (by simpa using h)]
  simp

theorem getD_set_ne (s : List Nat) {a k : Nat} (v : Nat) (h : a ≠ k) :
    (s.set a v).getD k 0 = s.getD k 0 := by
  rw [List.getD_eq_getElem?_getD, List.getD_eq_getElem?_getD, List.getElem?_set_ne h]

/-- An index into a block, shifted, is an index into the whole. -/
theorem inShape_shift {i s : List Nat} {a L st : Nat} (h : InShape i (s.set a L))
    (hb : st + L ≤ s.getD a 0) : InShape (i.modify a (· + st)) s := by
  have hl := h.length
  apply inShape_of
  · simpa using hl
  · intro k h1 h2
    obtain ⟨h3, h4⟩ := InShape.get h k (by simpa using h2)
    rw [List.getElem_modify]
    rw [List.getElem_set] at h4
    by_cases hka : a = k
    · subst hka
      rw [if_pos rfl] at h4 ⊢
      rw [List.getD_eq_getElem _ _ h2] at hb
      omega
    · rw [if_neg hka] at h4 ⊢
      exact h4

/-- The block of a view made from the right data and parameters. -/
theorem viewFrom_block (G : NArr α) (a : Nat) (c : Comm) (A : NArr α) (hlt : a < G.shape.length)
    (hr : c.rank < c.size)
    (hs : A.shape = G.shape.set a (blockLen (G.shape.getD a 0) c.size c.rank))
    (he : ∀ i, InShape i A.shape →
      A.val i = G.val (i.modify a (· + blockStart (G.shape.getD a 0) c.size c.rank))) :
    ∃ B, viewFrom A a (G.shape.getD a 0) (blockStart (G.shape.getD a 0) c.size c.rank) c = .ok B ∧
      IsBlock G a c B := by
  have hl : A.shape.length = G.shape.length := by rw [hs]; simp
  refine ⟨_, viewFrom_ok A a _ _ c (by omega), hlt, hr, rfl, rfl, ?_, hs, rfl, ?_, he⟩
  · simp only [hs, List.set_set]
    rw [List.getD_eq_getElem _ _ hlt]
    exact List.set_getElem_self hlt
  · simp only [hl]

end Verif.Dist
