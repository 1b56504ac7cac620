import Verif.Load.Spec
import Verif.Slice.Props
import Verif.PartIO.Props
import Verif.Dist.Lemmas
import Verif.Proto.Lemmas

/-!
# Lemmas for reads
-/
namespace Verif.Load

open Verif.Dist (NArr MArr Comm IsBlock)
open Verif.Slice (FileSel PySlice)
open Verif.Reshape (InShape)
open Verif.Mpi (blockStart blockLen)

variable {α : Type}

/-! ### Positions along one axis -/

theorem positions_lt (n : Nat) (a b : Option Int) (s : Int) (g : Nat) (h : g ∈ Slice.Spec.positions n a b s) :
    g < n := by
  unfold Slice.Spec.positions at h
  simp only at h
  split at h
  · exact List.mem_range.1 (List.mem_filter.1 h).1
  · rw [List.mem_reverse] at h
    exact List.mem_range.1 (List.mem_filter.1 h).1

theorem slice_range (n : Nat) (a b : Option Int) (s : Int) :
    Slice.Spec.slice (List.range n) a b s = Slice.Spec.positions n a b s := by
  unfold Slice.Spec.slice
  rw [List.length_range]
  have h := positions_lt n a b s
  generalize Slice.Spec.positions n a b s = l at h
  induction l with
  | nil => rfl
  | cons x l ih =>
    rw [List.filterMap_cons, List.getElem?_range (h x List.mem_cons_self)]
    simp only
    rw [ih (fun g hg => h g (List.mem_cons_of_mem _ hg))]

theorem increasing_of (l : List Nat) (h : l.Pairwise (· < ·)) : increasing (l.map fun x : Nat => (x : Int)) = true := by
  induction l with
  | nil => rfl
  | cons x l ih =>
    cases l with
    | nil => rfl
    | cons y l =>
      rw [List.pairwise_cons] at h
      have h1 := h.1 y List.mem_cons_self
      simp only [List.map_cons, increasing]
      have := ih h.2
      simp only [List.map_cons] at this
      rw [this]
      simp; omega

theorem selPos_list (n : Nat) (l : List Nat) (h : l.Pairwise (· < ·)) (hn : ∀ x ∈ l, x < n) :
    selPos n (.list (l.map fun x : Nat => (x : Int))) = .ok l := by
  simp only [selPos]
  rw [increasing_of l h, if_neg (by simp), if_pos]
  · rw [List.map_map]
    congr 1
    have : (Int.toNat ∘ fun x : Nat => (x : Int)) = id := by funext x; simp
    rw [this, List.map_id]
  · rw [List.all_eq_true]
    intro x hx
    obtain ⟨y, hy, rfl⟩ := List.mem_map.1 hx
    have := hn y hy
    simp; omega

theorem selPos_slc (n : Nat) (s : PySlice) (h : 0 < s.step.getD 1) (l : List Nat)
    (hr : Slice.fileRead (List.range n) (.slc s) = .ok l) : selPos n (.slc s) = .ok l := by
  simp only [selPos]
  rw [if_neg (by omega)]
  simp only [Slice.fileRead] at hr
  rw [hr]

theorem selPos_picks (n : Nat) (s : FileSel) (ps : List Nat) (h : Picks n s ps) : selPos n s = .ok ps := by
  cases h with
  | slc s h1 h2 =>
    apply selPos_slc n s h1
    simp only [Slice.fileRead]
    rw [Slice.npSlice_eq_spec _ _ (by intro h; rw [h] at h1; simp at h1), slice_range]
  | list l h1 h2 => exact selPos_list n _ h1 h2

theorem lenSlice_picks (n : Nat) (s : FileSel) (ps : List Nat) (h : Picks n s ps) :
    Slice.lenSlice s n = .ok (ps.length : Int) := by
  cases h with
  | slc s h1 h2 => exact Slice.C10_len_slice_partial s n ⟨h1, h2⟩
  | list l h1 h2 => simp [Slice.lenSlice]

theorem picks_lt (n : Nat) (s : FileSel) (ps : List Nat) (h : Picks n s ps) : ∀ x ∈ ps, x < n := by
  cases h with
  | slc s h1 h2 => exact positions_lt n _ _ _
  | list l h1 h2 => exact h2

/-- Part of a selection. -/
theorem reslice_pos (n : Nat) (s : FileSel) (ps : List Nat) (h : Picks n s ps) (i j : Nat) (hij : i ≤ j)
    (hj : j ≤ ps.length) :
    ∃ r, Slice.reslice s n i j = .ok r ∧ selPos n r = .ok ((ps.drop i).take (j - i)) ∧
      FileSel.isList r = FileSel.isList s ∧
      ∃ r', Slice.reslice r n 0 (j - i) = .ok r' ∧ selPos n r' = .ok ((ps.drop i).take (j - i)) ∧
        FileSel.isList r' = FileSel.isList s := by
  cases h with
  | slc s h1 h2 =>
    rw [← slice_range] at hj ⊢
    have hasc : Slice.Ascending (List.range n).length s := by
      rw [List.length_range]; exact ⟨h1, h2⟩
    obtain ⟨s', e1, e2, e3, e4, e5⟩ := Slice.reslice_spec (List.range n) s hasc i j hij hj
    rw [List.length_range] at e1 e3
    refine ⟨.slc s', e1, selPos_slc n s' e4 _ e2, rfl, ?_⟩
    rcases Nat.lt_or_eq_of_le hij with hlt | heq
    · have hl : ((Slice.Spec.slice (List.range n) s.start s.stop (s.step.getD 1)).drop i |>.take (j - i)).length = j - i := by
        simp; omega
      have hasc' : Slice.Ascending (List.range n).length s' := by rw [List.length_range]; exact e3 hlt
      obtain ⟨s'', g1, g2, -, g4, -⟩ := Slice.reslice_spec (List.range n) s' hasc' 0 (j - i) (by omega)
        (by rw [e5 hlt, hl])
      rw [List.length_range] at g1
      refine ⟨.slc s'', g1, ?_, rfl⟩
      have := selPos_slc n s'' g4 _ g2
      rw [this, e5 hlt]
      simp [List.take_take]
    · subst heq
      rw [Nat.sub_self]
      have hE := Slice.readBlock_empty (List.range n) s' e4
      simp only [Slice.readBlock, List.length_range] at hE
      cases hr : Slice.reslice (.slc s') n 0 0 with
      | error e => rw [hr] at hE; cases hE
      | ok r' =>
        rw [hr] at hE
        simp only [Slice.reslice] at hr
        cases hi : s'.indices n with
        | error e => rw [hi] at hr; cases hr
        | ok t =>
          obtain ⟨a, b, c⟩ := t
          rw [hi] at hr
          simp only [Except.ok.injEq] at hr
          subst hr
          refine ⟨_, rfl, ?_, rfl⟩
          obtain ⟨-, hcs, -⟩ := Slice.indices_bounds s' n a b c hi
          have := selPos_slc n _ (by simp only [Option.getD_some]; rw [hcs]; exact e4) _ hE
          rw [this]
          simp
  | list l h1 h2 =>
    refine ⟨_, rfl, ?_, rfl, _, rfl, ?_, rfl⟩
    · rw [← List.map_drop, ← List.map_take]
      exact selPos_list n _ ((h1.sublist (List.drop_sublist _ _)).sublist (List.take_sublist _ _))
        (fun x hx => h2 x (List.mem_of_mem_drop (List.mem_of_mem_take hx)))
    · rw [List.drop_zero, Nat.sub_zero, List.take_take, Nat.min_self, ← List.map_drop, ← List.map_take]
      exact selPos_list n _ ((h1.sublist (List.drop_sublist _ _)).sublist (List.take_sublist _ _))
        (fun x hx => h2 x (List.mem_of_mem_drop (List.mem_of_mem_take hx)))

/-! ### All axes -/

theorem allPos_ok (shape : List Nat) (sel : List FileSel) (pss : List (List Nat)) (h1 : sel.length = shape.length)
    (h2 : pss.length = shape.length)
    (h : ∀ (k : Nat) n s ps, shape[k]? = some n → sel[k]? = some s → pss[k]? = some ps → selPos n s = .ok ps) :
    allPos shape sel = .ok pss := by
  unfold allPos
  induction shape generalizing sel pss with
  | nil =>
    obtain rfl : sel = [] := List.length_eq_zero_iff.1 h1
    obtain rfl : pss = [] := List.length_eq_zero_iff.1 h2
    rfl
  | cons n shape ih =>
    cases sel with
    | nil => simp at h1
    | cons s sel =>
      cases pss with
      | nil => simp at h2
      | cons ps pss =>
        rw [List.zip_cons_cons, List.mapM_cons, h 0 n s ps rfl rfl rfl,
          ih sel pss (by simpa using h1) (by simpa using h2) (fun k n s ps a b c => h (k + 1) n s ps (by simpa) (by simpa) (by simpa))]
        rfl

theorem readShape_ok (shape : List Nat) (sel : List FileSel) (pss : List (List Nat)) (h1 : sel.length = shape.length)
    (h2 : pss.length = shape.length)
    (h : ∀ (k : Nat) n s ps, shape[k]? = some n → sel[k]? = some s → pss[k]? = some ps → Picks n s ps) :
    readShape shape sel = .ok (pss.map List.length) := by
  have hm : (shape.zip sel).mapM (fun x => ofSlice (Slice.lenSlice x.2 x.1)) =
      .ok (pss.map fun ps => (ps.length : Int)) := by
    induction shape generalizing sel pss with
    | nil =>
      obtain rfl : sel = [] := List.length_eq_zero_iff.1 h1
      obtain rfl : pss = [] := List.length_eq_zero_iff.1 h2
      rfl
    | cons n shape ih =>
      cases sel with
      | nil => simp at h1
      | cons s sel =>
        cases pss with
        | nil => simp at h2
        | cons ps pss =>
          rw [List.zip_cons_cons, List.mapM_cons, lenSlice_picks n s ps (h 0 n s ps rfl rfl rfl),
            ih sel pss (by simpa using h1) (by simpa using h2) (fun k n s ps a b c => h (k + 1) n s ps (by simpa) (by simpa) (by simpa))]
          rfl
  unfold readShape
  rw [hm]
  simp only
  rw [if_neg]
  · rw [List.map_map]
    congr 1
  · simp

/-- Coordinates in the file. -/
def coords (pss : List (List Nat)) (i : List Nat) : List Nat := List.zipWith (fun ps k => ps.getD k 0) pss i

theorem coords_spec (pss : List (List Nat)) (i : List Nat) (h : InShape i (pss.map List.length)) :
    List.Forall₂ (fun (x : List Nat × Nat) j => x.1[x.2]? = some j) (pss.zip i) (coords pss i) := by
  unfold coords
  induction pss generalizing i with
  | nil => cases h; exact .nil
  | cons ps pss ih =>
    cases h with
    | @cons x _ i' _ hx hi =>
      refine .cons ?_ (ih i' hi)
      simp only
      rw [List.getD_eq_getElem?_getD, List.getElem?_eq_getElem hx]
      rfl

theorem coords_unique (pss : List (List Nat)) (i i' : List Nat) (h : InShape i (pss.map List.length))
    (h' : List.Forall₂ (fun (x : List Nat × Nat) j => x.1[x.2]? = some j) (pss.zip i) i') : i' = coords pss i := by
  have h2 := coords_spec pss i h
  generalize coords pss i = c at h2
  generalize pss.zip i = z at h2 h'
  induction h' generalizing c with
  | nil => cases h2; rfl
  | cons a b ih =>
    cases h2 with
    | cons a' b' =>
      rw [a] at a'
      rw [Option.some.inj a', ih _ b']

theorem takePos_selected (G : NArr α) (pss : List (List Nat)) : Selected G pss (takePos G pss) := by
  refine ⟨rfl, fun i i' hi h => ?_⟩
  rw [coords_unique pss i i' hi h]
  rfl

/-- The part of a read along one axis. -/
theorem coords_part (pss : List (List Nat)) (a st len : Nat) (ha : a < pss.length) (i : List Nat)
    (hl : i.length = pss.length) (hlen : i.getD a 0 < len) :
    coords (pss.set a ((pss[a].drop st).take len)) i = coords pss (i.modify a (· + st)) := by
  unfold coords
  apply List.ext_getElem
  · simp
  · intro k h1 h2
    simp only [List.getElem_zipWith, List.getElem_modify, List.getElem_set]
    have hik : k < i.length := by simp at h1; omega
    by_cases hk : a = k
    · subst hk
      rw [if_pos rfl, if_pos rfl]
      have : i.getD a 0 = i[a] := by rw [List.getD_eq_getElem?_getD, List.getElem?_eq_getElem hik]; rfl
      rw [this] at hlen
      rw [List.getD_eq_getElem?_getD, List.getD_eq_getElem?_getD, List.getElem?_take_of_lt hlen, List.getElem?_drop,
        Nat.add_comm]
    · rw [if_neg hk, if_neg hk]

end Verif.Load
