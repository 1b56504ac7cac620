import Verif.Common.Lists
import Verif.Slice.Model
import Verif.Slice.Spec

/-!
# Helper lemmas for slicing
-/
namespace Verif.Slice

open Verif.Common

theorem rangeLen_pos_lt (a b s : Int) (hs : 0 < s) (k : Nat) :
    k < rangeLen a b s ↔ a + k * s < b := by
  unfold rangeLen
  rw [if_pos hs, Int.lt_toNat]
  constructor
  · intro h
    have h2 := (Int.le_ediv_iff_mul_le hs).1 (show (k : Int) + 1 ≤ (b - a + s - 1) / s by omega)
    rw [Int.add_mul] at h2
    omega
  · intro h
    have h2 : ((k : Int) + 1) ≤ (b - a + s - 1) / s := by
      rw [Int.le_ediv_iff_mul_le hs, Int.add_mul]
      omega
    omega

theorem rangeLen_neg_lt (a b s : Int) (hs : s < 0) (k : Nat) :
    k < rangeLen a b s ↔ b < a + k * s := by
  unfold rangeLen
  rw [if_neg (by omega), Int.lt_toNat]
  have hs' : 0 < -s := by omega
  constructor
  · intro h
    have h2 := (Int.le_ediv_iff_mul_le hs').1 (show (k : Int) + 1 ≤ (a - b - s - 1) / (-s) by omega)
    rw [Int.add_mul, Int.mul_neg] at h2
    omega
  · intro h
    have h2 : ((k : Int) + 1) ≤ (a - b - s - 1) / (-s) := by
      rw [Int.le_ediv_iff_mul_le hs', Int.add_mul, Int.mul_neg]
      omega
    omega

theorem mem_pyRange_pos (a b s : Int) (hs : 0 < s) (x : Int) :
    x ∈ pyRange a b s ↔ a ≤ x ∧ x < b ∧ s ∣ x - a := by
  unfold pyRange
  simp only [List.mem_map, List.mem_range, rangeLen_pos_lt a b s hs]
  constructor
  · rintro ⟨k, hk, rfl⟩
    have : (0 : Int) ≤ k * s := Int.mul_nonneg (by omega) (by omega)
    exact ⟨by omega, hk, ⟨k, by rw [Int.mul_comm]; omega⟩⟩
  · rintro ⟨h1, h2, ⟨c, hc⟩⟩
    have hc0 : 0 ≤ c := by
      rcases Int.lt_or_le c 0 with h | h
      · have := Int.mul_lt_mul_of_pos_left h hs
        omega
      · exact h
    refine ⟨c.toNat, ?_, ?_⟩ <;> rw [Int.toNat_of_nonneg hc0, Int.mul_comm] <;> omega

theorem mem_pyRange_neg (a b s : Int) (hs : s < 0) (x : Int) :
    x ∈ pyRange a b s ↔ b < x ∧ x ≤ a ∧ s ∣ a - x := by
  unfold pyRange
  simp only [List.mem_map, List.mem_range, rangeLen_neg_lt a b s hs]
  constructor
  · rintro ⟨k, hk, rfl⟩
    have : (k : Int) * s ≤ 0 := Int.mul_nonpos_of_nonneg_of_nonpos (by omega) (by omega)
    exact ⟨hk, by omega, ⟨-k, by rw [Int.mul_neg, Int.mul_comm]; omega⟩⟩
  · rintro ⟨h1, h2, ⟨c, hc⟩⟩
    have hc0 : c ≤ 0 := by
      rcases Int.lt_or_le 0 c with h | h
      · have := Int.mul_neg_of_neg_of_pos hs h
        omega
      · exact h
    refine ⟨(-c).toNat, ?_, ?_⟩ <;>
      rw [Int.toNat_of_nonneg (by omega), Int.mul_comm, Int.mul_neg] <;> omega

theorem pyRange_pairwise_pos (a b s : Int) (hs : 0 < s) :
    (pyRange a b s).Pairwise (· < ·) := by
  unfold pyRange
  rw [List.pairwise_map]
  refine List.Pairwise.imp ?_ List.pairwise_lt_range
  intro i j hij
  have : (i : Int) * s < j * s := Int.mul_lt_mul_of_pos_right (by omega) hs
  omega

theorem pyRange_pairwise_neg (a b s : Int) (hs : s < 0) :
    (pyRange a b s).Pairwise (· > ·) := by
  unfold pyRange
  rw [List.pairwise_map]
  refine List.Pairwise.imp ?_ List.pairwise_lt_range
  intro i j hij
  have : (j : Int) * s < i * s := Int.mul_lt_mul_of_neg_right (by omega) hs
  omega

theorem pyRange_getElem? (a b s : Int) (k : Nat) :
    (pyRange a b s)[k]? = if k < rangeLen a b s then some (a + k * s) else none := by
  unfold pyRange
  by_cases h : k < rangeLen a b s
  · simp [h]
  · rw [if_neg h, List.getElem?_eq_none (by simp; omega)]

theorem pyRange_length (a b s : Int) : (pyRange a b s).length = rangeLen a b s := by
  simp [pyRange]

theorem indices_bounds (s : PySlice) (n : Nat) (a b c : Int) (h : s.indices n = .ok (a, b, c)) :
    c ≠ 0 ∧ c = s.step.getD 1 ∧
    (0 < c → a = min (Spec.ascFrom n s.start) n ∧ b = max (Spec.ascTo n s.stop) 0 ∧
      0 ≤ a ∧ b ≤ n) ∧
    (c < 0 → a = max (Spec.descFrom n s.start) (-1) ∧ b = min (Spec.descTo n s.stop) (n - 1) ∧
      a < n ∧ -1 ≤ b) := by
  unfold PySlice.indices at h
  simp only at h
  split at h
  · cases h
  rename_i hne
  injection h with h
  rw [Prod.mk.injEq, Prod.mk.injEq] at h
  obtain ⟨ha, hb, hc⟩ := h
  rw [hc] at ha hb hne
  refine ⟨hne, hc.symm, ?_, ?_⟩
  · intro hpos
    have hn : ¬ c < 0 := by omega
    simp only [hn, if_false] at ha hb
    unfold Spec.ascFrom Spec.ascTo
    subst ha hb
    refine ⟨?_, ?_, ?_, ?_⟩
    · cases s.start <;> grind
    · cases s.stop <;> grind
    · cases s.start <;> grind
    · cases s.stop <;> grind
  · intro hneg
    simp only [hneg, if_true] at ha hb
    unfold Spec.descFrom Spec.descTo
    subst ha hb
    refine ⟨?_, ?_, ?_, ?_⟩
    · cases s.start <;> grind
    · cases s.stop <;> grind
    · cases s.start <;> grind
    · cases s.stop <;> grind

/-- The positions the model visits are the specified ones. -/
theorem pyRange_toNat_eq_positions (s : PySlice) (n : Nat) (a b c : Int)
    (h : s.indices n = .ok (a, b, c)) :
    (pyRange a b c).map Int.toNat = Spec.positions n s.start s.stop (s.step.getD 1) ∧
      ∀ x ∈ pyRange a b c, 0 ≤ x ∧ x < n := by
  obtain ⟨hne, hc, hasc, hdesc⟩ := indices_bounds s n a b c h
  rw [← hc]
  by_cases hpos : 0 < c
  · obtain ⟨ha, hb, ha0, hbn⟩ := hasc hpos
    have hrange : ∀ x ∈ pyRange a b c, 0 ≤ x ∧ x < n := by
      intro x hx
      rw [mem_pyRange_pos a b c hpos] at hx
      omega
    refine ⟨?_, hrange⟩
    unfold Spec.positions
    simp only [hpos, if_true]
    refine eq_of_pairwise_of_mem (R := (· < ·)) (fun _ => Nat.lt_irrefl _)
      (fun _ _ h1 h2 => by omega) ?_ ?_ ?_
    · rw [List.pairwise_map]
      refine List.Pairwise.imp_of_mem ?_ (pyRange_pairwise_pos a b c hpos)
      intro x y hx hy hxy
      have := hrange x hx
      have := hrange y hy
      omega
    · exact List.Pairwise.filter _ List.pairwise_lt_range
    · intro g
      simp only [List.mem_map, List.mem_filter, List.mem_range, decide_eq_true_eq, Spec.Selects,
        hpos, if_true]
      constructor
      · rintro ⟨x, hx, rfl⟩
        have hx' := hrange x hx
        rw [mem_pyRange_pos a b c hpos] at hx
        rw [Int.toNat_of_nonneg hx'.1]
        have : a = Spec.ascFrom n s.start := by omega
        rw [← this]
        exact ⟨by omega, hx.1, by omega, hx.2.2⟩
      · rintro ⟨hg, h1, h2, h3⟩
        refine ⟨g, ?_, by simp⟩
        rw [mem_pyRange_pos a b c hpos]
        have : a = Spec.ascFrom n s.start := by omega
        rw [this]
        exact ⟨h1, by omega, h3⟩
  · have hneg : c < 0 := by omega
    obtain ⟨ha, hb, han, hb1⟩ := hdesc hneg
    have hrange : ∀ x ∈ pyRange a b c, 0 ≤ x ∧ x < n := by
      intro x hx
      rw [mem_pyRange_neg a b c hneg] at hx
      omega
    refine ⟨?_, hrange⟩
    unfold Spec.positions
    simp only [hpos, if_false]
    refine eq_of_pairwise_of_mem (R := (· > ·)) (fun a => Nat.lt_irrefl a)
      (fun _ _ h1 h2 => by omega) ?_ ?_ ?_
    · rw [List.pairwise_map]
      refine List.Pairwise.imp_of_mem ?_ (pyRange_pairwise_neg a b c hneg)
      intro x y hx hy hxy
      have := hrange x hx
      have := hrange y hy
      omega
    · rw [List.pairwise_reverse]
      exact List.Pairwise.filter _ List.pairwise_lt_range
    · intro g
      simp only [List.mem_map, List.mem_reverse, List.mem_filter, List.mem_range,
        decide_eq_true_eq, Spec.Selects, hpos, if_false]
      constructor
      · rintro ⟨x, hx, rfl⟩
        have hx' := hrange x hx
        rw [mem_pyRange_neg a b c hneg] at hx
        rw [Int.toNat_of_nonneg hx'.1]
        have : a = Spec.descFrom n s.start := by omega
        rw [← this]
        exact ⟨by omega, by omega, hx.2.1, hx.2.2⟩
      · rintro ⟨hg, h1, h2, h3⟩
        refine ⟨g, ?_, by simp⟩
        rw [mem_pyRange_neg a b c hneg]
        have : a = Spec.descFrom n s.start := by omega
        rw [this]
        exact ⟨by omega, h2, h3⟩

theorem filterMap_toNat {α : Type} (l : List Int) (xs : List α) :
    l.filterMap (fun (i : Int) => xs[i.toNat]?) = (l.map Int.toNat).filterMap (xs[·]?) := by
  rw [List.filterMap_map]; rfl

/-- The model of numpy slicing meets the specification, for every slice with a non-zero step. -/
theorem npSlice_eq_spec {α : Type} (xs : List α) (s : PySlice) (h : s.step ≠ some 0) :
    npSlice xs s = .ok (Spec.slice xs s.start s.stop (s.step.getD 1)) := by
  unfold npSlice
  have hne : s.step.getD 1 ≠ 0 := by
    cases hs : s.step with
    | none => decide
    | some v => intro hv; rw [hs] at h; exact h (congrArg some hv)
  cases hi : s.indices xs.length with
  | error e =>
    unfold PySlice.indices at hi
    simp only [hne, if_false] at hi
    cases hi
  | ok t =>
    obtain ⟨a, b, c⟩ := t
    simp only
    rw [filterMap_toNat, (pyRange_toNat_eq_positions s _ a b c hi).1]
    rfl

/-! ### Local and global positions -/

/-- The block `[off, off + L)` of a list. -/
theorem local_getElem? {α : Type} (xs : List α) (off L k : Nat) (hk : k < L) :
    ((xs.drop off).take L)[k]? = xs[off + k]? := by
  rw [List.getElem?_take_of_lt hk, List.getElem?_drop]

/-- Selecting from a block by a local predicate is selecting from the whole by the shifted one. -/
theorem filterMap_local {α : Type} (xs : List α) (off L : Nat) (p q : Nat → Bool)
    (h : ∀ k, k < L → p k = q (off + k)) :
    ((List.range L).filter p).filterMap (((xs.drop off).take L)[·]?)
      = ((List.range' off L).filter q).filterMap (xs[·]?) := by
  have h1 : List.range' off L = (List.range L).map (off + ·) := by
    rw [List.range'_eq_map_range]
  rw [h1, List.filter_map, List.filterMap_map]
  have h2 : (List.range L).filter (q ∘ (off + ·)) = (List.range L).filter p := by
    apply List.filter_congr
    intro k hk
    rw [List.mem_range] at hk
    simp [h k hk]
  rw [h2]
  apply filterMap_congr
  intro k hk
  rw [List.mem_filter, List.mem_range] at hk
  exact local_getElem? xs off L k hk.1

theorem setAll_getElem? {α : Type} (v : α) (l : List α) (is : List Nat) (k : Nat) :
    (setAll v l is)[k]? = if k ∈ is ∧ k < l.length then some v else l[k]? := by
  induction is generalizing l with
  | nil => simp [setAll]
  | cons i is ih =>
    rw [setAll, ih, List.length_set, List.getElem?_set]
    by_cases hk : k < l.length
    · by_cases h1 : k ∈ is
      · simp [h1, hk]
      · by_cases h2 : i = k
        · subst h2; simp [h1, hk]
        · have : ¬ k = i := fun h => h2 h.symm
          simp [h1, h2, this]
    · have hn : l[k]? = none := List.getElem?_eq_none (by omega)
      rw [hn]
      simp [hk]
      omega

theorem setAll_length {α : Type} (v : α) (l : List α) (is : List Nat) :
    (setAll v l is).length = l.length := by
  induction is generalizing l with
  | nil => rfl
  | cons i is ih => rw [setAll, ih, List.length_set]

/-! ### Re-slicing -/

/-- The elements a process gets. -/
def Res.elems {α : Type} : Res α → List α
  | .notHere => []
  | .scalar a => [a]
  | .block l => l

/-- The slice is ascending and not inverted (after normalisation its end is not before its
beginning). -/
def Ascending (n : Nat) (s : PySlice) : Prop :=
  0 < s.step.getD 1 ∧ min (Spec.ascFrom n s.start) n ≤ max (Spec.ascTo n s.stop) 0

theorem indices_ok_of_ascending (s : PySlice) (n : Nat) (h : Ascending n s) :
    ∃ a b c, s.indices n = .ok (a, b, c) ∧ 0 < c ∧ 0 ≤ a ∧ a ≤ b ∧ b ≤ n ∧ c = s.step.getD 1 := by
  cases hi : s.indices n with
  | error e =>
    unfold PySlice.indices at hi
    simp only [show s.step.getD 1 ≠ 0 by have := h.1; omega, if_false] at hi
    cases hi
  | ok t =>
    obtain ⟨a, b, c⟩ := t
    obtain ⟨hne, hc, hasc, -⟩ := indices_bounds s n a b c hi
    have hpos : 0 < c := by rw [hc]; exact h.1
    obtain ⟨ha, hb, ha0, hbn⟩ := hasc hpos
    have h2 := h.2
    exact ⟨a, b, c, rfl, hpos, ha0, by omega, hbn, hc⟩

theorem pyRange_sub (a b s : Int) (hs : 0 < s) (i j : Nat) (hij : i ≤ j)
    (hj : j ≤ rangeLen a b s) :
    pyRange (a + i * s) (min (a + j * s) b) s = ((pyRange a b s).drop i).take (j - i) := by
  apply List.ext_getElem?
  intro k
  rw [pyRange_getElem?]
  have e : (k : Int) * s + i * s = ((i + k : Nat) : Int) * s := by
    rw [show ((i + k : Nat) : Int) = k + i by omega, Int.add_mul]
  by_cases hk : k < j - i
  · rw [List.getElem?_take_of_lt hk, List.getElem?_drop, pyRange_getElem?]
    have h1 : i + k < rangeLen a b s := by omega
    rw [if_pos h1]
    rw [rangeLen_pos_lt _ _ _ hs] at h1
    have h2 : ((i + k : Nat) : Int) * s < j * s := Int.mul_lt_mul_of_pos_right (by omega) hs
    rw [if_pos]
    · congr 1; omega
    · rw [rangeLen_pos_lt _ _ _ hs]; omega
  · rw [List.getElem?_eq_none (by simp; omega), if_neg]
    rw [rangeLen_pos_lt _ _ _ hs]
    have h2 : (j : Int) * s ≤ ((i + k : Nat) : Int) * s :=
      Int.mul_le_mul_of_nonneg_right (by omega) (by omega)
    omega

/-- Re-slicing an ascending slice with `slice(i, j)` gives the items `i..j-1` of the sliced file, and
the result is again an ascending slice that selects `j - i` items. -/
theorem reslice_spec {α : Type} (file : List α) (s : PySlice) (h : Ascending file.length s)
    (i j : Nat) (hij : i ≤ j)
    (hj : j ≤ (Spec.slice file s.start s.stop (s.step.getD 1)).length) :
    ∃ s', reslice (.slc s) file.length i j = .ok (.slc s') ∧
      fileRead file (.slc s') =
        .ok (((Spec.slice file s.start s.stop (s.step.getD 1)).drop i).take (j - i)) ∧
      (i < j → Ascending file.length s') ∧ 0 < s'.step.getD 1 ∧
      (i < j → Spec.slice file s'.start s'.stop (s'.step.getD 1) =
        ((Spec.slice file s.start s.stop (s.step.getD 1)).drop i).take (j - i)) := by
  obtain ⟨a, b, c, hi, hc, ha, hab, hb, hcs⟩ := indices_ok_of_ascending s file.length h
  obtain ⟨hpos, hran⟩ := pyRange_toNat_eq_positions s file.length a b c hi
  -- the sliced file in terms of the range
  have hfile : Spec.slice file s.start s.stop (s.step.getD 1) =
      (pyRange a b c).filterMap fun (x : Int) => file[x.toNat]? := by
    unfold Spec.slice
    rw [← hpos, ← filterMap_toNat]
  have hmap : ∀ l : List Int, (∀ x ∈ l, 0 ≤ x ∧ x < file.length) →
      ∃ m : List α, (l.filterMap fun (x : Int) => file[x.toNat]?) = m ∧
        m.map some = l.map fun (x : Int) => file[x.toNat]? := by
    intro l hl
    refine ⟨_, rfl, ?_⟩
    induction l with
    | nil => rfl
    | cons x xs ih =>
      have hx := hl x (by simp)
      have : x.toNat < file.length := by omega
      rw [List.filterMap_cons, List.getElem?_eq_getElem this, List.map_cons, List.map_cons,
        ih (fun y hy => hl y (List.mem_cons_of_mem _ hy)), List.getElem?_eq_getElem this]
  have hlen : (Spec.slice file s.start s.stop (s.step.getD 1)).length = rangeLen a b c := by
    rw [hfile]
    obtain ⟨m, hm, hm'⟩ := hmap (pyRange a b c) hran
    rw [hm]
    have := congrArg List.length hm'
    simpa [pyRange_length] using this
  rw [hlen] at hj
  have hj' : a + i * c ≤ a + j * c := by
    have : (i : Int) * c ≤ j * c := Int.mul_le_mul_of_nonneg_right (by omega) (by omega)
    omega
  have hic : (0 : Int) ≤ i * c := Int.mul_nonneg (by omega) (by omega)
  have hread : fileRead file (.slc ⟨some (a + i * c), some (min (a + j * c) b), some c⟩) =
      .ok (((Spec.slice file s.start s.stop (s.step.getD 1)).drop i).take (j - i)) := by
    simp only [fileRead, npSlice]
    have hidx : PySlice.indices ⟨some (a + i * c), some (min (a + j * c) b), some c⟩ file.length =
        .ok (min (a + i * c) file.length, min (a + j * c) b, c) := by
      unfold PySlice.indices
      simp only [Option.getD_some]
      rw [if_neg (by omega), if_neg (by omega), if_neg (by omega), if_neg (by omega)]
      congr 3
      omega
    rw [hidx]
    simp only
    have hcut : pyRange (min (a + i * c) file.length) (min (a + j * c) b) c
        = ((pyRange a b c).drop i).take (j - i) := by
      rw [← pyRange_sub a b c hc i j hij hj]
      rcases Int.lt_or_le (file.length : Int) (a + i * c) with hlt | hge
      · -- nothing left on either side
        have e1 : rangeLen (min (a + i * c) file.length) (min (a + j * c) b) c = 0 := by
          have := (rangeLen_pos_lt (min (a + i * c) file.length) (min (a + j * c) b) c hc 0)
          simp at this
          omega
        have e2 : rangeLen (a + i * c) (min (a + j * c) b) c = 0 := by
          have := (rangeLen_pos_lt (a + i * c) (min (a + j * c) b) c hc 0)
          simp at this
          omega
        simp [pyRange, e1, e2]
      · rw [show min (a + i * c) (file.length : Int) = a + i * c by omega]
    rw [hcut, hfile]
    obtain ⟨m, hm, hm'⟩ := hmap (pyRange a b c) hran
    obtain ⟨m2, hm2, hm2'⟩ := hmap (((pyRange a b c).drop i).take (j - i))
      (fun x hx => hran x (List.mem_of_mem_drop (List.mem_of_mem_take hx)))
    rw [hm, hm2]
    congr 1
    have : m2.map some = ((m.drop i).take (j - i)).map some := by
      rw [hm2', List.map_take, List.map_drop, List.map_take, List.map_drop, hm']
    exact map_some_inj this
  refine ⟨⟨some (a + i * c), some (min (a + j * c) b), some c⟩, ?_, hread, ?_, ?_, ?_⟩
  · simp only [reslice, hi]
  · intro hlt
    have hil : i < rangeLen a b c := by omega
    rw [rangeLen_pos_lt _ _ _ hc] at hil
    have : (i : Int) * c < j * c := Int.mul_lt_mul_of_pos_right (by omega) hc
    refine ⟨by simpa using hc, ?_⟩
    unfold Spec.ascFrom Spec.ascTo
    simp only
    rw [if_neg (by omega), if_neg (by omega)]
    omega
  · simpa using hc
  · intro _
    have := hread
    simp only [fileRead] at this
    rw [npSlice_eq_spec _ _ (by simp; omega)] at this
    exact Except.ok.inj this

/-- Re-slicing with the empty slice `slice(0, 0)` reads nothing. -/
theorem readBlock_empty {α : Type} (file : List α) (s : PySlice) (hc : 0 < s.step.getD 1) :
    readBlock file (.slc s) 0 0 = .ok [] := by
  cases hi : s.indices file.length with
  | error e =>
    unfold PySlice.indices at hi
    simp only [show s.step.getD 1 ≠ 0 by omega, if_false] at hi
    cases hi
  | ok t =>
    obtain ⟨a, b, c⟩ := t
    obtain ⟨hne, hcs, hasc, -⟩ := indices_bounds s file.length a b c hi
    have hpos : 0 < c := by rw [hcs]; exact hc
    obtain ⟨ha, hb, ha0, hbn⟩ := hasc hpos
    simp only [readBlock, reslice, hi, fileRead]
    rw [npSlice_eq_spec _ _ (by simp; omega)]
    congr 1
    unfold Spec.slice
    have : Spec.positions file.length (some (a + (0 : Nat) * c)) (some (min (a + (0 : Nat) * c) b))
        ((some c).getD 1) = [] := by
      unfold Spec.positions
      simp only [Option.getD_some, if_pos hpos]
      rw [List.filter_eq_nil_iff]
      intro g _
      rw [decide_eq_true_eq]
      unfold Spec.Selects Spec.ascFrom Spec.ascTo
      rw [if_pos hpos]
      simp only
      have h0 : a + ((0 : Nat) : Int) * c = a := by simp
      rw [h0, if_neg (by omega), if_neg (by omega)]
      omega
    rw [this]
    rfl

end Verif.Slice
