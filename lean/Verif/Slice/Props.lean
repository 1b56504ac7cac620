import Verif.Slice.Lemmas
import Verif.Split.Props

/-!
# Property theorems C08 (global slicing) and C10 (distributed reads with a selection)
-/
namespace Verif.Slice

open Verif.Common

/-- **C08** (one process, any positive step). The process holding the block `[off, off+L)` of the
global sequence `xs` gets exactly those of its elements whose global index Python would select,
provided the first selected index is not before the block or the block starts in phase with the
stride. -/
theorem C08_step_aligned_partial {α : Type} (xs : List α) (off L : Nat) (hL : off + L ≤ xs.length)
    (start stop step : Option Int) (hc : 0 < step.getD 1)
    (hal : off ≤ Spec.ascFrom xs.length start ∨
      step.getD 1 ∣ (off - Spec.ascFrom xs.length start)) :
    ∃ r, globalGet ((xs.drop off).take L) off xs.length (.slc ⟨start, stop, step⟩) = .ok r ∧
      r.elems = ((List.range' off L).filter
        (Spec.Selects xs.length start stop (step.getD 1) ·)).filterMap (xs[·]?) ∧
      (∀ a, r ≠ .scalar a) := by
  have hlen : ((xs.drop off).take L).length = L := by simp; omega
  generalize hn : xs.length = n at *
  generalize hcc : step.getD 1 = c at *
  -- the code's global start and stop
  have hstep : step ≠ some 0 := by rintro rfl; simp at hcc; omega
  have hfrom0 : 0 ≤ Spec.ascFrom n start := by unfold Spec.ascFrom; cases start <;> grind
  have hempty : ∀ p : Nat → Bool, (∀ g, off ≤ g → g < off + L → p g = false) →
      ((List.range' off L).filter p).filterMap (xs[·]?) = [] := by
    intro p hp
    have : (List.range' off L).filter p = [] := by
      rw [List.filter_eq_nil_iff]
      intro g hg
      rw [List.mem_range'_1] at hg
      simp [hp g hg.1 hg.2]
    rw [this]; rfl
  -- local slice with given normalised bounds
  have hloc : ∀ a b : Int, 0 ≤ a → a ≤ L → 0 ≤ b → b ≤ L →
      (∀ k : Nat, k < L → ((a ≤ k ∧ k < b ∧ c ∣ (k - a)) ↔
        Spec.Selects n start stop c (off + k))) →
      localIndex ((xs.drop off).take L) (.slc ⟨some a, some b, step⟩) =
        .ok (.block (((List.range' off L).filter
          (Spec.Selects n start stop c ·)).filterMap (xs[·]?))) := by
    intro a b ha ha' hb hb' hk
    simp only [localIndex]
    rw [npSlice_eq_spec _ _ hstep]
    simp only [Except.map, hcc]
    unfold Spec.slice Spec.positions
    rw [if_pos hc, hlen]
    congr 2
    apply filterMap_local
    intro k hkL
    rw [decide_eq_decide, ← hk k hkL]
    unfold Spec.Selects Spec.ascFrom Spec.ascTo
    simp only [if_pos hc, if_neg (show ¬ a < 0 by omega), if_neg (show ¬ b < 0 by omega)]
    rw [show min b (L : Int) = b by omega]
  unfold globalGet resolve
  rw [hlen]
  simp only
  -- facts about the bounds the code computes
  generalize hst : startOf off n start = st
  generalize hsp : stopOf off n L stop = sp
  have key : ∀ k : Nat, k < L → ((max (min st L) 0 ≤ (k : Int) ∧ (k : Int) < max (min sp L) 0 ∧
      c ∣ (k - max (min st L) 0)) ↔ Spec.Selects n start stop c (off + k)) := by
    intro k hk
    unfold Spec.Selects
    rw [if_pos hc]
    have h2 : (k : Int) < max (min sp L) 0 ↔ ((off + k : Nat) : Int) < Spec.ascTo n stop := by
      unfold Spec.ascTo
      cases stop <;> simp only [stopOf] at hsp ⊢ <;> subst hsp
      · omega
      · split <;> split <;> omega
    have h1 : max (min st L) 0 ≤ (k : Int) ↔ Spec.ascFrom n start ≤ ((off + k : Nat) : Int) := by
      unfold Spec.ascFrom
      cases start <;> simp only [startOf] at hst ⊢ <;> subst hst
      · omega
      · split <;> split <;> omega
    have h3 : max (min st L) 0 ≤ (k : Int) →
        (c ∣ (k - max (min st L) 0) ↔ c ∣ (((off + k : Nat) : Int) - Spec.ascFrom n start)) := by
      intro hle
      rcases Int.lt_or_le (Spec.ascFrom n start) off with hlt | hge
      · -- starts before the block: the local slice starts at 0
        have hst0 : max (min st L) 0 = 0 := by
          unfold Spec.ascFrom at hlt
          cases start <;> simp only [startOf] at hst hlt <;> subst hst
          · omega
          · split at hlt <;> split <;> omega
        have hd : c ∣ (off - Spec.ascFrom n start) := by
          rcases hal with h | h
          · omega
          · exact h
        rw [hst0, show ((off + k : Nat) : Int) - Spec.ascFrom n start
          = (k - 0) + (off - Spec.ascFrom n start) by omega]
        exact (Int.dvd_add_left hd).symm
      · have : (k : Int) - max (min st L) 0 = ((off + k : Nat) : Int) - Spec.ascFrom n start := by
          unfold Spec.ascFrom at hge ⊢
          cases start <;> simp only [startOf] at hst hge ⊢ <;> subst hst
          · omega
          · split at hge <;> split <;> omega
        rw [this]
    constructor
    · rintro ⟨a1, a2, a3⟩
      exact ⟨h1.1 a1, h2.1 a2, (h3 a1).1 a3⟩
    · rintro ⟨a1, a2, a3⟩
      exact ⟨h1.2 a1, h2.2 a2, (h3 (h1.2 a1)).2 a3⟩
  by_cases hout : (L : Int) ≤ st ∨ sp < 0
  · rw [if_pos hout]
    have hnil : ((List.range' off L).filter
        (Spec.Selects n start stop c ·)).filterMap (xs[·]?) = [] := by
      apply hempty
      intro g h1 h2
      rw [decide_eq_false_iff_not]
      intro hsel
      have := (key (g - off) (by omega)).2 (by rwa [show off + (g - off) = g by omega])
      omega
    cases hfull : (start.isNone && stop.isNone && step.isNone) with
    | false => exact ⟨.notHere, rfl, hnil.symm, fun a h => by cases h⟩
    | true =>
      simp only [Bool.and_eq_true, Option.isNone_iff_eq_none] at hfull
      obtain ⟨⟨rfl, rfl⟩, rfl⟩ := hfull
      simp only [startOf, stopOf] at hst hsp
      have hL0 : L = 0 := by omega
      refine ⟨.block [], ?_, hnil.symm, fun a h => by cases h⟩
      subst hL0
      simp only [localIndex, List.take_zero]
      rw [npSlice_eq_spec _ _ (by simp)]
      rfl
  · rw [if_neg hout]
    have := hloc (max (min st L) 0) (max (min sp L) 0) (by omega) (by omega) (by omega) (by omega) key
    cases (start.isNone && stop.isNone && step.isNone) <;>
      exact ⟨_, this, rfl, fun a h => by cases h⟩

/-- A stride of 2 from index 0 on a block that starts at an even offset. -/
example : globalGet [12, 13, 14] 2 6 (.slc ⟨none, none, some 2⟩) = .ok (.block [12, 14]) := by rfl

/-- **C08** (one process, no step). The process holding `[off, off+L)` gets exactly those of its
elements whose global index is selected by `start:stop`, for all integers and `None`. -/
theorem C08_slice_block {α : Type} (xs : List α) (off L : Nat) (hL : off + L ≤ xs.length)
    (start stop : Option Int) :
    ∃ r, globalGet ((xs.drop off).take L) off xs.length (.slc ⟨start, stop, none⟩) = .ok r ∧
      r.elems = ((List.range' off L).filter
        (Spec.Selects xs.length start stop 1 ·)).filterMap (xs[·]?) ∧
      (∀ a, r ≠ .scalar a) :=
  C08_step_aligned_partial xs off L hL start stop none (by decide) (.inr (Int.one_dvd _))

example : globalGet [12, 13] 2 5 (.slc ⟨some (-2), none, none⟩) = .ok (.block [13]) := by rfl

/-- **C08** (all processes, no step). For every global sequence, process count, start and stop, the
elements obtained by the processes in rank order are the Python slice of the global sequence. -/
theorem C08_slice_concat {α : Type} (xs : List α) (P : Nat) (hP : 1 ≤ P) (start stop : Option Int) :
    ∃ res : Nat → Res α,
      (∀ r, r < P → ∃ num st en, Split.splitLocal xs.length P r = .ok (num, st, en) ∧
        globalGet ((xs.drop st).take num) st xs.length (.slc ⟨start, stop, none⟩) = .ok (res r)) ∧
      ((List.range P).map fun r => (res r).elems).flatten = Spec.slice xs start stop 1 := by
  obtain ⟨num, st, en, -, htile, -, -, hlen, hloc⟩ := Split.C01_split_tiles xs.length P hP
  have hle : ∀ r, r < P → st r + num r ≤ xs.length := by
    intro r hr
    rw [← hlen r hr]
    have : ∀ d r, r + d + 1 = P → en r ≤ xs.length := by
      intro d
      induction d with
      | zero => intro r h; rw [htile.last r (by omega)]
      | succ d ih =>
        intro r h
        have h1 := ih (r + 1) (by omega)
        have h2 := htile.meets r (by omega)
        have h3 := htile.ordered (r + 1) (by omega)
        omega
    exact this (P - r - 1) r (by omega)
  have hex : ∀ r, ∃ x : Res α, r < P → globalGet ((xs.drop (st r)).take (num r)) (st r) xs.length
      (.slc ⟨start, stop, none⟩) = .ok x ∧ x.elems = ((List.range' (st r) (num r)).filter
        (Spec.Selects xs.length start stop 1 ·)).filterMap (xs[·]?) := by
    intro r
    by_cases hr : r < P
    · obtain ⟨x, h1, h2, -⟩ := C08_slice_block xs (st r) (num r) (hle r hr) start stop
      exact ⟨x, fun _ => ⟨h1, h2⟩⟩
    · exact ⟨.notHere, fun h => absurd h hr⟩
  refine ⟨fun r => (hex r).choose, ?_, ?_⟩
  · intro r hr
    exact ⟨num r, st r, en r, hloc r hr, ((hex r).choose_spec hr).1⟩
  · -- boundaries of the blocks as one increasing function
    let b : Nat → Nat := fun i => if i < P then st i else xs.length
    have hb : ∀ r, r < P → b (r + 1) = st r + num r := by
      intro r hr
      simp only [b]
      split
      · rename_i h; rw [htile.meets r h, hlen r hr]
      · rename_i h; rw [← hlen r hr, htile.last r (by omega)]
    have hmono : ∀ i, b i ≤ b (i + 1) := by
      intro i
      by_cases hi : i < P
      · rw [hb i hi]; simp only [b, hi, if_true]; omega
      · simp only [b, hi, if_false]; split <;> omega
    have hcut := cut_flatten (List.range xs.length) b P
      (by simp only [b, show 0 < P by omega, if_true]; exact htile.first) hmono
    have hPn : b P = xs.length := by simp [b]
    rw [hPn, List.take_of_length_le (by simp)] at hcut
    have hrew : ((List.range P).map fun r => (hex r).choose.elems)
        = (List.range P).map fun r => ((((List.range xs.length).drop (b r)).take
          (b (r + 1) - b r)).filter (Spec.Selects xs.length start stop 1 ·)).filterMap (xs[·]?) := by
      apply List.map_congr_left
      intro r hr
      rw [List.mem_range] at hr
      rw [((hex r).choose_spec hr).2, hb r hr]
      have : b r = st r := by simp only [b, hr, if_true]
      rw [this, range_drop_take _ _ _ (by have := hle r hr; omega)]
      congr 3
      omega
    rw [hrew]
    unfold Spec.slice Spec.positions
    rw [if_pos (by decide)]
    conv_rhs => rw [← hcut]
    rw [List.filter_flatten, List.filterMap_flatten, List.map_map, List.map_map]
    rfl

/-- Five elements over two processes, `[1:-1]`. -/
example : globalGet [10, 11, 12] 0 5 (.slc ⟨some 1, some (-1), none⟩) = .ok (.block [11, 12]) ∧
    globalGet [13, 14] 3 5 (.slc ⟨some 1, some (-1), none⟩) = .ok (.block [13]) := by decide

/-- **C08** (integer index, part). For a non-negative integer index the process that owns it gets the
element and every other process gets `None`. Missing: negative indices (see the negation below). -/
theorem C08_index_partial {α : Type} (xs : List α) (off L : Nat) (hL : off + L ≤ xs.length)
    (i : Nat) (a : α) (ha : xs[i]? = some a) :
    globalGet ((xs.drop off).take L) off xs.length (.idx i) =
      .ok (if off ≤ i ∧ i < off + L then .scalar a else .notHere) := by
  have hlen : ((xs.drop off).take L).length = L := by simp; omega
  unfold globalGet resolve
  rw [hlen]
  simp only
  by_cases h : off ≤ i ∧ i < off + L
  · rw [if_neg (by omega), if_pos h]
    simp only [localIndex, npItem]
    rw [if_neg (by rw [hlen]; omega), if_neg (by omega),
      show ((i : Int) - off).toNat = i - off by omega, local_getElem? _ _ _ _ (by omega),
      show off + (i - off) = i by omega, ha]
    rfl
  · rw [if_pos (by omega), if_neg h]

example : globalGet [12, 13] 2 5 (.idx 3) = .ok (.scalar 13) ∧
    globalGet [10, 11] 0 5 (.idx 3) = .ok .notHere := by decide

/-- **C08** (integer index, negation). Python's `xs[-1]` is the last element; through `global_slice`
no process gets it, for any sequence and any block. -/
theorem C08_negative_index_violated {α : Type} (loc : List α) (off n : Nat) (i : Int) (hi : i < 0) :
    globalGet loc off n (.idx i) = .ok .notHere := by
  unfold globalGet resolve
  simp only
  rw [if_pos (by omega)]

example : Spec.item [10, 11, 12] (-1) = some 12 ∧
    globalGet [10, 11, 12] 0 3 (.idx (-1)) = .ok .notHere := by decide

/-- **C08** (numpy integer index, negation). A numpy integer is not translated to a local index: with
four elements on two processes index 1 gives an element on both processes and the wrong one on the
second. -/
theorem C08_numpy_index_violated :
    Spec.item [10, 11, 12, 13] 1 = some 11 ∧
    globalGet [10, 11] 0 4 (.npidx 1) = .ok (.scalar 11) ∧
    globalGet [12, 13] 2 4 (.npidx 1) = .ok (.scalar 13) := by decide

/-- **C08** (step, negation). With a stride the second process restarts the stride at its own first
element: `[::2]` of four elements split 3+1 selects index 3. -/
theorem C08_step_violated :
    Spec.slice [10, 11, 12, 13] none none 2 = [10, 12] ∧
    globalGet [10, 11, 12] 0 4 (.slc ⟨none, none, some 2⟩) = .ok (.block [10, 12]) ∧
    globalGet [13] 3 4 (.slc ⟨none, none, some 2⟩) = .ok (.block [13]) := by decide

/-- **C08** (step, negation on the canonical split). `[::2]` of five elements over two processes (3+2)
selects index 3 instead of index 4. -/
theorem C08_step_canonical_violated :
    Split.splitLocal 5 2 0 = .ok (3, 0, 3) ∧ Split.splitLocal 5 2 1 = .ok (2, 3, 5) ∧
    Spec.slice [10, 11, 12, 13, 14] none none 2 = [10, 12, 14] ∧
    globalGet [10, 11, 12] 0 5 (.slc ⟨none, none, some 2⟩) = .ok (.block [10, 12]) ∧
    globalGet [13, 14] 3 5 (.slc ⟨none, none, some 2⟩) = .ok (.block [13]) := by decide

/-- **C08** (negative step, negation). A reversal selects nothing, even on one process. -/
theorem C08_negative_step_violated :
    Spec.slice [10, 11, 12] none none (-1) = [12, 11, 10] ∧
    globalGet [10, 11, 12] 0 3 (.slc ⟨none, none, some (-1)⟩) = .ok (.block []) := by decide

/-- **C08** (step on one process). With a single process every ascending slice is right. -/
theorem C08_single_process_step_partial {α : Type} (xs : List α) (start stop step : Option Int)
    (hc : 0 < step.getD 1) :
    ∃ r, globalGet xs 0 xs.length (.slc ⟨start, stop, step⟩) = .ok r ∧
      r.elems = Spec.slice xs start stop (step.getD 1) := by
  obtain ⟨r, h1, h2, -⟩ := C08_step_aligned_partial xs 0 xs.length (by omega) start stop step hc
    (.inl (by unfold Spec.ascFrom; cases start <;> grind))
  rw [List.drop_zero, List.take_length] at h1
  refine ⟨r, h1, ?_⟩
  rw [h2, ← List.range_eq_range']
  unfold Spec.slice Spec.positions
  rw [if_pos hc]

example : globalGet [10, 11, 12, 13] 0 4 (.slc ⟨some 1, none, some 2⟩) = .ok (.block [11, 13]) := by rfl

/-- **C08** (assignment). Assigning a scalar through `global_slice[start:stop]` changes on each
process exactly the elements whose global index is selected. -/
theorem C08_setitem {α : Type} (loc : List α) (off n : Nat) (hL : off + loc.length ≤ n)
    (start stop : Option Int) (v : α) :
    ∃ loc', globalSet loc off n (.slc ⟨start, stop, none⟩) v = .ok loc' ∧
      loc'.length = loc.length ∧
      ∀ k, k < loc.length → loc'[k]? =
        if Spec.Selects n start stop 1 (off + k) then some v else loc[k]? := by
  unfold globalSet resolve
  simp only
  generalize hst : startOf off n start = st
  generalize hsp : stopOf off n loc.length stop = sp
  have key : ∀ k : Nat, k < loc.length →
      ((max (min st loc.length) 0 ≤ (k : Int) ∧ (k : Int) < max (min sp loc.length) 0) ↔
        Spec.Selects n start stop 1 (off + k)) := by
    intro k hk
    unfold Spec.Selects
    rw [if_pos (by decide)]
    have h2 : (k : Int) < max (min sp loc.length) 0 ↔
        ((off + k : Nat) : Int) < Spec.ascTo n stop := by
      unfold Spec.ascTo
      cases stop <;> simp only [stopOf] at hsp ⊢ <;> subst hsp
      · omega
      · split <;> split <;> omega
    have h1 : max (min st loc.length) 0 ≤ (k : Int) ↔
        Spec.ascFrom n start ≤ ((off + k : Nat) : Int) := by
      unfold Spec.ascFrom
      cases start <;> simp only [startOf] at hst ⊢ <;> subst hst
      · omega
      · split <;> split <;> omega
    have h3 : (1 : Int) ∣ ((off + k : Nat) : Int) - Spec.ascFrom n start := Int.one_dvd _
    rw [h1, h2]
    exact ⟨fun h => ⟨h.1, h.2, h3⟩, fun h => ⟨h.1, h.2.1⟩⟩
  by_cases hout : (loc.length : Int) ≤ st ∨ sp < 0
  · rw [if_pos hout]
    refine ⟨loc, rfl, rfl, ?_⟩
    intro k hk
    rw [if_neg]
    intro h
    have := (key k hk).2 h
    omega
  · rw [if_neg hout]
    simp only [localSet]
    have hidx : PySlice.indices ⟨some (max (min st loc.length) 0),
        some (max (min sp loc.length) 0), none⟩ loc.length =
        .ok (max (min st loc.length) 0, max (min sp loc.length) 0, 1) := by
      unfold PySlice.indices
      have h1 : ¬ max (min st (loc.length : Int)) 0 < 0 := by omega
      have h2 : ¬ max (min sp (loc.length : Int)) 0 < 0 := by omega
      simp only [Option.getD_none, h1, h2, if_false, show ¬ (1 : Int) = 0 by decide,
        show ¬ (1 : Int) < 0 by decide]
      rw [show min (max (min st (loc.length : Int)) 0) loc.length = max (min st loc.length) 0 by omega,
        show min (max (min sp (loc.length : Int)) 0) loc.length = max (min sp loc.length) 0 by omega]
    rw [hidx]
    simp only
    refine ⟨_, rfl, setAll_length _ _ _, ?_⟩
    intro k hk
    rw [setAll_getElem?]
    have hmem : k ∈ (pyRange (max (min st loc.length) 0) (max (min sp loc.length) 0) 1).map Int.toNat
        ↔ Spec.Selects n start stop 1 (off + k) := by
      rw [← key k hk, List.mem_map]
      constructor
      · rintro ⟨x, hx, rfl⟩
        rw [mem_pyRange_pos _ _ _ (by decide)] at hx
        omega
      · intro h
        refine ⟨k, ?_, by simp⟩
        rw [mem_pyRange_pos _ _ _ (by decide)]
        exact ⟨h.1, h.2, Int.one_dvd _⟩
    by_cases hs : Spec.Selects n start stop 1 (off + k)
    · rw [if_pos ⟨hmem.2 hs, hk⟩, if_pos hs]
    · rw [if_neg (fun h => hs (hmem.1 h.1)), if_neg hs]

example : globalSet [12, 13, 14] 2 5 (.slc ⟨some 3, none, none⟩) 0 = .ok [12, 0, 0] := by rfl

/-- **C08** (other axes). An ellipsis, written or implied at the end, stands for the full slices that
make up the number of axes, so every other entry keeps its axis. -/
theorem C08_ellipsis_expansion (ndim : Nat) (pre post : List AxisSel)
    (h : pre.length + post.length ≤ ndim) :
    expand ndim (pre.map .ax ++ Entry.ellipsis :: post.map .ax) =
      pre ++ List.replicate (ndim - pre.length - post.length) (.slc {}) ++ post ∧
    (post = [] → expand ndim (pre.map .ax) =
      pre ++ List.replicate (ndim - pre.length) (.slc {})) := by
  have hid : ∀ (k : Nat) (l : List AxisSel), (l.map Entry.ax).flatMap (expandEntry k) = l := by
    intro k l
    induction l with
    | nil => rfl
    | cons x xs ih => rw [List.map_cons, List.flatMap_cons, ih]; rfl
  have hne : ∀ l : List AxisSel, Entry.ellipsis ∉ l.map Entry.ax := by
    intro l hl
    obtain ⟨x, -, hx⟩ := List.mem_map.1 hl
    cases hx
  constructor
  · unfold expand
    rw [if_neg (by simp)]
    simp only
    rw [List.flatMap_append, List.flatMap_cons, hid, hid, List.append_assoc, expandEntry]
    congr 3
    simp
    omega
  · rintro rfl
    unfold expand
    by_cases hlt : pre.length < ndim
    · rw [if_pos ⟨by simpa using hlt, hne pre⟩]
      simp only
      rw [List.flatMap_append, hid]
      simp only [expandEntry, List.flatMap_cons, List.flatMap_nil, List.append_nil, List.length_append,
        List.length_map, List.length_cons, List.length_nil]
      congr 2
      omega
    · rw [if_neg (by simp; omega)]
      simp only
      rw [hid, show ndim - pre.length = 0 by omega]
      simp

example : expand 4 [.ax (.idx 1), .ellipsis, .ax (.idx 2)] =
    [.idx 1, .slc {}, .slc {}, .idx 2] := by rfl

/-! ### C10 -/

/-- **C10** (length). For ascending slices the computed length is the number of positions Python
selects. -/
theorem C10_len_slice_partial (s : PySlice) (n : Nat) (h : Ascending n s) :
    lenSlice (.slc s) n =
      .ok ((Spec.positions n s.start s.stop (s.step.getD 1)).length : Nat) := by
  obtain ⟨a, b, c, hi, hc, ha, hab, hb, -⟩ := indices_ok_of_ascending s n h
  rw [← (pyRange_toNat_eq_positions s n a b c hi).1, List.length_map, pyRange_length]
  simp only [lenSlice, hi]
  congr 1
  rw [Int.fdiv_eq_ediv_of_nonneg _ (by omega)]
  unfold rangeLen
  rw [if_pos hc]
  have h1 : b - a + c - 1 = (b - a - 1) + 1 * c := by omega
  rw [h1, Int.add_mul_ediv_right _ _ (by omega)]
  have h2 : -1 ≤ (b - a - 1) / c := by
    rw [Int.le_ediv_iff_mul_le hc]; omega
  omega

example : lenSlice (.slc ⟨some 1, some 8, some 3⟩) 10 = .ok 3 := by rfl

/-- **C10** (read, slices). A dataset axis read with an ascending slice selection over `P` processes:
process `r` reads exactly its block of the selected sequence, whichever of the two read paths is
taken, and the blocks in rank order make up the selected sequence. Missing: inverted and descending
slices (negations below). -/
theorem C10_read_block_partial {α : Type} (file : List α) (s : PySlice)
    (h : Ascending file.length s) (P : Nat) (hP : 1 ≤ P) :
    ∃ len : Nat, lenSlice (.slc s) file.length = .ok len ∧
      ∃ piece : Nat → List α,
        (∀ r, r < P → ∃ num st en, Split.splitLocal len P r = .ok (num, st, en) ∧
          readBlock file (.slc s) st en = .ok (piece r) ∧
          readBlockPart file (.slc s) st en = .ok (piece r) ∧ (piece r).length = num) ∧
        ((List.range P).map piece).flatten = Spec.slice file s.start s.stop (s.step.getD 1) := by
  generalize hsel : Spec.slice file s.start s.stop (s.step.getD 1) = sel
  have hlen : (Spec.positions file.length s.start s.stop (s.step.getD 1)).length = sel.length := by
    rw [← hsel]
    unfold Spec.slice
    have hmem : ∀ g ∈ Spec.positions file.length s.start s.stop (s.step.getD 1),
        g < file.length := by
      intro g hg
      unfold Spec.positions at hg
      simp only [if_pos h.1, List.mem_filter, List.mem_range] at hg
      exact hg.1
    generalize Spec.positions file.length s.start s.stop (s.step.getD 1) = l at hmem
    induction l with
    | nil => rfl
    | cons x xs ih =>
      rw [List.filterMap_cons, List.getElem?_eq_getElem (hmem x (by simp))]
      simp only [List.length_cons]
      rw [ih (fun g hg => hmem g (List.mem_cons_of_mem _ hg))]
  refine ⟨sel.length, by rw [C10_len_slice_partial s _ h, hlen], ?_⟩
  refine ⟨fun r => (sel.drop (Split.blk sel.length P r)).take
    (Split.blk sel.length P (r + 1) - Split.blk sel.length P r), ?_, ?_⟩
  · intro r hr
    have hm := Split.blk_mono sel.length P (show r ≤ r + 1 by omega)
    have hle := Split.blk_le sel.length P (show r + 1 ≤ P by omega) hP
    have hsucc := Split.blk_succ sel.length P r
    refine ⟨_, _, _, Split.splitLocal_ok sel.length P r hr, ?_⟩
    dsimp only
    generalize hi : Split.blk sel.length P r = i at *
    generalize hj : Split.blk sel.length P (r + 1) = j at *
    obtain ⟨s', h1, h2, h3, h4, h5⟩ := reslice_spec file s h i j hm (by rw [hsel]; exact hle)
    rw [hsel] at h2 h5
    have hrd : readBlock file (.slc s) i j = .ok ((sel.drop i).take (j - i)) := by
      simp only [readBlock, h1, h2]
    refine ⟨hrd, ?_, ?_⟩
    · simp only [readBlockPart, h1]
      rcases Nat.lt_or_eq_of_le hm with hlt | heq
      · have hl : ((sel.drop i).take (j - i)).length = j - i := by simp; omega
        obtain ⟨s'', g1, g2, -⟩ := reslice_spec file s' (h3 hlt) 0 (j - i) (by omega)
          (by rw [h5 hlt, hl])
        simp only [readBlock, g1, g2]
        rw [h5 hlt]
        simp [List.take_take]
      · rw [← heq, Nat.sub_self, readBlock_empty file s' h4]
        simp
    · simp only [List.length_take, List.length_drop]
      omega
  · rw [cut_flatten sel (Split.blk sel.length P) P (Split.blk_zero _ _)
      (fun i => Split.blk_mono _ _ (by omega)), Split.blk_last _ _ hP, List.take_length]

/-- Ten elements, selection `[1:9:3]`, second of two processes. -/
example : lenSlice (.slc ⟨some 1, some 9, some 3⟩) 10 = .ok 3 ∧
    readBlock [0, 1, 2, 3, 4, 5, 6, 7, 8, 9] (.slc ⟨some 1, some 9, some 3⟩) 2 3 = .ok [7] := by
  decide

/-- **C10** (read, lists of positions). A list selection is read block by block in order. -/
theorem C10_read_list {α : Type} (file : List α) (l : List Int) (ys : List α)
    (hy : fileRead file (.list l) = .ok ys) (P : Nat) (hP : 1 ≤ P) :
    lenSlice (.list l) file.length = .ok ys.length ∧
    ∃ piece : Nat → List α,
      (∀ r, r < P → ∃ num st en, Split.splitLocal ys.length P r = .ok (num, st, en) ∧
        readBlock file (.list l) st en = .ok (piece r) ∧
        readBlockPart file (.list l) st en = .ok (piece r)) ∧
      ((List.range P).map piece).flatten = ys := by
  have hmap : ∀ (l : List Int) (ys : List α), l.mapM (npItem file) = .ok ys →
      l.length = ys.length ∧ (∀ i, (l.drop i).mapM (npItem file) = .ok (ys.drop i)) ∧
      ∀ i, (l.take i).mapM (npItem file) = .ok (ys.take i) := by
    intro l
    induction l with
    | nil =>
      intro ys h
      cases h
      exact ⟨rfl, fun i => by simp; rfl, fun i => by simp; rfl⟩
    | cons x xs ih =>
      intro ys h
      rw [List.mapM_cons] at h
      cases hx : npItem file x with
      | error e => rw [hx] at h; cases h
      | ok a =>
        rw [hx] at h
        cases hxs : xs.mapM (npItem file) with
        | error e => rw [hxs] at h; cases h
        | ok zs =>
          rw [hxs] at h
          have hz : ys = a :: zs := (Except.ok.inj h).symm
          subst hz
          obtain ⟨e1, e2, e3⟩ := ih zs hxs
          refine ⟨by simp [e1], ?_, ?_⟩
          · intro i
            cases i with
            | zero => rw [List.drop_zero, List.drop_zero, List.mapM_cons, hx, hxs]; rfl
            | succ i => simpa using e2 i
          · intro i
            cases i with
            | zero => rfl
            | succ i =>
              rw [List.take_succ_cons, List.take_succ_cons, List.mapM_cons, hx, e3 i]; rfl
  obtain ⟨e1, e2, e3⟩ := hmap l ys hy
  refine ⟨by simp [lenSlice, e1], fun r => (ys.drop (Split.blk ys.length P r)).take
    (Split.blk ys.length P (r + 1) - Split.blk ys.length P r), ?_, ?_⟩
  · intro r hr
    refine ⟨_, _, _, Split.splitLocal_ok ys.length P r hr, ?_, ?_⟩
    · simp only [readBlock, reslice, fileRead]
      exact (hmap _ _ (e2 _)).2.2 _
    · simp only [readBlockPart, readBlock, reslice, fileRead, List.drop_zero, Nat.sub_zero]
      rw [List.take_take, Nat.min_self]
      exact (hmap _ _ (e2 _)).2.2 _
  · rw [cut_flatten ys (Split.blk ys.length P) P (Split.blk_zero _ _)
      (fun i => Split.blk_mono _ _ (by omega)), Split.blk_last _ _ hP, List.take_length]

example : readBlock [10, 11, 12, 13] (.list [3, 0, 2]) 1 3 = .ok [10, 12] := by rfl

/-- **C10** (negation). For an inverted slice, which selects nothing in Python, the computed length
is negative: `[5:2]` of ten elements has length -3. -/
theorem C10_inverted_violated :
    Spec.positions 10 (some 5) (some 2) 1 = [] ∧
    lenSlice (.slc ⟨some 5, some 2, none⟩) 10 = .ok (-3) := by decide

/-- **C10** (negation). For a reversal the computed length is too large: `[::-1]` of ten elements
gives 12, and the last process of two reads outside its share. -/
theorem C10_descending_violated :
    (Spec.positions 10 none none (-1)).length = 10 ∧
    lenSlice (.slc ⟨none, none, some (-1)⟩) 10 = .ok 12 ∧
    Spec.slice [0, 1, 2, 3] none none (-1) = [3, 2, 1, 0] ∧
    readBlock [0, 1, 2, 3] (.slc ⟨none, none, some (-1)⟩) 0 2 = .ok [] := by decide

end Verif.Slice
