import Verif.Cont.Filter
import Verif.Reshape.Spec
import Verif.Common.Lists
import Mathlib.Data.List.Nodup

/-!
# Specification and lemmas for `copy_datasets_filter`
-/
namespace Verif.Cont

open Verif.Mpi (blockStart blockLen)
open Verif.Reshape (InShape)

variable {α : Type}

/-- The indices `l` of a list select the positions `idx` of an axis of length `n`: every index is in
range, negative ones counting from the end. -/
def Indexes (n : Nat) (l : List Int) (idx : List Nat) : Prop :=
  List.Forall₂ (fun (i : Int) (g : Nat) => g < n ∧ ((g : Int) = i ∨ (g : Int) = i + n)) l idx

/-- The positions selected along an axis of length `n`: all of them without a selection; those of Python's
slice or those listed otherwise. Other kinds of selections select nothing. -/
def Positions (s : Option Sel) (n : Nat) (idx : List Nat) : Prop :=
  match s with
  | none => idx = List.range n
  | some (.slice a b c) => c ≠ some 0 ∧ idx = Verif.Slice.Spec.positions n a b (c.getD 1)
  | some (.list l) => Indexes n l idx
  | some (.tuple l) => Indexes n l idx
  | some (.array _) => False
  | some .other => False

theorem mapM_normIdx (n : Nat) (l : List Int) (idx : List Nat) :
    l.mapM (normIdx n) = .ok idx ↔ Indexes n l idx := by
  induction l generalizing idx with
  | nil =>
    simp [List.mapM_nil, pure, Except.pure, Indexes]
  | cons i l ih =>
    have h1 : ∀ g, normIdx n i = .ok g ↔ (g < n ∧ ((g : Int) = i ∨ (g : Int) = i + n)) := by
      intro g
      unfold normIdx
      split
      · split
        · simp only [Except.ok.injEq]; omega
        · simp; omega
      · split
        · simp only [Except.ok.injEq]; omega
        · simp; omega
    rw [List.mapM_cons]
    unfold Indexes at ih ⊢
    constructor
    · intro h
      simp only [bind, Except.bind, pure, Except.pure] at h
      cases hi : normIdx n i with
      | error e => rw [hi] at h; simp at h
      | ok g =>
        rw [hi] at h
        simp only at h
        cases hl : l.mapM (normIdx n) with
        | error e => rw [hl] at h; simp at h
        | ok gs =>
          rw [hl] at h
          simp at h
          subst h
          exact .cons ((h1 g).1 hi) ((ih gs).1 hl)
    · intro h
      cases h with
      | cons h0 hr =>
        simp only [bind, Except.bind, pure, Except.pure]
        rw [(h1 _).2 h0, (ih _).2 hr]

theorem resolveSel_iff (s : Sel) (n : Nat) (idx : List Nat) :
    resolveSel s n = .ok idx ↔ Positions (some s) n idx := by
  cases s with
  | slice a b c =>
    unfold resolveSel Positions
    by_cases hc : c = some 0
    · simp [hc]
    · simp [hc]; exact eq_comm
  | list l => exact mapM_normIdx n l idx
  | tuple l => exact mapM_normIdx n l idx
  | array l => simp [resolveSel, Positions]
  | other => simp [resolveSel, Positions]

/-- `B` is `A` with the selection of each axis applied along it. -/
def IsSelected (axes : List String) (sel : String → Option Sel) (A B : NArr α) : Prop :=
  ∃ pos : List (List Nat), pos.length = A.shape.length ∧
    (∀ (k : Nat) ax n p, axes[k]? = some ax → A.shape[k]? = some n → pos[k]? = some p → Positions (sel ax) n p) ∧
    B.shape = pos.map List.length ∧
    ∀ I, InShape I B.shape → B.val I = A.val (List.zipWith (fun p i => p.getD i 0) pos I)

theorem inShape_getElem? {I s : List Nat} (h : InShape I s) (k i : Nat) (hi : I[k]? = some i) :
    ∃ n, s[k]? = some n ∧ i < n := by
  induction h generalizing k with
  | nil => simp at hi
  | cons h0 _ ih =>
    cases k with
    | zero => simp at hi; subst hi; exact ⟨_, by simp, h0⟩
    | succ k => simp at hi; simpa using ih k hi

theorem inShape_length {I s : List Nat} (h : InShape I s) : I.length = s.length := h.length_eq

theorem range_getD (n i : Nat) (h : i < n) : (List.range n).getD i 0 = i := by
  simp [List.getD, List.getElem?_range h]

theorem isSelected_nil (axes : List String) (A : NArr α) :
    IsSelected axes (fun ax => List.lookup ax ([] : List (String × Sel))) A A := by
  refine ⟨A.shape.map List.range, by simp, ?_, by simp [Function.comp_def], ?_⟩
  · intro k ax n p _ hn hp
    simp [hn] at hp
    simp [Positions, hp]
  · intro I hI
    congr 1
    apply List.ext_getElem?
    intro k
    rw [List.getElem?_zipWith, List.getElem?_map]
    cases hk : I[k]? with
    | none =>
      cases A.shape[k]? <;> simp
    | some i =>
      obtain ⟨n, hn, hin⟩ := inShape_getElem? hI k i hk
      rw [hn]
      simp only [Option.map_some]
      rw [range_getD n i hin]

theorem idxOf?_some {l : List String} {a : String} {k : Nat} (h : l.idxOf? a = some k) : l[k]? = some a := by
  induction l generalizing k with
  | nil => simp at h
  | cons b l ih =>
    rw [List.idxOf?_cons] at h
    by_cases hb : b = a
    · simp [hb] at h; subst h; simp [hb]
    · have : (b == a) = false := by simpa using hb
      rw [this] at h
      simp at h
      obtain ⟨j, hj, rfl⟩ := h
      simpa using ih hj

theorem idxOf?_none {l : List String} {a : String} (h : l.idxOf? a = none) : a ∉ l := by
  simpa using h

theorem idxOf?_unique {l : List String} (hn : l.Nodup) {a : String} {k : Nat} (h : l[k]? = some a) :
    l.idxOf? a = some k := by
  cases hi : l.idxOf? a with
  | none => exact absurd (List.mem_of_getElem? h) (idxOf?_none hi)
  | some j =>
    have hj := idxOf?_some hi
    obtain ⟨hk1, hk2⟩ := List.getElem?_eq_some_iff.1 h
    obtain ⟨hj1, hj2⟩ := List.getElem?_eq_some_iff.1 hj
    rw [(hn.getElem_inj_iff).1 (hj2.trans hk2.symm)]

theorem lookup_none_of_not_mem {d : List (String × Sel)} {a : String} (h : a ∉ d.map (·.1)) :
    List.lookup a d = none := by
  induction d with
  | nil => rfl
  | cons p d ih =>
    obtain ⟨b, s⟩ := p
    simp at h
    have hb : (a == b) = false := by simpa using h.1
    rw [List.lookup_cons, hb]
    exact ih (by simpa using h.2)

theorem applyAll_selected (axes : List String) (hax : axes.Nodup) (sel : List (String × Sel))
    (hsel : (sel.map (·.1)).Nodup) (A B : NArr α) (hlen : A.shape.length = axes.length)
    (h : applyAll axes A sel = .ok B) : IsSelected axes (fun ax => List.lookup ax sel) A B := by
  induction sel generalizing A with
  | nil =>
    simp only [applyAll, Except.ok.injEq] at h
    subst h
    exact isSelected_nil axes A
  | cons p ps ih =>
    obtain ⟨ax, s⟩ := p
    simp only [List.map_cons, List.nodup_cons] at hsel
    unfold applyAll at h
    unfold applyOne at h
    simp only at h
    cases hk : axes.idxOf? ax with
    | none =>
      rw [hk] at h
      simp only at h
      obtain ⟨pos, h1, h2, h3, h4⟩ := ih hsel.2 A hlen h
      refine ⟨pos, h1, ?_, h3, h4⟩
      intro k ax' n p hax' hn hp
      have hne : (ax' == ax) = false := by
        have := idxOf?_none hk
        have := List.mem_of_getElem? hax'
        simp; rintro rfl; contradiction
      simp only
      rw [List.lookup_cons, hne]
      exact h2 k ax' n p hax' hn hp
    | some k =>
      rw [hk] at h
      simp only at h
      unfold applySel at h
      have hkax := idxOf?_some hk
      obtain ⟨hklt, _⟩ := List.getElem?_eq_some_iff.1 hkax
      cases hn : A.shape[k]? with
      | none => rw [hn] at h; simp at h
      | some n =>
        rw [hn] at h
        simp only at h
        cases hr : resolveSel s n with
        | error e => rw [hr] at h; simp at h
        | ok idx =>
          rw [hr] at h
          simp only at h
          have hlen1 : (takeAx A k idx).shape.length = axes.length := by simp [takeAx, hlen]
          obtain ⟨pos, h1, h2, h3, h4⟩ := ih hsel.2 (takeAx A k idx) hlen1 h
          have hkn : k < A.shape.length := (List.getElem?_eq_some_iff.1 hn).1
          have hkp : k < pos.length := by rw [h1, hlen1]; exact hklt
          have hposk : pos[k]? = some (List.range idx.length) := by
            have hp := List.getElem?_eq_getElem hkp
            have := h2 k ax idx.length _ hkax (by simp [takeAx, hkn]) hp
            simp only at this
            rw [lookup_none_of_not_mem hsel.1] at this
            simp only [Positions] at this
            rw [hp, this]
          refine ⟨pos.set k idx, by simp [h1, takeAx], ?_, ?_, ?_⟩
          · intro j ax' m p hax' hm hp
            by_cases hj : k = j
            · subst hj
              rw [hkax] at hax'
              simp at hax'
              subst hax'
              rw [hn] at hm
              simp at hm
              subst hm
              rw [List.getElem?_set_self hkp] at hp
              simp at hp
              subst hp
              simp only [List.lookup_cons, beq_self_eq_true]
              exact (resolveSel_iff _ _ _).1 hr
            · rw [List.getElem?_set_ne hj] at hp
              have hne : (ax' == ax) = false := by
                simp
                rintro rfl
                have := idxOf?_unique hax hax'
                rw [hk] at this
                simp at this
                exact hj this
              simp only
              rw [List.lookup_cons, hne]
              exact h2 j ax' m p hax' (by simp only [takeAx]; rw [List.getElem?_set_ne hj]; exact hm) hp
          · rw [h3]
            apply List.ext_getElem?
            intro j
            by_cases hj : k = j
            · subst hj
              rw [List.getElem?_map, List.getElem?_map, List.getElem?_set_self hkp, hposk]
              simp
            · rw [List.getElem?_map, List.getElem?_map, List.getElem?_set_ne hj]
          · intro I hI
            rw [h4 I hI]
            simp only [takeAx]
            congr 1
            apply List.ext_getElem?
            intro j
            rw [List.getElem?_modify, List.getElem?_zipWith, List.getElem?_zipWith]
            by_cases hj : k = j
            · subst hj
              rw [List.getElem?_set_self hkp, hposk]
              cases hi : I[k]? with
              | none => simp
              | some i =>
                obtain ⟨m, hm, him⟩ := inShape_getElem? hI k i hi
                rw [h3, List.getElem?_map, hposk] at hm
                simp at hm
                subst hm
                simp only [if_true]
                rw [range_getD _ _ him]
                rfl
            · rw [List.getElem?_set_ne hj]
              simp only [if_neg hj]
              exact Option.map_id' ..

/-- The selections are accepted when each of them fits its axis. -/
theorem applyAll_accepts (axes : List String) (sel : List (String × Sel))
    (hsel : (sel.map (·.1)).Nodup) (A : NArr α) (hlen : A.shape.length = axes.length)
    (h : ∀ (k : Nat) ax n s, axes[k]? = some ax → A.shape[k]? = some n → (ax, s) ∈ sel →
      ∃ idx, Positions (some s) n idx) :
    ∃ B, applyAll axes A sel = .ok B := by
  induction sel generalizing A with
  | nil => exact ⟨A, rfl⟩
  | cons p ps ih =>
    obtain ⟨ax, s⟩ := p
    simp only [List.map_cons, List.nodup_cons] at hsel
    unfold applyAll applyOne
    simp only
    cases hk : axes.idxOf? ax with
    | none => exact ih hsel.2 A hlen (fun k ax n s h1 h2 h3 => h k ax n s h1 h2 (by simp [h3]))
    | some k =>
      have hkax := idxOf?_some hk
      obtain ⟨hklt, _⟩ := List.getElem?_eq_some_iff.1 hkax
      have hkn : k < A.shape.length := by omega
      obtain ⟨idx, hidx⟩ := h k ax _ s hkax (List.getElem?_eq_getElem hkn) (by simp)
      rw [← resolveSel_iff] at hidx
      simp only
      unfold applySel
      rw [List.getElem?_eq_getElem hkn]
      simp only
      rw [hidx]
      simp only
      apply ih hsel.2 _ (by simp [takeAx, hlen])
      intro j ax' n s' hj hn hs
      by_cases hjk : k = j
      · subst hjk
        rw [hkax] at hj
        simp at hj
        subst hj
        exact absurd (List.mem_map_of_mem (f := (·.1)) hs) hsel.1
      · simp only [takeAx] at hn
        rw [List.getElem?_set_ne hjk] at hn
        exact h j ax' n s' hj hn (by simp [hs])

/-! ## Selecting along other axes commutes with taking a block -/

theorem takeAx_comm (A : NArr α) (j k : Nat) (hjk : j ≠ k) (p q : List Nat) :
    takeAx (takeAx A j p) k q = takeAx (takeAx A k q) j p := by
  unfold takeAx
  simp only [NArr.mk.injEq]
  constructor
  · rw [List.set_comm _ _ hjk]
  · funext I
    congr 1
    apply List.ext_getElem?
    intro m
    simp only [List.getElem?_modify]
    by_cases h1 : j = m
    · subst h1
      have : ¬ k = j := fun h => hjk h.symm
      simp [this]
    · by_cases h2 : k = m
      · simp [h1, h2]
      · simp [h1, h2]

theorem applyAll_takeAx (axes : List String) (k : Nat) (a : String) (hk : axes[k]? = some a)
    (idx : List Nat) (sel : List (String × Sel)) (hsel : a ∉ sel.map (·.1)) (A : NArr α) :
    applyAll axes (takeAx A k idx) sel = (applyAll axes A sel).map (takeAx · k idx) := by
  induction sel generalizing A with
  | nil => rfl
  | cons p ps ih =>
    obtain ⟨ax, s⟩ := p
    simp only [List.map_cons, List.mem_cons, not_or] at hsel
    unfold applyAll applyOne
    simp only
    cases hi : axes.idxOf? ax with
    | none => exact ih hsel.2 A
    | some j =>
      have hj := idxOf?_some hi
      have hjk : k ≠ j := by
        rintro rfl
        rw [hk] at hj
        simp at hj
        exact hsel.1 hj
      unfold applySel
      simp only [takeAx] at *
      rw [List.getElem?_set_ne hjk]
      cases hn : A.shape[j]? with
      | none => rfl
      | some n =>
        simp only
        cases hr : resolveSel s n with
        | error e => rfl
        | ok q =>
          simp only
          have := takeAx_comm A k j hjk idx q
          unfold takeAx at this
          simp only at this
          rw [this]
          exact ih hsel.2 ⟨A.shape.set j q.length, fun I => A.val (I.modify j fun j => q.getD j 0)⟩

theorem applyAll_shape (axes : List String) (k : Nat) (a : String) (hk : axes[k]? = some a)
    (sel : List (String × Sel)) (hsel : a ∉ sel.map (·.1)) (A B : NArr α)
    (h : applyAll axes A sel = .ok B) : B.shape[k]? = A.shape[k]? := by
  induction sel generalizing A with
  | nil => simp only [applyAll, Except.ok.injEq] at h; rw [h]
  | cons p ps ih =>
    obtain ⟨ax, s⟩ := p
    simp only [List.map_cons, List.mem_cons, not_or] at hsel
    unfold applyAll applyOne at h
    simp only at h
    cases hi : axes.idxOf? ax with
    | none => rw [hi] at h; exact ih hsel.2 A h
    | some j =>
      rw [hi] at h
      simp only at h
      have hj := idxOf?_some hi
      have hjk : j ≠ k := by
        rintro rfl
        rw [hk] at hj
        simp at hj
        exact hsel.1 hj
      unfold applySel at h
      cases hn : A.shape[j]? with
      | none => rw [hn] at h; simp at h
      | some n =>
        rw [hn] at h
        simp only at h
        cases hr : resolveSel s n with
        | error e => rw [hr] at h; simp at h
        | ok q =>
          rw [hr] at h
          simp only at h
          rw [ih hsel.2 _ h]
          simp only [takeAx]
          rw [List.getElem?_set_ne hjk]

theorem applyAll_block (axes : List String) (P r k : Nat) (a : String) (hk : axes[k]? = some a)
    (sel : List (String × Sel)) (hsel : a ∉ sel.map (·.1)) (A : NArr α) :
    applyAll axes (blockOf P r k A) sel = (applyAll axes A sel).map (blockOf P r k) := by
  unfold blockOf
  rw [applyAll_takeAx axes k a hk _ sel hsel A]
  cases h : applyAll axes A sel with
  | error e => rfl
  | ok B =>
    have := applyAll_shape axes k a hk sel hsel A B h
    simp only [Except.map, List.getD, this]

/-! ## Cleaning the selections -/

theorem pyRange_length (a b : Int) : (pyRange a b).length = (b - a).toNat := by simp [pyRange]

theorem not_pyRange (l : List Int) (a b : Int) (hb : l.getLast? = some b) :
    l ≠ pyRange a b := by
  intro h
  have hm : b ∈ pyRange a b := h ▸ List.mem_of_getLast? hb
  simp only [pyRange, List.mem_map, List.mem_range] at hm
  obtain ⟨i, hi, he⟩ := hm
  omega

theorem toSlice_eq (l : List Int) (s : Sel) :
    toSlice l s = if l = [] then .error .indexError else .ok s := by
  unfold toSlice
  cases hh : l.head? with
  | none => simp at hh; simp [hh]
  | some a =>
    have hne : l ≠ [] := by rintro rfl; simp at hh
    cases hb : l.getLast? with
    | none => simp at hb; contradiction
    | some b =>
      simp only
      rw [if_neg (not_pyRange l a b hb), if_neg hne]

/-- Whether a selection is `slice(None)`. -/
def isFull (s : Sel) : Bool := s == .slice none none none

theorem cleanSel_eq {s : Sel} {c : Option Sel} (h : cleanSel s = .ok c) :
    c = if isFull s then none else some s := by
  unfold cleanSel at h
  split at h
  · simp at h; subst h; rfl
  · rename_i a b st hne
    simp at h
    subst h
    have : isFull (.slice a b st) = false := by
      simp only [isFull, beq_eq_false_iff_ne, ne_eq, Sel.slice.injEq]
      rintro ⟨rfl, rfl, rfl⟩
      exact hne rfl rfl rfl
    simp [this]
  · rename_i l
    rw [toSlice_eq] at h
    by_cases hl : l = []
    · simp [hl, Except.map] at h
    · simp [hl, Except.map] at h; subst h; rfl
  · rename_i l
    rw [toSlice_eq] at h
    by_cases hl : l = []
    · simp [hl, Except.map] at h
    · simp [hl, Except.map] at h; subst h; rfl
  · rename_i l
    by_cases h1 : l.length = 1
    · rw [if_pos h1, toSlice_eq] at h
      have hl : l ≠ [] := by rintro rfl; simp at h1
      simp [hl, Except.map] at h; subst h; rfl
    · rw [if_neg h1] at h; simp at h
  · simp at h; subst h; rfl

theorem cleanAll_eq {d d' : List (String × Sel)} (h : cleanAll d = .ok d') :
    d' = d.filter (fun p => !isFull p.2) := by
  induction d generalizing d' with
  | nil => simp [cleanAll] at h; simp [h]
  | cons p d ih =>
    obtain ⟨ax, s⟩ := p
    unfold cleanAll at h
    cases hc : cleanSel s with
    | error e => rw [hc] at h; simp at h
    | ok c =>
      rw [hc] at h
      simp only at h
      cases hd : cleanAll d with
      | error e => rw [hd] at h; simp at h
      | ok rest =>
        rw [hd] at h
        simp only at h
        have hce := cleanSel_eq hc
        rw [List.filter_cons]
        cases hf : isFull s with
        | true =>
          rw [hf] at hce
          simp at hce
          subst hce
          simp at h
          subst h
          simpa [hf] using ih hd
        | false =>
          rw [hf] at hce
          simp at hce
          subst hce
          simp at h
          subst h
          simp [hf, ih hd]

theorem positions_full (n : Nat) : Verif.Slice.Spec.positions n none none 1 = List.range n := by
  unfold Verif.Slice.Spec.positions
  simp only [Int.zero_lt_one, if_true]
  rw [List.filter_eq_self]
  intro g hg
  have := List.mem_range.1 hg
  simp [Verif.Slice.Spec.Selects, Verif.Slice.Spec.ascFrom, Verif.Slice.Spec.ascTo]
  omega

theorem positions_isFull {s : Sel} (h : isFull s = true) (n : Nat) (idx : List Nat) :
    Positions (some s) n idx ↔ idx = List.range n := by
  have : s = .slice none none none := by simpa [isFull] using h
  subst this
  simp [Positions, positions_full]

theorem lookup_filter (d : List (String × Sel)) (hd : (d.map (·.1)).Nodup) (ax : String) :
    List.lookup ax (d.filter (fun p => !isFull p.2)) = (List.lookup ax d).filter (fun s => !isFull s) := by
  induction d with
  | nil => rfl
  | cons p d ih =>
    obtain ⟨b, s⟩ := p
    simp only [List.map_cons, List.nodup_cons] at hd
    rw [List.filter_cons, List.lookup_cons]
    by_cases hb : ax = b
    · subst hb
      cases hf : isFull s with
      | true =>
        simp only [Bool.not_true, Bool.false_eq_true, if_false, beq_self_eq_true]
        rw [ih hd.2, lookup_none_of_not_mem hd.1]
        simp [Option.filter, hf]
      | false => simp [hf, List.lookup_cons, Option.filter]
    · have hb' : (ax == b) = false := by simpa using hb
      rw [hb']
      cases hf : isFull s with
      | true => simpa [hf] using ih hd.2
      | false => simp [hf, List.lookup_cons, hb', ih hd.2]

theorem isSelected_clean (axes : List String) (d : List (String × Sel)) (hd : (d.map (·.1)).Nodup)
    (A B : NArr α)
    (h : IsSelected axes (fun ax => List.lookup ax (d.filter (fun p => !isFull p.2))) A B) :
    IsSelected axes (fun ax => List.lookup ax d) A B := by
  obtain ⟨pos, h1, h2, h3, h4⟩ := h
  refine ⟨pos, h1, ?_, h3, h4⟩
  intro k ax n p hax hn hp
  have := h2 k ax n p hax hn hp
  simp only at this ⊢
  rw [lookup_filter d hd] at this
  cases hl : List.lookup ax d with
  | none => rw [hl] at this; exact this
  | some s =>
    rw [hl] at this
    cases hf : isFull s with
    | true =>
      rw [positions_isFull hf]
      simpa [Option.filter, hf, Positions] using this
    | false => simpa [Option.filter, hf] using this

end Verif.Cont
