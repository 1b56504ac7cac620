import Verif.Cont.FilterLemmas

/-!
# C39: `copy_datasets_filter` copies exactly the selected data
-/
namespace Verif.Cont

open Verif.Mpi (blockStart blockLen)

variable {α : Type}

/-- A dataset is to be copied: it has no excluded axis, and it has a filtered axis unless copying without
selection was asked for. -/
def Wanted (axs excl : List String) (always : Bool) (s : Src α) : Prop :=
  (∀ a ∈ s.axes, a ∉ excl) ∧ (always = true ∨ ∃ a ∈ s.axes, a ∈ axs)

instance (axs excl : List String) (always : Bool) (s : Src α) : Decidable (Wanted axs excl always s) := by
  unfold Wanted; infer_instance

/-- The dataset has one distinct axis name per dimension. -/
structure Src.Valid (s : Src α) : Prop where
  nodup : s.axes.Nodup
  len : s.arr.shape.length = s.axes.length
  dist : ∀ k, s.dist = some k → k < s.axes.length

/-- What was written for `s` is right: the source array with every selection applied along its axis. For a
distributed dataset, process `r` of `P` has written its block of that array. -/
def CopiedRight (P r : Nat) (D : List (String × Sel)) (s : Src α) (d : Dst α) : Prop :=
  d.name = s.name ∧ ∃ B, IsSelected s.axes (fun ax => List.lookup ax D) s.arr B ∧
    (s.dist = none → d.arr = B) ∧
    (∀ o, s.dist = some o → d.final = some o ∧ ∃ k, d.split = some k ∧ k < s.axes.length ∧
      d.arr = blockOf P r k B)

/-- The dataset in the destination, if there is one or it can be made, has the shape of the selected data, and it is distributed only if that in the source is. -/
def DestFits (dest : String → Option (List Nat × Bool)) (D : List (String × Sel)) (s : Src α) : Prop :=
  ∀ sh dd, dest s.name = some (sh, dd) → (dd = true → s.dist ≠ none) ∧ ∀ B, IsSelected s.axes (fun ax => List.lookup ax D) s.arr B → B.shape = sh

theorem positions_unique {s : Option Sel} {n : Nat} {p q : List Nat} (hp : Positions s n p) (hq : Positions s n q) : p = q := by
  cases s with
  | none => exact Eq.trans hp (Eq.symm hq)
  | some s =>
    rw [← resolveSel_iff] at hp hq
    rw [hp] at hq
    exact Except.ok.inj hq

/-- The shape of the selected data is determined. -/
theorem isSelected_shape {axes : List String} {sel : String → Option Sel} {A B C : NArr α} (hl : A.shape.length = axes.length) (hB : IsSelected axes sel A B) (hC : IsSelected axes sel A C) :
    B.shape = C.shape := by
  obtain ⟨p, p1, p2, p3, -⟩ := hB
  obtain ⟨q, q1, q2, q3, -⟩ := hC
  have : p = q := by
    apply List.ext_getElem (by omega)
    intro k h1 h2
    have k1 : k < axes.length := by omega
    have k2 : k < A.shape.length := by omega
    exact positions_unique (p2 k axes[k] A.shape[k] _ (List.getElem?_eq_getElem k1) (List.getElem?_eq_getElem k2) (List.getElem?_eq_getElem h1))
      (q2 k axes[k] A.shape[k] _ (List.getElem?_eq_getElem k1) (List.getElem?_eq_getElem k2) (List.getElem?_eq_getElem h2))
  rw [p3, q3, this]

theorem wanted_iff (axs excl : List String) (always : Bool) (s : Src α) :
    wanted axs excl always s = true ↔ Wanted axs excl always s := by
  unfold wanted Wanted
  simp [List.contains_iff_mem]

theorem maxPair_mem {l : List (Nat × String)} {q : Nat × String} (h : maxPair l = some q) : q ∈ l := by
  induction l generalizing q with
  | nil => simp [maxPair] at h
  | cons p l ih =>
    unfold maxPair at h
    cases hm : maxPair l with
    | none => rw [hm] at h; simp at h; simp [h]
    | some q' =>
      rw [hm] at h
      simp only at h
      split at h
      · simp at h; subst h; exact List.mem_cons_of_mem _ (ih hm)
      · simp at h; simp [h]

/-- The axis chosen for a distributed dataset has no selection, if all the selected axes are listed. -/
theorem newAxis_unselected (axs : List String) (sel : List (String × Sel)) (s : Src α) (hs : s.Valid)
    (hsub : ∀ p ∈ sel, p.1 ∈ axs) (o k : Nat) (ho : s.dist = some o) (h : newAxis axs sel s o = .ok k) :
    ∃ a, s.axes[k]? = some a ∧ a ∉ sel.map (·.1) := by
  have hlt := hs.dist o ho
  unfold newAxis at h
  rw [List.getElem?_eq_getElem hlt] at h
  simp only at h
  by_cases hin : sel.any (·.1 == s.axes[o]) = true
  · rw [if_pos hin] at h
    cases hm : maxPair ((s.arr.shape.zip s.axes).filter (fun p => !axs.contains p.2)) with
    | none => rw [hm] at h; simp at h
    | some q =>
      rw [hm] at h
      simp only at h
      have hq := maxPair_mem hm
      rw [List.mem_filter] at hq
      cases hi : s.axes.idxOf? q.2 with
      | none => rw [hi] at h; simp at h
      | some j =>
        rw [hi] at h
        simp at h
        subst h
        refine ⟨q.2, idxOf?_some hi, ?_⟩
        intro hmem
        obtain ⟨p, hp, hpe⟩ := List.mem_map.1 hmem
        have := hsub p hp
        rw [hpe] at this
        simp [this] at hq
  · rw [if_neg hin] at h
    simp at h
    subst h
    refine ⟨_, List.getElem?_eq_getElem hlt, ?_⟩
    intro hmem
    obtain ⟨p, hp, hpe⟩ := List.mem_map.1 hmem
    exact hin (List.any_eq_true.2 ⟨p, hp, by simpa using hpe⟩)

theorem copyItem_right (P r : Nat) (dest : String → Option (List Nat × Bool)) (axs : List String)
    (D : List (String × Sel)) (hD : (D.map (·.1)).Nodup) (hsub : ∀ p ∈ D, p.1 ∈ axs)
    (s : Src α) (hs : s.Valid) (hdf : DestFits dest D s) (orig : Option Nat) (d : Dst α) (orig' : Option Nat)
    (h : copyItem P r dest axs (D.filter (fun p => !isFull p.2)) s orig = .ok (d, orig')) :
    CopiedRight P r D s d := by
  have hnd : ((D.filter (fun p => !isFull p.2)).map (·.1)).Nodup :=
    hD.sublist (List.Sublist.map _ List.filter_sublist)
  have hsub' : ∀ p ∈ D.filter (fun p => !isFull p.2), p.1 ∈ axs :=
    fun p hp => hsub p (List.mem_filter.1 hp).1
  unfold copyItem at h
  cases hd : dest s.name with
  | none => rw [hd] at h; simp at h
  | some x =>
    obtain ⟨sh, dd⟩ := x
    rw [hd] at h
    simp only at h
    cases hdist : s.dist with
    | some o =>
      rw [hdist] at h
      simp only at h
      split at h
      · simp at h
      · cases hk : newAxis axs (D.filter (fun p => !isFull p.2)) s o with
        | error e => rw [hk] at h; simp at h
        | ok k =>
          rw [hk] at h
          simp only at h
          obtain ⟨a, ha, hna⟩ := newAxis_unselected axs _ s hs hsub' o k hdist hk
          unfold assign at h
          rw [applyAll_block s.axes P r k a ha _ hna] at h
          cases hA : applyAll s.axes s.arr (D.filter (fun p => !isFull p.2)) with
          | error e => rw [hA] at h; simp [Except.map] at h
          | ok B =>
            rw [hA] at h
            have hsel := isSelected_clean s.axes D hD _ _ (applyAll_selected s.axes hs.nodup _ hnd _ _ hs.len hA)
            have hshape : (blockOf P r k B).shape = blockShape P r k sh := by
              rw [← (hdf sh dd hd).2 B hsel]
              simp [blockOf, blockShape, takeAx]
            simp only [Except.map, if_pos hshape, Except.ok.injEq, Prod.mk.injEq] at h
            obtain ⟨h, -⟩ := h
            subst h
            refine ⟨rfl, B, hsel, by simp [hdist], ?_⟩
            intro o' ho'
            rw [hdist] at ho'
            cases ho'
            exact ⟨rfl, k, rfl, (List.getElem?_eq_some_iff.1 ha).1, rfl⟩
    | none =>
      rw [hdist] at h
      simp only at h
      have hdd : dd = false := by
        cases dd with
        | false => rfl
        | true => exact absurd hdist ((hdf sh true hd).1 rfl)
      rw [if_pos hdd] at h
      unfold assign at h
      cases hA : applyAll s.axes s.arr (D.filter (fun p => !isFull p.2)) with
      | error e => rw [hA] at h; simp [Except.map] at h
      | ok B =>
        rw [hA] at h
        have hsel := isSelected_clean s.axes D hD _ _ (applyAll_selected s.axes hs.nodup _ hnd _ _ hs.len hA)
        simp only [Except.map, if_pos ((hdf sh dd hd).2 B hsel), Except.ok.injEq, Prod.mk.injEq] at h
        obtain ⟨h, -⟩ := h
        subst h
        exact ⟨rfl, B, hsel, fun _ => rfl, by simp [hdist]⟩

theorem copyLoop_right (P r : Nat) (dest : String → Option (List Nat × Bool)) (axs excl : List String)
    (always : Bool) (D : List (String × Sel)) (hD : (D.map (·.1)).Nodup) (hsub : ∀ p ∈ D, p.1 ∈ axs)
    (items : List (Src α)) (hs : ∀ s ∈ items, s.Valid) (hdf : ∀ s ∈ items, Wanted axs excl always s → DestFits dest D s) (orig : Option Nat) (outs : List (Dst α))
    (h : copyLoop P r dest axs excl always (D.filter (fun p => !isFull p.2)) items orig = .ok outs) :
    List.Forall₂ (CopiedRight P r D) (items.filter (fun s => decide (Wanted axs excl always s))) outs := by
  induction items generalizing orig outs with
  | nil => simp [copyLoop] at h; subst h; exact .nil
  | cons s ss ih =>
    unfold copyLoop at h
    by_cases hw : wanted axs excl always s = true
    · rw [if_pos hw] at h
      rw [List.filter_cons_of_pos (by simpa using (wanted_iff ..).1 hw)]
      cases hc : copyItem P r dest axs (D.filter (fun p => !isFull p.2)) s orig with
      | error e => rw [hc] at h; simp at h
      | ok x =>
        obtain ⟨d, orig'⟩ := x
        rw [hc] at h
        simp only at h
        cases hr : copyLoop P r dest axs excl always (D.filter (fun p => !isFull p.2)) ss orig' with
        | error e => rw [hr] at h; simp [Except.map] at h
        | ok rest =>
          rw [hr] at h
          simp only [Except.map, Except.ok.injEq] at h
          subst h
          exact .cons (copyItem_right P r dest axs D hD hsub s (hs s (by simp)) (hdf s (by simp) ((wanted_iff ..).1 hw)) orig d orig' hc)
            (ih (fun s' hs' => hs s' (by simp [hs'])) (fun s' hs' => hdf s' (by simp [hs'])) orig' rest hr)
    · rw [if_neg hw] at h
      rw [List.filter_cons_of_neg (by simpa using fun hh => hw ((wanted_iff ..).2 hh))]
      exact ih (fun s' hs' => hs s' (by simp [hs'])) (fun s' hs' => hdf s' (by simp [hs'])) orig outs h

/-- C39. A call with a dictionary of selections, that lists all the selected axes or none of them, and that
does not raise, copies exactly the datasets wanted, and each of them right, if the destination has the shapes of the selected data. -/
theorem C39_copy_partial (P r : Nat) (dest : String → Option (List Nat × Bool)) (items : List (Src α))
    (axis : List String) (D : List (String × Sel)) (excl : List String) (always : Bool)
    (hD : (D.map (·.1)).Nodup) (hs : ∀ s ∈ items, s.Valid)
    (hsub : axis = [] ∨ ∀ p ∈ D, p.1 ∈ axis)
    (hdf : ∀ s ∈ items, Wanted (if axis = [] then D.map (·.1) else axis) excl always s → DestFits dest D s) (outs : List (Dst α)) (D' : List (String × Sel))
    (h : copyFilter P r dest items axis (.dict D) excl always = .ok (outs, D')) :
    List.Forall₂ (CopiedRight P r D)
      (items.filter (fun s => decide (Wanted (if axis = [] then D.map (·.1) else axis) excl always s)))
      outs := by
  unfold copyFilter at h
  cases ha : resolveArgs axis (.dict D) with
  | error e => rw [ha] at h; simp at h
  | ok x =>
    obtain ⟨axs, D0⟩ := x
    rw [ha] at h
    simp only at h
    have hD0 : D0 = D ∧ (∀ a, a ∈ axs ↔ a ∈ if axis = [] then D.map (·.1) else axis) := by
      unfold resolveArgs at ha
      simp only at ha
      split at ha
      · rename_i h0
        cases ha; simp [h0]
      · rename_i h0
        split at ha
        · cases ha; simp [h0, List.mem_eraseDups]
        · cases ha
    obtain ⟨rfl, haxs⟩ := hD0
    cases hc : cleanAll D0 with
    | error e => rw [hc] at h; simp at h
    | ok sel =>
      rw [hc] at h
      simp only at h
      have := cleanAll_eq hc
      subst this
      cases hl : copyLoop P r dest axs excl always (D0.filter (fun p => !isFull p.2)) items none with
      | error e => rw [hl] at h; simp [Except.map] at h
      | ok outs' =>
        rw [hl] at h
        simp only [Except.map, Except.ok.injEq, Prod.mk.injEq] at h
        rw [← h.1]
        have hw : ∀ s : Src α, Wanted axs excl always s ↔
            Wanted (if axis = [] then D0.map (·.1) else axis) excl always s := by
          intro s
          unfold Wanted
          simp only [haxs]
        have h1 := copyLoop_right P r dest axs excl always D0 hD (by
          intro p hp
          rw [haxs]
          split
          · exact List.mem_map_of_mem hp
          · rename_i h0
            rcases hsub with hsub | hsub
            · contradiction
            · exact hsub p hp) items hs (fun s hm h => hdf s hm ((hw s).1 h)) none outs' hl
        have h2 : items.filter (fun s => decide (Wanted axs excl always s)) = items.filter
            (fun s => decide (Wanted (if axis = [] then D0.map (·.1) else axis) excl always s)) := by
          apply List.filter_congr
          intro s _
          simp only [hw s]
        rw [← h2]
        exact h1

/-- C39. With one selection for all the listed axes the same holds. -/
theorem C39_single_selection_partial (P r : Nat) (dest : String → Option (List Nat × Bool))
    (items : List (Src α)) (axis : List String) (sel : Sel) (excl : List String) (always : Bool)
    (hax : axis.Nodup) (hs : ∀ s ∈ items, s.Valid)
    (hdf : ∀ s ∈ items, Wanted axis excl always s → DestFits dest (axis.map fun a => (a, sel)) s) (outs : List (Dst α)) (D' : List (String × Sel))
    (h : copyFilter P r dest items axis (.single sel) excl always = .ok (outs, D')) :
    List.Forall₂ (CopiedRight P r (axis.map (fun a => (a, sel))))
      (items.filter (fun s => decide (Wanted axis excl always s))) outs := by
  have he : axis.eraseDups = axis := by
    have key : ∀ l : List String, l.Nodup → l.eraseDups = l := by
      intro l
      induction l with
      | nil => intro _; rfl
      | cons a l ih =>
        intro hn
        rw [List.nodup_cons] at hn
        rw [List.eraseDups_cons]
        rw [List.filter_eq_self.2 (by
          intro b hb
          have : b ≠ a := by rintro rfl; exact hn.1 hb
          simpa using this), ih hn.2]
    exact key axis hax
  unfold copyFilter resolveArgs at h
  simp only [he] at h
  cases hc : cleanAll (axis.map (fun a => (a, sel))) with
  | error e => rw [hc] at h; simp at h
  | ok sl =>
    rw [hc] at h
    simp only at h
    have := cleanAll_eq hc
    subst this
    cases hl : copyLoop P r dest axis excl always
        ((axis.map (fun a => (a, sel))).filter (fun p => !isFull p.2)) items none with
    | error e => rw [hl] at h; simp [Except.map] at h
    | ok outs' =>
      rw [hl] at h
      simp only [Except.map, Except.ok.injEq, Prod.mk.injEq] at h
      rw [← h.1]
      exact copyLoop_right P r dest axis excl always _ (by simpa [Function.comp_def] using hax)
        (by intro p hp; obtain ⟨a, ha, rfl⟩ := List.mem_map.1 hp; exact ha) items hs hdf none outs' hl

/-- C39. If selections are given for some of the listed axes only, the call is refused. -/
theorem C39_missing_selection (P r : Nat) (dest : String → Option (List Nat × Bool))
    (items : List (Src α)) (axis : List String) (D : List (String × Sel)) (excl : List String)
    (always : Bool) (a : String) (ha : a ∈ axis) (hna : a ∉ D.map (·.1)) :
    copyFilter P r dest items axis (.dict D) excl always = .error .valueError := by
  have h0 : axis ≠ [] := by rintro rfl; simp at ha
  have h1 : ¬ axis.all (fun a => D.any (·.1 == a)) = true := by
    intro h
    have := List.all_eq_true.1 h a ha
    obtain ⟨p, hp, hpe⟩ := List.any_eq_true.1 this
    exact hna (List.mem_map.2 ⟨p, hp, by simpa using hpe⟩)
  unfold copyFilter resolveArgs
  simp only [if_neg h0, if_neg h1]

/-- C39. A call is accepted for datasets that are not distributed, if every selection is a slice (with a
step other than zero) or a non-empty list or tuple of valid indices and the destination has the shape of
the selected data. -/
theorem C39_accepts_partial (P r : Nat) (dest : String → Option (List Nat × Bool)) (items : List (Src α))
    (D : List (String × Sel)) (excl : List String) (always : Bool) (hD : (D.map (·.1)).Nodup)
    (hs : ∀ s ∈ items, s.Valid) (hdist : ∀ s ∈ items, s.dist = none)
    (hkind : ∀ p ∈ D, (∃ a b c, p.2 = .slice a b c) ∨ ∃ l, l ≠ [] ∧ (p.2 = .list l ∨ p.2 = .tuple l))
    (hfit : ∀ s ∈ items, ∀ (k : Nat) ax n sel, s.axes[k]? = some ax → s.arr.shape[k]? = some n →
      (ax, sel) ∈ D → ∃ idx, Positions (some sel) n idx)
    (hdest : ∀ s ∈ items, ∃ sh, dest s.name = some (sh, false) ∧
      ∀ B, IsSelected s.axes (fun ax => List.lookup ax D) s.arr B → B.shape = sh) :
    ∃ outs D', copyFilter P r dest items [] (.dict D) excl always = .ok (outs, D') := by
  have hclean : ∃ sel, cleanAll D = .ok sel := by
    clear hD hfit hdest
    induction D with
    | nil => exact ⟨[], rfl⟩
    | cons p D ih =>
      obtain ⟨ax, s⟩ := p
      obtain ⟨rest, hrest⟩ := ih (fun p hp => hkind p (by simp [hp]))
      have hc : ∃ c, cleanSel s = .ok c := by
        rcases hkind (ax, s) (by simp) with ⟨a, b, c, h⟩ | ⟨l, hl, h | h⟩
        · simp only at h
          subst h
          cases a <;> cases b <;> cases c <;> exact ⟨_, rfl⟩
        · simp only at h
          subst h
          exact ⟨some (.list l), by simp [cleanSel, toSlice_eq, hl, Except.map]⟩
        · simp only at h
          subst h
          exact ⟨some (.tuple l), by simp [cleanSel, toSlice_eq, hl, Except.map]⟩
      obtain ⟨c, hc⟩ := hc
      unfold cleanAll
      rw [hc]
      simp only
      rw [hrest]
      simp only
      cases c <;> exact ⟨_, rfl⟩
  obtain ⟨sel, hsel⟩ := hclean
  have hseleq := cleanAll_eq hsel
  subst hseleq
  have hloop : ∀ orig, ∃ outs, copyLoop P r dest (D.map (·.1)) excl always
      (D.filter (fun p => !isFull p.2)) items orig = .ok outs := by
    clear hsel
    induction items with
    | nil => exact fun _ => ⟨[], rfl⟩
    | cons s ss ih =>
      intro orig
      have ih' := ih (fun s' h => hs s' (by simp [h])) (fun s' h => hdist s' (by simp [h]))
        (fun s' h => hfit s' (by simp [h])) (fun s' h => hdest s' (by simp [h]))
      unfold copyLoop
      split
      · obtain ⟨sh, hsh, hB⟩ := hdest s (by simp)
        have hnd : ((D.filter (fun p => !isFull p.2)).map (·.1)).Nodup :=
          hD.sublist (List.Sublist.map _ List.filter_sublist)
        obtain ⟨B, hBok⟩ := applyAll_accepts s.axes
          (D.filter (fun p => !isFull p.2)) hnd s.arr (hs s (by simp)).len
          (fun k ax n sel h1 h2 h3 => hfit s (by simp) k ax n sel h1 h2 (List.mem_filter.1 h3).1)
        have hshape := hB B (isSelected_clean s.axes D hD _ _
          (applyAll_selected s.axes (hs s (by simp)).nodup _ hnd _ _ (hs s (by simp)).len hBok))
        have hitem : copyItem P r dest (D.map (·.1)) (D.filter (fun p => !isFull p.2)) s orig
            = .ok (⟨s.name, B, none, none, none⟩, orig) := by
          unfold copyItem
          rw [hsh]
          simp only
          rw [hdist s (by simp)]
          simp only [if_true]
          unfold assign
          rw [hBok]
          simp only
          rw [if_pos hshape]
          rfl
        rw [hitem]
        simp only
        obtain ⟨outs, ho⟩ := ih' orig
        rw [ho]
        exact ⟨_, rfl⟩
      · exact ih' orig
  obtain ⟨outs, ho⟩ := hloop none
  refine ⟨outs, D.filter (fun p => !isFull p.2), ?_⟩
  unfold copyFilter resolveArgs
  simp only [if_true]
  rw [hsel]
  simp only
  rw [ho]
  rfl

/-- C39 (the caller's dictionary). The dictionary passed by the caller loses its entries `slice(None)`. -/
theorem C39_caller_dict_violated (P r : Nat) (dest : String → Option (List Nat × Bool))
    (items : List (Src α)) (axis : List String) (D : List (String × Sel)) (excl : List String)
    (always : Bool) (ax : String) (hax : (ax, .slice none none none) ∈ D)
    (outs : List (Dst α)) (D' : List (String × Sel))
    (h : copyFilter P r dest items axis (.dict D) excl always = .ok (outs, D')) :
    (ax, .slice none none none) ∉ D' ∧ D' ≠ D := by
  have hD' : D' = D.filter (fun p => !isFull p.2) := by
    unfold copyFilter at h
    cases ha : resolveArgs axis (.dict D) with
    | error e => rw [ha] at h; simp at h
    | ok x =>
      obtain ⟨axs, D0⟩ := x
      rw [ha] at h
      simp only at h
      have hD0 : D0 = D := by
        unfold resolveArgs at ha
        simp only at ha
        split at ha
        · cases ha; rfl
        · split at ha
          · cases ha; rfl
          · cases ha
      subst hD0
      cases hc : cleanAll D0 with
      | error e => rw [hc] at h; simp at h
      | ok sel =>
        rw [hc] at h
        simp only at h
        rw [← cleanAll_eq hc]
        cases hl : copyLoop P r dest axs excl always sel items none with
        | error e => rw [hl] at h; simp [Except.map] at h
        | ok o =>
          rw [hl] at h
          simp only [Except.map, Except.ok.injEq, Prod.mk.injEq] at h
          exact h.2.symm
  have hnot : (ax, Sel.slice none none none) ∉ D' := by
    rw [hD', List.mem_filter]
    rintro ⟨_, h2⟩
    simp [isFull] at h2
  exact ⟨hnot, fun he => hnot (he ▸ hax)⟩

/-- C39 (index arrays). A selection by an index array that does not have exactly one element is refused,
whatever is copied. -/
theorem C39_index_array_violated (P r : Nat) (dest : String → Option (List Nat × Bool))
    (items : List (Src α)) (ax : String) (l : List Int) (hl : l.length ≠ 1) (excl : List String)
    (always : Bool) :
    copyFilter P r dest items [] (.dict [(ax, .array l)]) excl always = .error .valueError := by
  simp [copyFilter, resolveArgs, cleanAll, cleanSel, hl]

/-- C39 (empty lists). Selecting nothing by an empty list is refused. -/
theorem C39_empty_list_violated (P r : Nat) (dest : String → Option (List Nat × Bool))
    (items : List (Src α)) (ax : String) (excl : List String) (always : Bool) :
    copyFilter P r dest items [] (.dict [(ax, .list [])]) excl always = .error .indexError := by
  simp [copyFilter, resolveArgs, cleanAll, cleanSel, toSlice, Except.map]

/-- The witness of the following theorem: two axes, distributed over the first. -/
def exDist : Src Nat := ⟨"d", ["x", "y"], ⟨[2, 4], fun I => I.getD 1 0⟩, some 0⟩

/-- The selections of the witness. -/
def exDistSel : List (String × Sel) := [("x", .list [0]), ("y", .slice (some 1) (some 3) none)]

/-- C39 fails if `axis` lists only some of the selected axes: the data may be redistributed over an axis
that is itself selected, and every process applies the selection to its own block. Process 1 of 2 writes
column 3 where column 2 belongs. -/
theorem C39_some_axes_listed_violated :
    ∃ d D', copyFilter 2 1 (fun _ => some ([1, 2], true)) [exDist] ["x"] (.dict exDistSel) [] false
        = .ok ([d], D') ∧ d.split = some 1 ∧ d.arr.shape = [1, 1] ∧ d.arr.val [0, 0] = 3 ∧
      ∃ B, applyAll exDist.axes exDist.arr exDistSel = .ok B ∧ (blockOf 2 1 1 B).val [0, 0] = 2 := by
  refine ⟨_, _, rfl, by rfl, by rfl, by rfl, _, rfl, by rfl⟩

/-- C39 fails if the dataset is distributed in the destination only: the axis to return to was never set. -/
theorem C39_common_to_distributed_violated :
    copyFilter 1 0 (fun _ => some ([2], true)) [(⟨"d", ["x"], ⟨[3], fun I => I.getD 0 0⟩, none⟩ : Src Nat)]
      [] (.dict [("x", .slice (some 1) none none)]) [] false = .error .unboundLocalError := by
  rfl

/-- A source with three datasets, one of them distributed. -/
def exItems : List (Src Nat) :=
  [⟨"a", ["t"], ⟨[3], fun I => I.getD 0 0⟩, none⟩,
   ⟨"b", ["f", "t"], ⟨[4, 3], fun I => 10 * I.getD 0 0 + I.getD 1 0⟩, some 0⟩,
   ⟨"c", ["p"], ⟨[2], fun I => I.getD 0 0⟩, none⟩]

/-- Where they go. -/
def exDest (n : String) : Option (List Nat × Bool) :=
  if n = "a" then some ([3], false) else if n = "b" then some ([2, 3], true) else none

theorem exItems_valid : ∀ s ∈ exItems, s.Valid := by
  intro s hs
  simp only [exItems, List.mem_cons, List.not_mem_nil, or_false] at hs
  rcases hs with rfl | rfl | rfl
  · exact ⟨by decide, rfl, by simp⟩
  · exact ⟨by decide, rfl, by intro k hk; simp at hk; subst hk; decide⟩
  · exact ⟨by decide, rfl, by simp⟩

/-- C39 fails if the destination does not have the shape of the selected data: where one sample is selected, the call does not raise, and the sample is written to
every place of the destination. -/
theorem C39_broadcast_violated (P r n m i : Nat) (hi : i < n) (hm : m ≠ 1) (f : Nat → α) :
    ∃ d D', copyFilter P r (fun _ => some ([m], false)) [⟨"d", ["t"], ⟨[n], fun I => f (I.getD 0 0)⟩, none⟩] [] (.dict [("t", .list [(i : Int)])]) [] false = .ok ([d], D') ∧
      d.arr.shape = [m] ∧ ∀ j, d.arr.val [j] = f i := by
  have h1 : pyRange (i : Int) (i : Int) = [] := by simp [pyRange]
  have h2 : ¬ (1 : Nat) = m := Ne.symm hm
  have h3 : (i : Int) < n := by omega
  refine ⟨⟨"d", castTo (takeAx ⟨[n], fun I => f (I.getD 0 0)⟩ 0 [i]) [m], none, none, none⟩, [("t", .list [(i : Int)])], ?_, rfl, fun j => ?_⟩
  · simp [copyFilter, resolveArgs, cleanAll, cleanSel, toSlice, h1, Except.map, copyLoop, wanted, copyItem, assign, applyAll, applyOne, List.idxOf?, List.findIdx?_cons, applySel, resolveSel,
      normIdx, h3, takeAx, castable, h2, List.mapM_cons, bind, Except.bind, pure, Except.pure]
  · simp [castTo, takeAx, castIndex]

example : ∃ d D', copyFilter 1 0 (fun _ => some ([4], false)) [(⟨"d", ["t"], ⟨[3], fun I => 10 * I.getD 0 0⟩, none⟩ : Src Nat)] [] (.dict [("t", .list [2])]) [] false = .ok ([d], D') ∧
    d.arr.val [3] = 20 := ⟨_, _, rfl, rfl⟩

/-- C39 fails likewise if the destination has one axis more than the selected data: the call does not raise, and every row of the destination is the data. -/
theorem C39_more_axes_violated (P r n m : Nat) (f : Nat → α) :
    ∃ d D', copyFilter P r (fun _ => some ([m, n], false)) [⟨"d", ["t"], ⟨[n], fun I => f (I.getD 0 0)⟩, none⟩] [] (.dict []) [] true = .ok ([d], D') ∧
      d.arr.shape = [m, n] ∧ ∀ j < m, ∀ i < n, d.arr.val [j, i] = f i := by
  refine ⟨⟨"d", castTo ⟨[n], fun I => f (I.getD 0 0)⟩ [m, n], none, none, none⟩, [], ?_, rfl, fun j _ i hi => ?_⟩
  · simp [copyFilter, resolveArgs, cleanAll, Except.map, copyLoop, wanted, copyItem, assign, applyAll, castable]
  · by_cases h1 : n = 1
    · subst h1
      have : i = 0 := by omega
      subst this
      simp [castTo, castIndex]
    · simp [castTo, castIndex, h1]

example : ∃ d D', copyFilter 1 0 (fun _ => some ([2, 3], false)) [(⟨"d", ["t"], ⟨[3], fun I => 10 * I.getD 0 0⟩, none⟩ : Src Nat)] [] (.dict []) [] true = .ok ([d], D') ∧
    d.arr.val [0, 2] = 20 ∧ d.arr.val [1, 2] = 20 := ⟨_, _, rfl, rfl, rfl⟩

/-- C39 fails for the distribution of the source: a dataset that is distributed over a selected axis is left distributed over another. One that is distributed over
an axis that is not selected stays as it is. -/
theorem C39_source_axis_violated (P r : Nat) (dest : String → Option (List Nat × Bool)) (s : Src α) (hs : s.Valid) (D : List (String × Sel)) (excl : List String) (always : Bool)
    (o : Nat) (a : String) (ho : s.dist = some o) (ha : s.axes[o]? = some a) (d : Dst α) (D' : List (String × Sel))
    (h : copyFilter P r dest [s] [] (.dict D) excl always = .ok ([d], D')) :
    ((∃ sel, (a, sel) ∈ D ∧ sel ≠ .slice none none none) → ∃ k, d.source = some k ∧ k ≠ o) ∧
    ((∀ sel, (a, sel) ∈ D → sel = .slice none none none) → d.source = some o) := by
  unfold copyFilter resolveArgs at h
  simp only [if_true] at h
  cases hc : cleanAll D with
  | error e => rw [hc] at h; simp at h
  | ok sel =>
    have := cleanAll_eq hc
    subst this
    rw [hc] at h
    simp only [copyLoop] at h
    split at h
    · cases hi : copyItem P r dest (D.map (·.1)) (D.filter (fun p => !isFull p.2)) s none with
      | error e => rw [hi] at h; simp [Except.map] at h
      | ok x =>
        obtain ⟨d', o'⟩ := x
        rw [hi] at h
        simp only [Except.map, Except.ok.injEq, Prod.mk.injEq, List.cons.injEq, and_true] at h
        obtain ⟨rfl, -⟩ := h
        unfold copyItem at hi
        split at hi
        · cases hi
        · rw [ho] at hi
          simp only at hi
          split at hi
          · cases hi
          · cases hk : newAxis (D.map (·.1)) (D.filter (fun p => !isFull p.2)) s o with
            | error e => rw [hk] at hi; simp at hi
            | ok k =>
              rw [hk] at hi
              simp only at hi
              have hsrc : d'.source = some k := by
                unfold assign at hi
                split at hi
                · simp [Except.map] at hi
                · split at hi
                  · simp only [Except.map, Except.ok.injEq, Prod.mk.injEq] at hi
                    rw [← hi.1]
                  · split at hi
                    · simp only [Except.map, Except.ok.injEq, Prod.mk.injEq] at hi
                      rw [← hi.1]
                    · simp [Except.map] at hi
              obtain ⟨b, hb, hnb⟩ := newAxis_unselected (D.map (·.1)) _ s hs (fun p hp => List.mem_map_of_mem (List.mem_filter.1 hp).1) o k ho hk
              refine ⟨?_, ?_⟩
              · rintro ⟨sl, hm, hne⟩
                refine ⟨k, hsrc, ?_⟩
                rintro rfl
                rw [ha] at hb
                cases hb
                apply hnb
                refine List.mem_map.2 ⟨(a, sl), List.mem_filter.2 ⟨hm, ?_⟩, rfl⟩
                simp [isFull, hne]
              · intro hall
                rw [hsrc]
                have hno : ¬ (D.filter (fun p => !isFull p.2)).any (·.1 == a) = true := by
                  rw [List.any_eq_true]
                  rintro ⟨p, hp, hpa⟩
                  obtain ⟨hp1, hp2⟩ := List.mem_filter.1 hp
                  obtain ⟨p1, p2⟩ := p
                  simp only [beq_iff_eq] at hpa
                  subst hpa
                  have := hall p2 hp1
                  subst this
                  simp [isFull] at hp2
                unfold newAxis at hk
                rw [ha] at hk
                simp only [if_neg hno, Except.ok.injEq] at hk
                rw [hk]
    · simp [Except.map] at h

example : ∃ d D', copyFilter 2 0 (fun _ => some ([1, 4], true)) [exDist] [] (.dict [("x", .list [0])]) [] false = .ok ([d], D') ∧ exDist.dist = some 0 ∧ d.source = some 1 := ⟨_, _, rfl, rfl, rfl⟩

/-- C39 fails for a distributed dataset if an axis that is kept whole is listed with `slice(None)`: it is
removed from the selections but still counts as filtered, so that no axis is left to distribute over. -/
theorem C39_full_slice_violated :
    copyFilter 2 1 exDest exItems [] (.dict [("f", .list [3, -4]), ("t", .slice none none none)]) ["p"] true
        = .error .valueError ∧
      ∃ x, copyFilter 2 1 exDest exItems [] (.dict [("f", .list [3, -4])]) ["p"] true = .ok x :=
  ⟨by rfl, _, rfl⟩

/-- The destination of the example has the shapes of the selected data. -/
theorem exDest_fits (sel : Sel) (hsel : sel = .list [3, -4] ∨ sel = .slice none (some 2) none) (s : Src Nat) (hs : s ∈ exItems) (hc : s.name ≠ "c") : DestFits exDest [("f", sel)] s := by
  intro sh dd h
  have hl := (exItems_valid s hs).len
  have key : ∀ C, applyAll s.axes s.arr [("f", sel)] = .ok C → C.shape = sh → ∀ B, IsSelected s.axes (fun ax => List.lookup ax [("f", sel)]) s.arr B → B.shape = sh := by
    intro C hC hsh B hB
    rw [← hsh]
    exact isSelected_shape hl hB (applyAll_selected s.axes (exItems_valid s hs).nodup _ (by simp) _ _ hl hC)
  simp only [exItems, List.mem_cons, List.not_mem_nil, or_false] at hs
  rcases hs with rfl | rfl | rfl
  · cases h
    exact ⟨by simp, key _ rfl rfl⟩
  · cases h
    refine ⟨by simp, ?_⟩
    rcases hsel with rfl | rfl
    · exact key _ rfl rfl
    · exact key _ rfl rfl
  · exact absurd rfl hc

example : ∃ outs D', copyFilter 2 1 exDest exItems [] (.dict [("f", .list [3, -4])]) ["p"] true
      = .ok (outs, D') ∧
    (outs.map (·.name)) = ["a", "b"] ∧
    List.Forall₂ (CopiedRight 2 1 [("f", .list [3, -4])])
      (exItems.filter (fun s => decide (Wanted ["f"] ["p"] true s))) outs :=
  ⟨_, _, rfl, rfl, C39_copy_partial 2 1 exDest exItems [] [("f", .list [3, -4])] ["p"] true (by decide)
    exItems_valid (.inl rfl) (fun s hs hw => exDest_fits _ (.inl rfl) s hs (by rintro h; simp only [exItems, List.mem_cons, List.not_mem_nil, or_false] at hs; rcases hs with rfl | rfl | rfl <;> simp [Wanted] at h hw)) _ _ rfl⟩

example : ∃ outs D', copyFilter 2 1 exDest exItems ["f"] (.single (.slice none (some 2) none)) [] false
      = .ok (outs, D') ∧ List.Forall₂ (CopiedRight 2 1 [("f", .slice none (some 2) none)])
      (exItems.filter (fun s => decide (Wanted ["f"] [] false s))) outs :=
  ⟨_, _, rfl, C39_single_selection_partial 2 1 exDest exItems ["f"] _ [] false (by decide)
    exItems_valid (fun s hs hw => exDest_fits _ (.inr rfl) s hs (by rintro h; simp only [exItems, List.mem_cons, List.not_mem_nil, or_false] at hs; rcases hs with rfl | rfl | rfl <;> simp [Wanted] at h hw)) _ _ rfl⟩

example : ∃ outs D', copyFilter 1 0 (fun _ => some ([2], false))
    [(⟨"a", ["t"], ⟨[3], fun I => I.getD 0 0⟩, none⟩ : Src Nat)] [] (.dict [("t", .list [2, 0])]) [] false
      = .ok (outs, D') := by
  apply C39_accepts_partial
  · decide
  · intro s hs
    simp at hs
    subst hs
    exact ⟨by decide, rfl, by simp⟩
  · simp
  · simp
  · intro s hs k ax n sel _ hn hsel
    simp at hs hsel
    subst hs
    obtain ⟨rfl, rfl⟩ := hsel
    have : n = 3 := by
      cases k with
      | zero => simpa using hn.symm
      | succ k => simp at hn
    subst this
    exact ⟨[2, 0], (resolveSel_iff _ _ _).1 rfl⟩
  · intro s hs
    simp at hs
    subst hs
    refine ⟨[2], rfl, ?_⟩
    rintro B ⟨pos, h1, h2, h3, -⟩
    match pos, h1 with
    | [p], _ =>
      have := h2 0 "t" 3 p rfl rfl rfl
      have hp : p = [2, 0] := by
        have h4 : resolveSel (.list [2, 0]) 3 = .ok p := (resolveSel_iff _ _ _).2 this
        cases h4
        rfl
      rw [h3, hp]
      rfl

end Verif.Cont
