import Verif.Mem.PlacesLemmas

/-! # Lemmas for C103: whose contents a dataset has -/
namespace Verif.Mem.Places
variable {V α : Type} (fields : Named → List Str → Option FieldErr)

/-- The contents of every dataset that can be reached satisfy `P`. -/
def CellsOk (P : Nat → Prop) (root : Node V Named) : Prop :=
  ∀ Q d, crawl fields (.node root) Q = .ok (.node (.dset d)) → P d.cell

variable {P : Nat → Prop}

theorem cells_insert (root : Node V Named) (h : CellsOk fields P root) (c : Str) (m : Node V Named) (E : List Str)
    (a : List (Str × V)) (kids : List (Str × Node V Named))
    (hE : crawl fields (.node root) E = .ok (.node (.group a kids))) (hm : CellsOk fields P m) :
    CellsOk fields P (insertAt c m E root) := by
  obtain ⟨i1, i2, _⟩ := crawl_insert fields c m E root a kids hE
  intro Q d hd
  by_cases hp : (E ++ [c]) <+: Q
  · obtain ⟨R, rfl⟩ := hp
    have e : E ++ [c] ++ R = E ++ c :: R := by simp
    rw [e, i1 R] at hd
    exact hm R d hd
  · have := i2 Q hp
    rw [hd] at this
    exact h Q d (info_dset this.symm)

theorem cells_delete (root : Node V Named) (h : CellsOk fields P root) (c : Str) (E : List Str)
    (a : List (Str × V)) (kids : List (Str × Node V Named))
    (hE : crawl fields (.node root) E = .ok (.node (.group a kids))) : CellsOk fields P (deleteAt c E root) := by
  obtain ⟨i1, i2⟩ := crawl_delete fields c E root a kids hE
  intro Q d hd
  by_cases hp : (E ++ [c]) <+: Q
  · obtain ⟨R, rfl⟩ := hp
    have e : E ++ [c] ++ R = E ++ c :: R := by simp
    rw [e, i1 R] at hd
    simp at hd
  · have := i2 Q hp
    rw [hd] at this
    exact h Q d (info_dset this.symm)

theorem cells_dset (d : Named) (h : P d.cell) : CellsOk fields P (.dset d : Node V Named) := by
  intro Q d' hd
  cases Q with
  | nil =>
    have : d = d' := by simpa [crawl] using hd
    rw [← this]; exact h
  | cons k ks => exact absurd hd (crawl_dset_cons fields d d' k ks)

theorem cells_createGroup (root : Node V Named) (hg0 : ∃ a k, root = .group a k) (h : CellsOk fields P root) (g n : Str)
    (hg : isAbs g = true) : CellsOk fields P (Mem.createGroup fields root g n).1 := by
  rcases createGroup_cases fields root hg0 g n hg with ⟨e, he, _⟩ | ⟨_, E, c, C, a, kids, _, hE, _, hr⟩
  · rw [he]; exact h
  · rw [hr]
    exact cells_insert fields root h c _ E a kids hE (fun Q d hd => absurd hd (chain_no_dset fields C Q d))

theorem cells_requireGroup (root : Node V Named) (hg0 : ∃ a k, root = .group a k) (h : CellsOk fields P root) (g n : Str)
    (hg : isAbs g = true) : CellsOk fields P (Mem.requireGroup fields root g n).1 := by
  unfold Mem.requireGroup
  cases getItem fields root g n with
  | ok o => simp only; split <;> exact h
  | error e =>
    cases e
    case keyError => exact cells_createGroup fields root hg0 h g n hg
    all_goals exact h

theorem cells_createDataset (root : Node V Named) (hgood : Good fields root) (h : CellsOk fields P root) (g n : Str)
    (hg : isAbs g = true) (make : Except Err Named) (hm : ∀ d, make = .ok d → P d.cell) :
    CellsOk fields P (Mem.createDataset fields root g n make).1 := by
  unfold Mem.createDataset
  have habs := isAbs_split _ (isAbs_join g n hg)
  rw [formatAbs_ok _ habs]
  simp only
  have hrp : parts (render (parts (splitPath (joinPath g n)).1)) = parts (splitPath (joinPath g n)).1 :=
    parts_render _ (fun q hq => parts_mem _ q hq)
  have hgd := cells_requireGroup fields root hgood.1 h g (render (parts (splitPath (joinPath g n)).1)) hg
  cases hrg : Mem.requireGroup fields root g (render (parts (splitPath (joinPath g n)).1)) with
  | mk root1 r1 =>
    rw [hrg] at hgd
    obtain ⟨_, _, q3, _⟩ := requireGroup_sees fields root root1 hgood.1 g _ hg r1 hrg
    cases r1 with
    | some e => exact hgd
    | none =>
      cases make with
      | error e => exact hgd
      | ok d =>
        simp only
        rw [hrp]
        obtain ⟨a, k, hk⟩ := q3 rfl
        rw [components_abs _ _ (isAbs_render _), hrp] at hk
        exact cells_insert fields root1 hgd _ _ _ a k hk (cells_dset fields d (hm d rfl))

theorem cells_requireDataset (root : Node V Named) (hgood : Good fields root) (h : CellsOk fields P root) (g n : Str)
    (hg : isAbs g = true) (make : Except Err Named) (hm : ∀ d, make = .ok d → P d.cell) :
    CellsOk fields P (Mem.requireDataset fields root g n make).1 := by
  unfold Mem.requireDataset
  cases getItem fields root g n with
  | ok o => simp only; split <;> exact h
  | error e =>
    cases e
    case keyError => exact cells_createDataset fields root hgood h g n hg make hm
    all_goals exact h

theorem cells_delItem (root : Node V Named) (h : CellsOk fields P root) (g n : Str) (hg : isAbs g = true) :
    CellsOk fields P (Mem.delItem fields root g n).1 := by
  unfold Mem.delItem
  cases getItem fields root g n with
  | error e => exact h
  | ok o =>
    simp only
    have habs := isAbs_split _ (isAbs_join g n hg)
    rw [rootGet_eq fields root _ habs]
    match hc : crawl fields (.node root) (parts (splitPath (joinPath g n)).1) with
    | .error e => exact h
    | .ok (.node (.group a kids)) =>
      simp only
      split
      · exact cells_delete fields root h _ _ a kids hc
      · exact h
    | .ok (.node (.dset d)) => exact h
    | .ok (.field d fs) => exact h

theorem cells_setTree (W : World V α) (h : ∀ t, CellsOk fields P (W.trees t)) (t : Nat) (r : Node V Named)
    (hr : CellsOk fields P r) : ∀ t', CellsOk fields P ((W.setTree t r).trees t') := by
  intro t'
  show CellsOk fields P (if t' = t then r else W.trees t')
  split
  · exact hr
  · exact h t'

theorem cells_share (W : World V α) (h : ∀ t, CellsOk fields P (W.trees t)) (t1 : Nat) (n : Str) (t2 : Nat) (g : Str)
    (hg : isAbs g = true) (hn : ∀ t, Good fields (W.trees t)) :
    ∀ t, CellsOk fields P ((W.share fields t1 n t2 g).1.trees t) := by
  unfold World.share
  match hget : W.get fields t1 ['/'] n with
  | .error e => exact h
  | .ok (.array d fs) => exact h
  | .ok (.obj (.group _ _)) => exact h
  | .ok (.obj (.dset ot entry)) =>
    simp only
    rcases (get_obj fields W t1 ['/'] n rfl _).1 hget with ⟨_, _, _, he⟩ | ⟨d, hcr, he⟩
    · simp at he
    obtain ⟨rfl, rfl⟩ : ot = some t1 ∧ entry = d := by simpa using he
    have hparts : ∀ p ∈ components ['/'] n, Part p := fun p hp => components_mem _ _ p hp
    have hname := (hn t1).2 _ _ hparts hcr
    have habsn : isAbs entry.name = true := by rw [hname]; exact isAbs_render _
    have habs : isAbs (splitPath (joinPath g entry.name)).1 = true := isAbs_split _ (isAbs_join g _ hg)
    rw [formatAbs_ok _ habs]
    simp only
    have hrp : parts (render (parts (splitPath (joinPath g entry.name)).1)) = parts (splitPath (joinPath g entry.name)).1 :=
      parts_render _ (fun q hq => parts_mem _ q hq)
    rw [getItem_eq fields _ _ _ hg, components_abs _ _ (isAbs_render _), hrp, rootGet_eq fields _ _ habsn]
    match hgrp : crawl fields (.node (W.trees t2)) (parts (splitPath (joinPath g entry.name)).1) with
    | .error e => exact h
    | .ok (.node (.dset d)) => exact h
    | .ok (.field d fs) => exact h
    | .ok (.node (.group a k)) =>
      simp only
      match hm : crawl fields (.node (W.trees t1)) (parts entry.name) with
      | .error e => exact h
      | .ok (.field d fs) => exact h
      | .ok (.node m) =>
        refine cells_setTree fields W h t2 _ (cells_insert fields _ (h t2) _ m _ a k hgrp ?_)
        intro Q d hd
        refine h t1 (parts entry.name ++ Q) d ?_
        rw [crawl_append, hm]
        exact hd

/-- One operation: new datasets have contents under the number that is free. -/
theorem cells_run (W : World V α) (hn : ∀ t, Good fields (W.trees t)) (h : ∀ t, CellsOk fields P (W.trees t))
    (op : Op α) (ho : op.Abs) (hP : W.next < (op.run fields W).1.next → P W.next) :
    ∀ t, CellsOk fields P ((op.run fields W).1.trees t) := by
  have hmake : ∀ (g n : Str) (make : Except Err α), (W.next < (W.alloc make).next → P W.next) →
      ∀ d, W.newDset g n make = .ok d → P d.cell := by
    intro g n make hp d hd
    cases make with
    | error e => simp [World.newDset] at hd
    | ok a =>
      simp only [World.newDset, Except.ok.injEq] at hd
      rw [← hd]
      exact hp (Nat.lt_succ_self _)
  cases op with
  | createGroup t g n => exact cells_setTree fields W h t _ (cells_createGroup fields _ (hn t).1 (h t) g n ho)
  | requireGroup t g n => exact cells_setTree fields W h t _ (cells_requireGroup fields _ (hn t).1 (h t) g n ho)
  | createDataset t g n make =>
    exact cells_setTree fields _ (by rw [alloc_trees]; exact h) t _
      (cells_createDataset fields _ (hn t) (h t) g n ho _ (hmake g n make hP))
  | requireDataset t g n make =>
    exact cells_setTree fields _ (by rw [alloc_trees]; exact h) t _
      (cells_requireDataset fields _ (hn t) (h t) g n ho _ (hmake g n make hP))
  | delete t g n => exact cells_setTree fields W h t _ (cells_delItem fields _ (h t) g n ho)
  | share t1 n t2 g => exact cells_share fields W h t1 n t2 g ho hn
  | write d a => exact h
  | copy d => exact h

theorem next_run (W : World V α) (op : Op α) : W.next ≤ (op.run fields W).1.next := by
  have ha : ∀ make : Except Err α, W.next ≤ (W.alloc make).next := by
    intro make
    cases make with
    | error e => exact Nat.le_refl _
    | ok a => exact Nat.le_succ _
  cases op with
  | createGroup t g n => exact Nat.le_refl _
  | requireGroup t g n => exact Nat.le_refl _
  | createDataset t g n make => exact ha make
  | requireDataset t g n make => exact ha make
  | delete t g n => exact Nat.le_refl _
  | share t1 n t2 g =>
    show W.next ≤ (W.share fields t1 n t2 g).1.next
    unfold World.share
    split
    · exact Nat.le_refl _
    · split
      · exact Nat.le_refl _
      · split
        · exact Nat.le_refl _
        · split <;> exact Nat.le_refl _
        · exact Nat.le_refl _
    · exact Nat.le_refl _
  | write d a => exact Nat.le_refl _
  | copy d => exact Nat.le_succ _

theorem cells_reach (W : World V α) (h : Reach fields W) : ∀ t, CellsOk fields (· < W.next) (W.trees t) := by
  induction h with
  | start cells next =>
    intro t Q d hd
    cases Q with
    | nil => simp [crawl] at hd
    | cons k ks => simp [crawl, index] at hd
  | step W op hW ho ih =>
    have hle := next_run fields W op
    have h1 : ∀ t, CellsOk fields (· < (op.run fields W).1.next) (W.trees t) :=
      fun t Q d hd => Nat.lt_of_lt_of_le (ih t Q d hd) hle
    exact cells_run fields W (good_reach fields W hW) h1 op ho (fun h => h)

theorem reach_after {W W' : World V α} (hW : Reach fields W) (h : After fields W W') : Reach fields W' := by
  induction h with
  | now => exact hW
  | step W' op _ ho ih => exact .step _ _ ih ho

theorem after_ne {W W' : World V α} (hW : Reach fields W) (h : After fields W W') (k : Nat) (hk : k < W.next)
    (hc : ∀ t, CellsOk fields (· ≠ k) (W.trees t)) :
    k < W'.next ∧ ∀ t, CellsOk fields (· ≠ k) (W'.trees t) := by
  induction h with
  | now => exact ⟨hk, hc⟩
  | step W' op hW' ho ih =>
    refine ⟨Nat.lt_of_lt_of_le ih.1 (next_run fields W' op), ?_⟩
    exact cells_run fields W' (good_reach fields W' (reach_after fields hW hW')) ih.2 op ho
      (fun _ => (Nat.ne_of_lt ih.1).symm)

end Verif.Mem.Places
