import Verif.Mem.Lemmas
import Verif.Mem.PlacesSpec

/-! # Lemmas for C103 -/
namespace Verif.Mem.Places
variable {V α : Type} (fields : Named → List Str → Option FieldErr)

/-! ## Paths -/

theorem pathName_eq (ps : List Str) : pathName ps = render ps := by
  unfold pathName render
  cases ps with
  | nil => rfl
  | cons p ps =>
    rw [if_neg (by simp)]
    induction ps generalizing p with
    | nil => simp
    | cons q ps ih =>
      rw [List.flatMap_cons, ← ih q, List.intercalate_cons_cons]
      simp

theorem render_snoc (E : List Str) (c : Str) (hE : ∀ p ∈ E, Part p) (hc : Part c) :
    joinPath (render E) c = render (E ++ [c]) := by
  rw [← foldl_render E hE, ← foldl_render (E ++ [c])]
  · rw [List.foldl_append]; rfl
  · intro p hp
    rcases List.mem_append.1 hp with h | h
    · exact hE p h
    · rw [List.mem_singleton.1 h]; exact hc

theorem headOf_snoc (u p : Str) (h : '/' ∉ p) : headOf (u ++ '/' :: p) = u ++ ['/'] := by
  unfold headOf
  have hr : (u ++ '/' :: p).reverse = p.reverse ++ ('/' :: u.reverse) := by simp
  rw [hr, List.dropWhile_append_of_pos]
  · simp
  · intro a ha
    have : a ∈ p := by simpa using ha
    simp only [bne_iff_ne, ne_eq]
    rintro rfl
    exact h this

theorem tailOf_snoc (u p : Str) (h : '/' ∉ p) : tailOf (u ++ '/' :: p) = p := by
  have h1 := head_tail (u ++ '/' :: p)
  rw [headOf_snoc u p h] at h1
  have h2 : u ++ ['/'] ++ tailOf (u ++ '/' :: p) = u ++ ['/'] ++ p := by rw [h1]; simp
  exact List.append_cancel_left h2

theorem rstrip_snoc (u : Str) (h : u.getLast? ≠ some '/') : rstrip (u ++ ['/']) = u := by
  unfold rstrip
  rw [List.reverse_append]
  show (List.dropWhile _ ('/' :: u.reverse)).reverse = u
  rw [List.dropWhile_cons_of_pos (by simp)]
  cases hr : u.reverse with
  | nil => have : u = [] := by simpa using hr
           subst this; rfl
  | cons x xs =>
    have hu : u = xs.reverse ++ [x] := by rw [← List.reverse_reverse u, hr]; simp
    have hx : x ≠ '/' := by
      rintro rfl
      apply h
      rw [hu]; simp
    rw [List.dropWhile_cons_of_neg (by simpa using hx), hu]
    simp

theorem render_last (E : List Str) (hne : E ≠ []) (hE : ∀ p ∈ E, Part p) : (render E).getLast? ≠ some '/' := by
  obtain ⟨F, c, rfl⟩ : ∃ F c, E = F ++ [c] := ⟨E.dropLast, E.getLast hne, (List.dropLast_concat_getLast hne).symm⟩
  have hc := hE c (by simp)
  unfold render
  rw [if_neg (by simp), List.flatMap_append]
  simp only [List.flatMap_cons, List.flatMap_nil, List.append_nil]
  rw [List.getLast?_append, List.getLast?_cons]
  rw [List.getLast?_eq_some_getLast hc.1]
  simp only [Option.getD_some, Option.some_or]
  intro e
  exact hc.2 (Option.some.inj e ▸ List.getLast_mem hc.1)

theorem render_ne (E : List Str) : render E ≠ [] := by
  intro h
  have := isAbs_render E
  rw [h] at this
  simp [isAbs] at this

theorem all_slash_render (E : List Str) (hne : E ≠ []) (hE : ∀ p ∈ E, Part p) :
    (render E ++ ['/']).all (· == '/') = false := by
  rw [List.all_append]
  have hl := render_last E hne hE
  have : (render E).all (· == '/') = false := by
    rw [Bool.eq_false_iff]
    intro h
    apply hl
    rw [List.getLast?_eq_some_getLast (render_ne E)]
    have := List.all_eq_true.1 h _ (List.getLast_mem (render_ne E))
    simpa using this
  rw [this]; rfl

/-- `posixpath.split` of the path of a component in a group. -/
theorem split_render (E : List Str) (c : Str) (hE : ∀ p ∈ E, Part p) (hc : Part c) :
    splitPath (render (E ++ [c])) = (render E, c) := by
  have e : render (E ++ [c]) = (if E = [] then [] else render E) ++ '/' :: c := by
    unfold render
    rw [if_neg (by simp)]
    by_cases h : E = []
    · subst h; simp
    · rw [if_neg h, if_neg h, List.flatMap_append]; simp
  unfold splitPath
  rw [e, headOf_snoc _ _ hc.2, tailOf_snoc _ _ hc.2]
  by_cases h : E = []
  · subst h; simp [render]
  · rw [if_neg h, all_slash_render E h hE, rstrip_snoc _ (render_last E h hE)]
    rfl

theorem split_root : splitPath (render []) = (render [], []) := by decide

/-! ## Names in the tree -/

/-- Every dataset that can be reached has its path as its name. -/
def WellNamed (root : Node V Named) : Prop :=
  ∀ Q d, (∀ p ∈ Q, Part p) → crawl fields (.node root) Q = .ok (.node (.dset d)) → d.name = render Q

theorem info_dset {r : Except Err (Obj V Named)} {d : Named}
    (h : r.map Obj.info = .ok (.dataset d)) : r = .ok (.node (.dset d)) := by
  match r, h with
  | .ok (.node (.group a k)), h => simp [Except.map, Obj.info] at h
  | .ok (.node (.dset d')), h => simp [Except.map, Obj.info] at h; rw [h]
  | .ok (.field d' fs), h => simp [Except.map, Obj.info] at h
  | .error e, h => simp [Except.map] at h

theorem crawl_dset_cons (d d' : Named) (k : Str) (ks : List Str) :
    crawl fields (.node (.dset d) : Obj V Named) (k :: ks) ≠ .ok (.node (.dset d')) := by
  have hf : ∀ (ks : List Str) (fs : List Str),
      crawl fields (.field d fs : Obj V Named) ks ≠ .ok (.node (.dset d')) := by
    intro ks
    induction ks with
    | nil => intro fs; simp [crawl]
    | cons k ks ih =>
      intro fs
      rw [crawl, index]
      cases hf : fields d (fs ++ [k]) with
      | none => simp only; exact ih _
      | some e => simp
  rw [crawl, index]
  cases h : fields d [k] with
  | none => simp only; exact hf _ _
  | some e => simp

theorem wellNamed_insert (root : Node V Named) (h : WellNamed fields root) (c : Str) (m : Node V Named) (E : List Str)
    (a : List (Str × V)) (kids : List (Str × Node V Named))
    (hE : crawl fields (.node root) E = .ok (.node (.group a kids)))
    (hm : c ≠ [] → ∀ Q d, crawl fields (.node m) Q = .ok (.node (.dset d)) → d.name = render (E ++ c :: Q)) :
    WellNamed fields (insertAt c m E root) := by
  obtain ⟨i1, i2, _⟩ := crawl_insert fields c m E root a kids hE
  intro Q d hQ hd
  by_cases hp : (E ++ [c]) <+: Q
  · obtain ⟨R, rfl⟩ := hp
    have e : E ++ [c] ++ R = E ++ c :: R := by simp
    rw [e] at hd ⊢
    rw [i1 R] at hd
    exact hm (hQ c (by simp)).1 R d hd
  · have := i2 Q hp
    rw [hd] at this
    exact h Q d hQ (info_dset this.symm)

theorem wellNamed_delete (root : Node V Named) (h : WellNamed fields root) (c : Str) (E : List Str)
    (a : List (Str × V)) (kids : List (Str × Node V Named))
    (hE : crawl fields (.node root) E = .ok (.node (.group a kids))) :
    WellNamed fields (deleteAt c E root) := by
  obtain ⟨i1, i2⟩ := crawl_delete fields c E root a kids hE
  intro Q d hQ hd
  by_cases hp : (E ++ [c]) <+: Q
  · obtain ⟨R, rfl⟩ := hp
    have e : E ++ [c] ++ R = E ++ c :: R := by simp
    rw [e, i1 R] at hd
    simp at hd
  · have := i2 Q hp
    rw [hd] at this
    exact h Q d hQ (info_dset this.symm)

theorem chain_no_dset (C Q : List Str) (d : Named) :
    crawl fields (.node (chain C : Node V Named)) Q ≠ .ok (.node (.dset d)) := by
  by_cases h : Q <+: C
  · obtain ⟨C', hC⟩ := crawl_chain_prefix fields C Q h (V := V)
    rw [hC]
    obtain ⟨kids, hk⟩ := chain_isGroup (V := V) (δ := Named) C'
    rw [hk]
    simp
  · rw [crawl_chain_other fields C Q h]
    simp

def Good (root : Node V Named) : Prop := (∃ a k, root = .group a k) ∧ WellNamed fields root

theorem good_createGroup (root : Node V Named) (h : Good fields root) (g n : Str) (hg : isAbs g = true) :
    Good fields (Mem.createGroup fields root g n).1 := by
  rcases createGroup_cases fields root h.1 g n hg with ⟨e, he, _⟩ | ⟨_, E, c, C, a, kids, _, hE, _, hr⟩
  · rw [he]; exact h
  · rw [hr]
    exact ⟨insertAt_isGroup _ _ _ _ h.1, wellNamed_insert fields root h.2 c _ E a kids hE
      (fun _ Q d hd => absurd hd (chain_no_dset fields C Q d))⟩

theorem good_requireGroup (root : Node V Named) (h : Good fields root) (g n : Str) (hg : isAbs g = true) :
    Good fields (Mem.requireGroup fields root g n).1 := by
  unfold Mem.requireGroup
  cases getItem fields root g n with
  | ok o => simp only; split <;> exact h
  | error e =>
    cases e
    case keyError => exact good_createGroup fields root h g n hg
    all_goals exact h

theorem storedName_eq (g n : Str) (hg : isAbs g = true) (ht : (splitPath (joinPath g n)).2 ≠ []) :
    storedName g n = render (parts (splitPath (joinPath g n)).1 ++ [(splitPath (joinPath g n)).2]) := by
  unfold storedName
  rw [formatAbs_ok _ (isAbs_split _ (isAbs_join g n hg))]
  exact render_snoc _ _ (fun p hp => parts_mem _ p hp) ⟨ht, tailOf_no_slash _⟩

theorem good_createDataset (root : Node V Named) (h : Good fields root) (g n : Str) (hg : isAbs g = true)
    (make : Except Err Named) (hm : ∀ d, make = .ok d → d.name = storedName g n) :
    Good fields (Mem.createDataset fields root g n make).1 := by
  unfold Mem.createDataset
  have habs := isAbs_split _ (isAbs_join g n hg)
  rw [formatAbs_ok _ habs]
  simp only
  have hrp : parts (render (parts (splitPath (joinPath g n)).1)) = parts (splitPath (joinPath g n)).1 :=
    parts_render _ (fun q hq => parts_mem _ q hq)
  have hgd := good_requireGroup fields root h g (render (parts (splitPath (joinPath g n)).1)) hg
  cases hrg : Mem.requireGroup fields root g (render (parts (splitPath (joinPath g n)).1)) with
  | mk root1 r1 =>
    rw [hrg] at hgd
    obtain ⟨_, _, q3, _⟩ := requireGroup_sees fields root root1 h.1 g _ hg r1 hrg
    cases r1 with
    | some e => exact hgd
    | none =>
      cases make with
      | error e => exact hgd
      | ok d =>
        simp only
        rw [hrp]
        obtain ⟨a, k, hk⟩ := q3 rfl
        rw [components_abs _ _ (isAbs_render _), hrp] at hk
        refine ⟨insertAt_isGroup _ _ _ _ hgd.1, wellNamed_insert fields root1 hgd.2 _ _ _ a k hk ?_⟩
        intro ht Q d' hd'
        cases Q with
        | nil =>
          have : d = d' := by simpa [crawl] using hd'
          subst this
          rw [hm d rfl, storedName_eq g n hg ht]
        | cons k ks => exact absurd hd' (crawl_dset_cons fields d d' k ks)

theorem good_requireDataset (root : Node V Named) (h : Good fields root) (g n : Str) (hg : isAbs g = true)
    (make : Except Err Named) (hm : ∀ d, make = .ok d → d.name = storedName g n) :
    Good fields (Mem.requireDataset fields root g n make).1 := by
  unfold Mem.requireDataset
  cases getItem fields root g n with
  | ok o => simp only; split <;> exact h
  | error e =>
    cases e
    case keyError => exact good_createDataset fields root h g n hg make hm
    all_goals exact h

theorem deleteAt_isGroup (c : Str) (E : List Str) (root : Node V Named)
    (h : ∃ a k, root = .group a k) : ∃ a k, deleteAt c E root = .group a k := by
  obtain ⟨a, k, rfl⟩ := h
  cases E with
  | nil => exact ⟨_, _, rfl⟩
  | cons p E =>
    rw [deleteAt]
    cases k.lookup p <;> exact ⟨_, _, rfl⟩

theorem good_delete (root : Node V Named) (h : Good fields root) (g n : Str) (hg : isAbs g = true) :
    Good fields (Mem.delItem fields root g n).1 := by
  unfold Mem.delItem
  cases getItem fields root g n with
  | error e => exact h
  | ok o =>
    simp only
    have habs := isAbs_split _ (isAbs_join g n hg)
    rw [rootGet_eq fields root _ habs]
    match hc : crawl fields (.node root) (parts (splitPath (joinPath g n)).1) with
    | .error e => exact h
    | .ok (.node (.group a kids)) =>
      simp only
      split
      · exact ⟨deleteAt_isGroup _ _ _ h.1, wellNamed_delete fields root h.2 _ _ a kids hc⟩
      · exact h
    | .ok (.node (.dset d)) => exact h
    | .ok (.field d fs) => exact h

theorem get_eq (W : World V α) (t : Nat) (g n : Str) (hg : isAbs g = true) :
    W.get fields t g n = match crawl fields (.node (W.trees t)) (components g n) with
      | .error e => .error e
      | .ok (.node (.group _ _)) => .ok (.obj (.group t (render (components g n))))
      | .ok (.node (.dset d)) => .ok (.obj (.dset (some t) d))
      | .ok (.field d fs) => .ok (.array d fs) := by
  unfold World.get
  rw [formatAbs_ok _ (isAbs_join g n hg), components_eq]
  simp only
  rw [rootGet_eq _ _ _ (isAbs_render _), parts_render _ (fun q hq => components_mem g n q hq)]
  rcases crawl fields (.node (W.trees t)) (components g n) with e | ((_ | _) | _) <;> rfl

theorem good_setTree (W : World V α) (h : ∀ t, Good fields (W.trees t)) (t : Nat) (r : Node V Named)
    (hr : Good fields r) : ∀ t', Good fields ((W.setTree t r).trees t') := by
  intro t'
  show Good fields (if t' = t then r else W.trees t')
  split
  · exact hr
  · exact h t'

theorem alloc_trees (W : World V α) (make : Except Err α) : (W.alloc make).trees = W.trees := by
  cases make <;> rfl

theorem newDset_name (W : World V α) (g n : Str) (make : Except Err α) (d : Named)
    (h : W.newDset g n make = .ok d) : d.name = storedName g n := by
  cases make with
  | error e => simp [World.newDset] at h
  | ok a => simp only [World.newDset, Except.ok.injEq] at h; rw [← h]

theorem good_share (W : World V α) (h : ∀ t, Good fields (W.trees t)) (t1 : Nat) (n : Str) (t2 : Nat) (g : Str)
    (hg : isAbs g = true) : ∀ t, Good fields ((W.share fields t1 n t2 g).1.trees t) := by
  unfold World.share
  match hget : W.get fields t1 ['/'] n with
  | .error e => exact h
  | .ok (.array d fs) => exact h
  | .ok (.obj (.group _ _)) => exact h
  | .ok (.obj (.dset ot entry)) =>
    simp only
    rw [get_eq fields W t1 ['/'] n rfl] at hget
    have hcr : crawl fields (.node (W.trees t1)) (components ['/'] n) = .ok (.node (.dset entry)) := by
      match hc : crawl fields (.node (W.trees t1)) (components ['/'] n) with
      | .error e => rw [hc] at hget; simp at hget
      | .ok (.node (.group _ _)) => rw [hc] at hget; simp at hget
      | .ok (.node (.dset d)) => rw [hc] at hget; simp at hget; rw [hget.2]
      | .ok (.field d fs) => rw [hc] at hget; simp at hget
    have hparts : ∀ p ∈ components ['/'] n, Part p := fun p hp => components_mem _ _ p hp
    have hname := (h t1).2 _ _ hparts hcr
    have habsn : isAbs entry.name = true := by rw [hname]; exact isAbs_render _
    have hjoin : joinPath g entry.name = entry.name := by unfold joinPath; rw [if_pos habsn]
    rw [hjoin]
    have hne : components ['/'] n ≠ [] := by
      intro he
      rw [he] at hcr
      obtain ⟨a, k, hk⟩ := (h t1).1
      rw [hk] at hcr
      simp [crawl] at hcr
    obtain ⟨F, c, hF⟩ : ∃ (F : List Str) (c : Str), components ['/'] n = F ++ [c] :=
      ⟨(components ['/'] n).dropLast, (components ['/'] n).getLast hne, (List.dropLast_concat_getLast hne).symm⟩
    have hFp : ∀ p ∈ F, Part p := fun p hp => hparts p (by rw [hF]; simp [hp])
    have hcp : Part c := hparts c (by rw [hF]; simp)
    have hsplit : splitPath entry.name = (render F, c) := by rw [hname, hF, split_render F c hFp hcp]
    rw [hsplit, formatAbs_ok _ (isAbs_render F), parts_render F hFp]
    simp only
    rw [getItem_eq fields _ _ _ hg, components_abs _ _ (isAbs_render F), parts_render F hFp]
    rw [rootGet_eq fields _ _ habsn]
    have hpn : parts entry.name = components ['/'] n := by rw [hname, parts_render _ hparts]
    rw [hpn, hcr]
    match hgrp : crawl fields (.node (W.trees t2)) F with
    | .error e => exact h
    | .ok (.node (.dset d)) => exact h
    | .ok (.field d fs) => exact h
    | .ok (.node (.group a k)) =>
      simp only
      apply good_setTree fields W h
      refine ⟨insertAt_isGroup _ _ _ _ (h t2).1, wellNamed_insert fields _ (h t2).2 c _ F a k hgrp ?_⟩
      intro _ Q d hd
      cases Q with
      | nil =>
        have : entry = d := by simpa [crawl] using hd
        subst this
        rw [hname, hF]
      | cons k ks => exact absurd hd (crawl_dset_cons fields entry d k ks)

theorem good_run (W : World V α) (h : ∀ t, Good fields (W.trees t)) (op : Op α) (ho : op.Abs) :
    ∀ t, Good fields ((op.run fields W).1.trees t) := by
  cases op with
  | createGroup t g n => exact good_setTree fields W h t _ (good_createGroup fields _ (h t) g n ho)
  | requireGroup t g n => exact good_setTree fields W h t _ (good_requireGroup fields _ (h t) g n ho)
  | createDataset t g n make =>
    exact good_setTree fields _ (by rw [alloc_trees]; exact h) t _
      (good_createDataset fields _ (h t) g n ho _ (fun d hd => newDset_name W g n make d hd))
  | requireDataset t g n make =>
    exact good_setTree fields _ (by rw [alloc_trees]; exact h) t _
      (good_requireDataset fields _ (h t) g n ho _ (fun d hd => newDset_name W g n make d hd))
  | delete t g n => exact good_setTree fields W h t _ (good_delete fields _ (h t) g n ho)
  | share t1 n t2 g => exact good_share fields W h t1 n t2 g ho
  | write d a => exact h
  | copy d => exact h

theorem good_reach (W : World V α) (h : Reach fields W) : ∀ t, Good fields (W.trees t) := by
  induction h with
  | start cells next =>
    intro t
    refine ⟨⟨_, _, rfl⟩, ?_⟩
    intro Q d _ hd
    cases Q with
    | nil => simp [crawl] at hd
    | cons k ks => simp [crawl, index] at hd
  | step W op _ ho ih => exact good_run fields W ih op ho

/-- What a lookup gives, in terms of the tree. -/
theorem get_obj (W : World V α) (t : Nat) (g n : Str) (hg : isAbs g = true) (h : Handle) :
    W.get fields t g n = .ok (.obj h) ↔
      (∃ a k, crawl fields (.node (W.trees t)) (components g n) = .ok (.node (.group a k)) ∧
        h = .group t (render (components g n))) ∨
      ∃ d, crawl fields (.node (W.trees t)) (components g n) = .ok (.node (.dset d)) ∧ h = .dset (some t) d := by
  rw [get_eq fields W t g n hg]
  rcases crawl fields (.node (W.trees t)) (components g n) with e | ((_ | _) | _) <;> simp [eq_comm]

end Verif.Mem.Places
