import Verif.Mem.Names
import Verif.Mem.Lemmas

/-! # C93: containers that restrict names -/
namespace Verif.Mem

variable {V δ : Type} (fields : δ → List Str → Option FieldErr)

/-! ## Specification -/

/-- The absolute path of a name in a group, without superfluous slashes. -/
def fullPath (gname name : Str) : Str := render (components gname name)

/-- Whether the rules let an object at a path be seen. -/
def Visible (R : Rules) (path : Str) : Obj V δ → Prop
  | .node (.group _ _) => R.group path = true
  | .node (.dset _) => R.dataset path = true
  | .field _ _ => False

instance (R : Rules) (path : Str) (o : Obj V δ) : Decidable (Visible R path o) := by
  cases o with
  | node n => cases n <;> (unfold Visible; infer_instance)
  | field d fs => unfold Visible; infer_instance

/-! ## Reading -/

theorem rules_get_eq (R : Rules) (root : Node V δ) (g n : Str) (hg : isAbs g = true) :
    R.get fields root g n = match getItem fields root g n with
      | .error e => .error e
      | .ok o => if Visible R (fullPath g n) o then .ok o else
          match o with
          | .field _ _ => .error .attributeError
          | .node _ => .error .keyError := by
  unfold Rules.get
  rw [formatAbs_ok _ (isAbs_join g n hg), components_eq]
  cases hget : getItem fields root g n with
  | error e => rfl
  | ok o =>
    cases o with
    | field d fs => simp [Visible]
    | node m =>
      cases m with
      | group a k =>
        by_cases hv : R.group (render (components g n)) = true
        · have hv' : Visible R (fullPath g n) (.node (.group a k)) := hv
          simp [hv', hv]
        · have hv' : ¬ Visible R (fullPath g n) (.node (.group a k)) := hv
          simp [hv', hv]
      | dset d =>
        by_cases hv : R.dataset (render (components g n)) = true
        · have hv' : Visible R (fullPath g n) (.node (.dset d) : Obj V δ) := hv
          simp [hv', hv]
        · have hv' : ¬ Visible R (fullPath g n) (.node (.dset d) : Obj V δ) := hv
          simp [hv', hv]

/-- C93. What is read is what is in the tree at that name, and the rules allow its path. -/
theorem C93_read (R : Rules) (root : Node V δ) (g n : Str) (hg : isAbs g = true) (o : Obj V δ) :
    R.get fields root g n = .ok o ↔ getItem fields root g n = .ok o ∧ Visible R (fullPath g n) o := by
  rw [rules_get_eq fields R root g n hg]
  cases hget : getItem fields root g n with
  | error e => simp
  | ok o' =>
    simp only [Except.ok.injEq]
    by_cases hv : Visible R (fullPath g n) o'
    · rw [if_pos hv]
      constructor
      · intro h; cases h; exact ⟨rfl, hv⟩
      · rintro ⟨rfl, _⟩; rfl
    · rw [if_neg hv]
      cases o' with
      | field d fs =>
        simp only [reduceCtorEq, false_iff]
        rintro ⟨rfl, h⟩; exact hv h
      | node m =>
        simp only [reduceCtorEq, false_iff]
        rintro ⟨rfl, h⟩; exact hv h

/-- C93. A group or dataset whose path is not allowed is not found: a `KeyError`, as if it were not there. -/
theorem C93_hidden (R : Rules) (root : Node V δ) (g n : Str) (hg : isAbs g = true) (m : Node V δ)
    (hm : getItem fields root g n = .ok (.node m)) (hv : ¬ Visible R (fullPath g n) (.node m)) :
    R.get fields root g n = .error .keyError := by
  rw [rules_get_eq fields R root g n hg, hm]
  simp only [if_neg hv]

/-- C93 fails for the names of fields of a dataset: they are found by the tree, but the container raises an
`AttributeError`, also when asked whether the name is in it. -/
theorem C93_field_violated (R : Rules) (root : Node V δ) (g n : Str) (hg : isAbs g = true) (d : δ) (fs : List Str)
    (hm : getItem fields root g n = .ok (.field d fs)) : R.get fields root g n = .error .attributeError := by
  rw [rules_get_eq fields R root g n hg, hm]
  simp [Visible]

theorem foldl_count {α : Type} (l : List α) (n : Nat) : l.foldl (fun n _ => n + 1) n = n + l.length := by
  induction l generalizing n with
  | nil => rfl
  | cons a t ih => rw [List.foldl_cons, ih, List.length_cons]; omega

/-- C93. The container lists exactly the entries of its group that can be read, in their order, and its length is
their number. -/
theorem C93_list (R : Rules) (root : Node V δ) (g : Str) (a : List (Str × V)) (kids : List (Str × Node V δ))
    (hg : rootGet fields root g = .ok (.node (.group a kids))) :
    (R.list fields root g).Sublist (kids.map Prod.fst) ∧
    (∀ k, k ∈ R.list fields root g ↔ k ∈ kids.map Prod.fst ∧ ∃ o, R.get fields root g k = .ok o) ∧
    R.len fields root g = (R.list fields root g).length := by
  have hkeys : keysAt fields root g = kids.map Prod.fst := by
    unfold keysAt
    rw [hg]
  rw [← hkeys]
  refine ⟨List.filter_sublist, ?_, ?_⟩
  · intro k
    unfold Rules.list
    rw [List.mem_filter]
    constructor
    · rintro ⟨h1, h2⟩
      refine ⟨h1, ?_⟩
      cases hk : R.get fields root g k with
      | error e => rw [hk] at h2; simp at h2
      | ok o => exact ⟨o, rfl⟩
    · rintro ⟨h1, o, ho⟩
      exact ⟨h1, by rw [ho]⟩
  · unfold Rules.len
    rw [foldl_count]
    omega

/-! ## Writing -/

/-- C93. Creating, requiring or deleting what is not allowed raises and leaves the tree as it was. -/
theorem C93_refused (R : Rules) (root : Node V δ) (g n : Str) (make : Except Err δ) :
    (R.dataset (joinPath g n) = false → R.createDataset fields root g n make = (root, some .valueError)) ∧
    (R.group (joinPath g n) = false → R.createGroup fields root g n = (root, some .valueError)) ∧
    (∀ e, R.get fields root g n = .error e → R.delItem fields root g n = (root, some e)) ∧
    (R.dataset (joinPath g n) = false → ∀ o, R.get fields root g n = .error o →
      ∃ e, R.requireDataset fields root g n make = (root, some e)) ∧
    (R.group (joinPath g n) = false → ∀ o, R.get fields root g n = .error o →
      ∃ e, R.requireGroup fields root g n = (root, some e)) := by
  refine ⟨fun h => by simp [Rules.createDataset, h], fun h => by simp [Rules.createGroup, h],
    fun e h => by simp [Rules.delItem, h], ?_, ?_⟩
  · intro h o ho
    unfold Rules.requireDataset
    rw [ho]
    cases o <;> simp [Rules.createDataset, h]
  · intro h o ho
    unfold Rules.requireGroup
    rw [ho]
    cases o <;> simp [Rules.createGroup, h]

/-- The name of a dataset is written as the tree writes it. -/
def Canonical (g n : Str) : Prop := joinPath g n = fullPath g n

theorem components_join (g n : Str) (hg : isAbs g = true) : components g (joinPath g n) = components g n := by
  rw [components_abs _ _ (isAbs_join g n hg), components_eq]

/-- C93. A dataset that was created under a canonical name can be read back from the container. -/
theorem C93_create_partial (R : Rules) (root root' : Node V δ) (hroot : ∃ a k, root = .group a k) (g n : Str)
    (hg : isAbs g = true) (hn : PlainEnd (joinPath g n)) (hc : Canonical g n) (d : δ)
    (h : R.createDataset fields root g n (.ok d) = (root', none)) :
    R.get fields root' g n = .ok (.node (.dset d)) := by
  unfold Rules.createDataset at h
  by_cases hr : R.dataset (joinPath g n) = true
  · rw [if_pos hr] at h
    rw [C93_read fields R root' g n hg]
    obtain ⟨_, _, h3, _⟩ := createDataset_sees fields root root' hroot g (joinPath g n) hg hn (.ok d) none h
    obtain ⟨d', hd, hQ⟩ := h3 rfl
    have hq := hQ []
    rw [List.append_nil, components_join g n hg] at hq
    rw [← Except.ok.inj hd] at hq
    refine ⟨?_, ?_⟩
    · rw [getItem_eq fields root' g n hg]
      exact hq
    · unfold Visible
      rw [← hc]
      exact hr
  · rw [if_neg hr] at h
    simp at h

/-- C93. A group that was created under a canonical name can be read back from the container. -/
theorem C93_create_group_partial (R : Rules) (root root' : Node V δ) (hroot : ∃ a k, root = .group a k) (g n : Str)
    (hg : isAbs g = true) (hc : Canonical g n) (h : R.createGroup fields root g n = (root', none)) :
    ∃ a k, R.get fields root' g n = .ok (.node (.group a k)) := by
  unfold Rules.createGroup at h
  by_cases hr : R.group (joinPath g n) = true
  · rw [if_pos hr] at h
    obtain ⟨_, _, _, h4, _⟩ := createGroup_sees fields root root' hroot g (joinPath g n) hg h
    obtain ⟨a, k, hq⟩ := h4 _ List.prefix_rfl
    rw [components_join g n hg] at hq
    refine ⟨a, k, ?_⟩
    rw [C93_read fields R root' g n hg, getItem_eq fields root' g n hg]
    refine ⟨hq, ?_⟩
    unfold Visible
    rw [← hc]
    exact hr
  · rw [if_neg hr] at h
    simp at h

/-- C93. What is required and can be read is not made again: nothing changes, and it is an error exactly if a group is
there in place of a dataset, or the other way round. -/
theorem C93_require (R : Rules) (root : Node V δ) (g n : Str) (make : Except Err δ) (o : Obj V δ)
    (h : R.get fields root g n = .ok o) :
    ((∃ a k, o = .node (.group a k)) → R.requireGroup fields root g n = (root, none) ∧
      R.requireDataset fields root g n make = (root, some .typeError)) ∧
    ((∃ d, o = .node (.dset d)) → R.requireDataset fields root g n make = (root, none) ∧
      R.requireGroup fields root g n = (root, some .typeError)) := by
  unfold Rules.requireGroup Rules.requireDataset
  rw [h]
  constructor
  · rintro ⟨a, k, rfl⟩
    exact ⟨rfl, rfl⟩
  · rintro ⟨d, rfl⟩
    exact ⟨rfl, rfl⟩

/-- A class that allows datasets everywhere, and only the group `ok`. -/
def onlyOk : Rules := ⟨fun p => p == "/ok".toList, fun _ => true⟩

example : (onlyOk.createDataset (fun _ _ => some .indexError) (.group [] [] : Node Nat Nat) ['/'] "x".toList (.ok 1)).2 = none ∧
    Canonical ['/'] "x".toList ∧ PlainEnd (joinPath ['/'] "x".toList) := by
  unfold Canonical
  decide

example : (onlyOk.createGroup (fun _ _ => some .indexError) (.group [] [] : Node Nat Nat) ['/'] "ok".toList).2 = none ∧
    Canonical ['/'] "ok".toList := by
  unfold Canonical
  decide

example : onlyOk.get (fun _ _ => some .indexError) (.group [] [("ok".toList, .group [] []), ("x".toList, .dset 1)] : Node Nat Nat)
    ['/'] "x".toList = .ok (.node (.dset 1)) := rfl

/-- C93. A name that is not there is made by `require_dataset` and `require_group` as by `create_dataset` and `create_group`, so that it is
found afterwards if the class allows it. -/
theorem C93_require_new_partial (R : Rules) (root root' : Node V δ) (hroot : ∃ a k, root = .group a k) (g n : Str) (hg : isAbs g = true)
    (hc : Canonical g n) (hmiss : getItem fields root g n = .error .keyError) (d : δ) :
    R.requireDataset fields root g n (.ok d) = R.createDataset fields root g n (.ok d) ∧
    R.requireGroup fields root g n = R.createGroup fields root g n ∧
    (PlainEnd (joinPath g n) → R.requireDataset fields root g n (.ok d) = (root', none) → R.get fields root' g n = .ok (.node (.dset d))) ∧
    (R.requireGroup fields root g n = (root', none) → ∃ a k, R.get fields root' g n = .ok (.node (.group a k))) := by
  have h0 : R.get fields root g n = .error .keyError := by rw [rules_get_eq fields R root g n hg, hmiss]
  have h1 : R.requireDataset fields root g n (.ok d) = R.createDataset fields root g n (.ok d) := by
    unfold Rules.requireDataset
    rw [h0]
  have h2 : R.requireGroup fields root g n = R.createGroup fields root g n := by
    unfold Rules.requireGroup
    rw [h0]
  refine ⟨h1, h2, fun hn h => ?_, fun h => ?_⟩
  · exact C93_create_partial fields R root root' hroot g n hg hn hc d (h1 ▸ h)
  · exact C93_create_group_partial fields R root root' hroot g n hg hc (h2 ▸ h)

example : getItem (fun _ _ => some .indexError) (.group [] [("ok".toList, .group [] [])] : Node Nat Nat) ['/'] "x".toList = .error .keyError ∧
    (onlyOk.requireDataset (fun _ _ => some .indexError) (.group [] [("ok".toList, .group [] [])] : Node Nat Nat) ['/'] "x".toList (.ok 1)).2
      = none ∧
    (onlyOk.requireGroup (fun _ _ => some .indexError) (.group [] [] : Node Nat Nat) ['/'] "ok".toList).2 = none := ⟨rfl, rfl, rfl⟩

/-- C93 fails for the groups on the way to a dataset: they are made though they are not allowed. -/
theorem C93_parents_violated (d : δ) :
    let r := onlyOk.createDataset fields (.group [] [] : Node V δ) ['/'] "no/x".toList (.ok d)
    onlyOk.createGroup fields (.group [] [] : Node V δ) ['/'] "no".toList = (.group [] [], some .valueError) ∧
    r.2 = none ∧ getItem fields r.1 ['/'] "no".toList = .ok (.node (.group [] [("x".toList, .dset d)])) := by
  refine ⟨rfl, rfl, rfl⟩

/-- A class that does not allow the dataset `secret`. -/
def noSecret : Rules := ⟨fun _ => true, fun p => p != "/secret".toList⟩

example (d d' : δ) : noSecret.list fields (.group [] [("b".toList, .dset d), ("secret".toList, .dset d), ("a".toList, .dset d')] : Node V δ)
    ['/'] = ["b".toList, "a".toList] := rfl

/-- C93 fails for names that are not canonical: the rule is asked about the name as written, so that with a doubled
slash a dataset is made, or replaced, that is not allowed. -/
theorem C93_slashes_violated (d d' : δ) :
    let root : Node V δ := .group [] [("secret".toList, .dset d')]
    let r := noSecret.createDataset fields root ['/'] "//secret".toList (.ok d)
    noSecret.createDataset fields root ['/'] "secret".toList (.ok d) = (root, some .valueError) ∧
    r.2 = none ∧ getItem fields r.1 ['/'] "secret".toList = .ok (.node (.dset d)) := by
  refine ⟨rfl, rfl, rfl⟩

/-! ## Containers -/

/-- C93. In a `Container` no group can be made, and none is seen. -/
theorem C93_no_groups (root : Node V δ) (g n : Str) (hg : isAbs g = true) :
    containerRules.createGroup fields root g n = (root, some .valueError) ∧
    ∀ o, containerRules.get fields root g n = .ok o → o.isGroup = false := by
  refine ⟨rfl, ?_⟩
  intro o ho
  have hv := ((C93_read fields _ root g n hg o).1 ho).2
  cases o with
  | field d fs => rfl
  | node m =>
    cases m with
    | group a k => simp [Visible, containerRules] at hv
    | dset d => rfl

theorem headOf_append (u p : Str) (h : '/' ∉ p) : headOf (u ++ '/' :: p) = u ++ ['/'] := by
  unfold headOf
  have hr : (u ++ '/' :: p).reverse = p.reverse ++ ('/' :: u.reverse) := by simp
  rw [hr, List.dropWhile_append_of_pos]
  · simp
  · intro a ha
    have : a ∈ p := by simpa using ha
    simp only [bne_iff_ne, ne_eq]
    rintro rfl
    exact h this

/-- The rule for datasets of a container, for a path as the tree writes it: one component (or none). -/
theorem container_dataset (ps : List Str) (hp : ∀ p ∈ ps, Part p) :
    containerRules.dataset (render ps) = true ↔ ps.length ≤ 1 := by
  have hparts : parts (render ps) = ps := parts_render ps hp
  simp only [containerRules, beq_iff_eq]
  constructor
  · intro h
    have habs := isAbs_render ps
    by_cases ht : (splitPath (render ps)).2 = []
    · -- the path ends in a slash
      have h2 := head_tail (render ps)
      have h3 : tailOf (render ps) = [] := ht
      rw [h3, List.append_nil] at h2
      have h4 := splitPath_parts (render ps)
      rw [h, h2, hparts] at h4
      rw [← h4]
      decide
    · have h4 := splitPath_components (render ps) habs ht
      rw [hparts, h] at h4
      rw [h4]
      simp [parts, splitSlash]
  · intro h
    match ps, h, hp with
    | [], _, _ => decide
    | [p], _, hp =>
      have hpp := hp p (by simp)
      have e : render [p] = '/' :: p := by
        simp [render]
      rw [e]
      have e2 := headOf_append [] p hpp.2
      simp only [List.nil_append] at e2
      simp [splitPath, e2]

/-- C93. What can be read from a `Container` are the datasets in its root group, and nothing else. -/
theorem C93_container (root : Node V δ) (hroot : ∃ a k, root = .group a k) (n : Str) (o : Obj V δ) :
    containerRules.get fields root ['/'] n = .ok o ↔
      ∃ k d, components ['/'] n = [k] ∧ o = .node (.dset d) ∧ getItem fields root ['/'] k = .ok o := by
  have hg : isAbs ['/'] = true := rfl
  rw [C93_read fields _ root _ n hg o, getItem_eq fields root _ n hg]
  have hm := components_mem ['/'] n
  constructor
  · rintro ⟨h1, h2⟩
    cases o with
    | field d fs => exact absurd h2 (by simp [Visible])
    | node m =>
      cases m with
      | group a k => simp [Visible, containerRules] at h2
      | dset d =>
        have h3 := (container_dataset _ hm).1 h2
        cases hc : components ['/'] n with
        | nil =>
          rw [hc] at h1
          obtain ⟨a, k, rfl⟩ := hroot
          simp [crawl] at h1
        | cons k ks =>
          cases ks with
          | cons _ _ => rw [hc] at h3; simp at h3
          | nil =>
            refine ⟨k, d, rfl, rfl, ?_⟩
            rw [getItem_eq fields root _ k hg]
            have hk := hm k (by rw [hc]; simp)
            have : components ['/'] k = [k] := by
              unfold components
              have h0 : k.head? ≠ some '/' := by
                intro h0
                exact hk.2 (List.mem_of_mem_head? (by simp [h0]))
              rw [if_neg h0, parts_part k hk]
              rfl
            rw [this, ← hc]
            exact h1
  · rintro ⟨k, d, h1, rfl, h3⟩
    have hk := hm k (by rw [h1]; simp)
    rw [getItem_eq fields root _ k hg] at h3
    have : components ['/'] k = [k] := by
      unfold components
      have h0 : k.head? ≠ some '/' := by
        intro h0
        exact hk.2 (List.mem_of_mem_head? (by simp [h0]))
      rw [if_neg h0, parts_part k hk]
      rfl
    rw [this] at h3
    refine ⟨by rw [h1]; exact h3, ?_⟩
    unfold Visible
    exact (container_dataset _ hm).2 (by rw [h1]; simp)

/-- A container with a dataset `vis`, and index maps in a group: only `vis` is seen. -/
example : let root : Node Nat Nat := .group [] [("index_map".toList, .group [] [("time".toList, .dset 1)]),
      ("vis".toList, .dset 7)]
    containerRules.list (fun _ _ => some .indexError) root ['/'] = ["vis".toList] ∧
    (match containerRules.get (fun _ _ => some .indexError) root ['/'] "index_map/time".toList with
      | .error .keyError => true
      | _ => false) = true := by
  decide +kernel

/-- C93. A dataset that a `Container` makes is in its root group. -/
theorem C93_container_create (root root' : Node V δ) (n : Str) (make : Except Err δ) (r : Option Err)
    (h : containerRules.createDataset fields root ['/'] n make = (root', r)) :
    (r = some .valueError ∧ root' = root) ∨ (components ['/'] n).length ≤ 1 := by
  unfold Rules.createDataset at h
  by_cases hr : containerRules.dataset (joinPath ['/'] n) = true
  · right
    have habs : isAbs (joinPath ['/'] n) = true := isAbs_join _ n rfl
    simp only [containerRules, beq_iff_eq] at hr
    rw [← components_eq]
    by_cases ht : (splitPath (joinPath ['/'] n)).2 = []
    · have h2 := head_tail (joinPath ['/'] n)
      have h3 : tailOf (joinPath ['/'] n) = [] := ht
      rw [h3, List.append_nil] at h2
      have h4 := splitPath_parts (joinPath ['/'] n)
      rw [hr, h2] at h4
      rw [← h4]
      decide
    · have h4 := splitPath_components (joinPath ['/'] n) habs ht
      rw [hr] at h4
      rw [h4]
      simp [parts, splitSlash]
  · left
    rw [if_neg hr] at h
    simp at h
    exact ⟨h.2.symm, h.1.symm⟩

end Verif.Mem
