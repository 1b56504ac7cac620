import Verif.Mem.Lemmas

/-!
# C30 (paths) and C31 (creation and deletion) in the in-memory tree

Groups have absolute names (`_memh5.py:204-206`), hence `isAbs g`; the root of a tree is a group.
-/
namespace Verif.Mem
variable {V δ : Type} (fields : δ → List Str → Option FieldErr)

/-- **C30**: names that differ only in repeated or trailing slashes give the same object. -/
theorem C30_same_object (root : Node V δ) (g p q : Str) (hg : isAbs g = true)
    (h : SameSlashes p q) : getItem fields root g p = getItem fields root g q := by
  rw [getItem_eq _ _ _ _ hg, getItem_eq _ _ _ _ hg, sameSlashes_components h]

example : SameSlashes "a//b/".toList "a/b".toList :=
  .trans (.trailing "a//b".toList (by decide)) (.double "a".toList "b".toList)

/-- **C30**: after `create_group` every prefix of the path is a group. -/
theorem C30_create_group (root root' : Node V δ) (hroot : ∃ a k, root = .group a k) (g n : Str)
    (hg : isAbs g = true) (h : createGroup fields root g n = (root', none))
    (g' q : Str) (hg' : isAbs g' = true) (hpre : components g' q <+: components g n) :
    ∃ a, see fields root' g' q = .ok (.group a) := by
  obtain ⟨_, _, _, h4, _⟩ := createGroup_sees fields root root' hroot g n hg h
  obtain ⟨a, k, hk⟩ := h4 _ hpre
  refine ⟨a, ?_⟩
  rw [see_eq _ _ _ _ hg', hk]
  rfl

/-- **C30**: `create_group` changes no other lookup: what was there looks the same, and what was not
there and is not a prefix of the path still is not. -/
theorem C30_create_group_others (root root' : Node V δ) (hroot : ∃ a k, root = .group a k) (g n : Str)
    (hg : isAbs g = true) (h : createGroup fields root g n = (root', none))
    (g' q : Str) (hg' : isAbs g' = true) :
    (see fields root g' q ≠ .error .keyError → see fields root' g' q = see fields root g' q) ∧
    (see fields root g' q = .error .keyError → ¬ components g' q <+: components g n →
      see fields root' g' q = .error .keyError) := by
  obtain ⟨_, _, h3, _, h5⟩ := createGroup_sees fields root root' hroot g n hg h
  constructor
  · intro hne
    rw [see_ne_iff fields _ _ _ hg'] at hne
    rw [see_eq _ _ _ _ hg', see_eq _ _ _ _ hg', h3 _ hne]
  · intro hk hnp
    have hk' : crawl fields (.node root) (components g' q) = .error .keyError := by
      rw [see_eq _ _ _ _ hg'] at hk
      cases hc : crawl fields (.node root) (components g' q) with
      | error e => rw [hc] at hk; simpa [Except.map] using hk
      | ok o => rw [hc] at hk; simp [Except.map] at hk
    rw [see_eq _ _ _ _ hg', h5 _ hk' hnp]
    rfl

/-- **C30**: after `create_dataset` under a name that does not end in a slash, the lookup of that name
gives the dataset. A name that ends in a slash is the missing case, see below. -/
theorem C30_create_dataset_partial (root root' : Node V δ) (hroot : ∃ a k, root = .group a k)
    (g n : Str) (hg : isAbs g = true) (hn : PlainEnd n) (d : δ)
    (h : createDataset fields root g n (.ok d) = (root', none)) :
    see fields root' g n = .ok (.dataset d) := by
  obtain ⟨_, _, h3, _⟩ := createDataset_sees fields root root' hroot g n hg hn (.ok d) none h
  obtain ⟨d', hd, hQ⟩ := h3 rfl
  have := hQ []
  rw [List.append_nil] at this
  rw [see_eq _ _ _ _ hg, this, ← Except.ok.inj hd]
  rfl

/-- **C30**: `create_dataset` changes no lookup of another path: what was there and is not below the
path looks the same, and nothing appears but the path, what is below it, and its prefixes. -/
theorem C30_create_dataset_others_partial (root root' : Node V δ)
    (hroot : ∃ a k, root = .group a k) (g n : Str) (hg : isAbs g = true) (hn : PlainEnd n)
    (make : Except Err δ) (r : Option Err) (h : createDataset fields root g n make = (root', r))
    (g' q : Str) (hg' : isAbs g' = true) (hbelow : ¬ components g n <+: components g' q) :
    (see fields root g' q ≠ .error .keyError → see fields root' g' q = see fields root g' q) ∧
    (see fields root g' q = .error .keyError → ¬ components g' q <+: components g n →
      see fields root' g' q = .error .keyError) := by
  obtain ⟨_, h2, _, h4, _⟩ := createDataset_sees fields root root' hroot g n hg hn make r h
  constructor
  · intro hne
    rw [see_ne_iff fields _ _ _ hg'] at hne
    rw [see_eq _ _ _ _ hg', see_eq _ _ _ _ hg', h2 _ hbelow hne]
  · intro hk hnp
    have hk' : crawl fields (.node root) (components g' q) = .error .keyError := by
      rw [see_eq _ _ _ _ hg'] at hk
      cases hc : crawl fields (.node root) (components g' q) with
      | error e => rw [hc] at hk; simpa [Except.map] using hk
      | ok o => rw [hc] at hk; simp [Except.map] at hk
    rw [see_eq _ _ _ _ hg', h4 _ hk' hnp hbelow]
    rfl

/-! A tree with a group `a` that holds a dataset `x`, and a plain array type without fields. -/

def noFields : Nat → List Str → Option FieldErr := fun _ _ => some .indexError
def exTree : Node Nat Nat :=
  .group [] [("a".toList, .group [("unit".toList, 3)] [("x".toList, .dset 7)])]

example : (createGroup noFields exTree "/a".toList "b//c/".toList).2 = none ∧
    components "/".toList "a/b".toList <+: components "/a".toList "b//c/".toList := by decide

example : (createDataset noFields exTree "/".toList "new/y".toList (.ok 5)).2 = none ∧
    PlainEnd "new/y".toList := by decide

/-- **C30 fails** for a dataset name with a trailing slash: `create_dataset("y/")` succeeds, but `"y"`
and `"y/"` are then an (otherwise empty) group, and no path leads to the dataset. -/
theorem C30_trailing_violated (d : δ) :
    let r := createDataset fields (.group [] [] : Node V δ) ['/'] ['y', '/'] (.ok d)
    r.2 = none ∧ see fields r.1 ['/'] ['y'] = .ok (.group []) ∧
      see fields r.1 ['/'] ['y', '/'] = .ok (.group []) ∧
      ∀ g q, isAbs g = true → see fields r.1 g q ≠ .ok (.dataset d) := by
  have hr : createDataset fields (.group [] [] : Node V δ) ['/'] ['y', '/'] (.ok d) =
      (.group [] [(['y'], .group [] [([], .dset d)])], none) := by rfl
  rw [hr]
  refine ⟨rfl, rfl, rfl, ?_⟩
  intro g q hg
  rw [see_eq _ _ _ _ hg]
  have hm := components_mem g q
  generalize components g q = Q at hm
  cases Q with
  | nil => simp [crawl, Except.map, Obj.info]
  | cons k ks =>
    rw [crawl_group_cons]
    simp only [List.lookup]
    by_cases hk : k = ['y']
    · subst hk
      simp only [beq_self_eq_true]
      cases ks with
      | nil => simp [crawl, Except.map, Obj.info]
      | cons k2 ks =>
        rw [crawl_group_cons]
        have : k2 ≠ [] := (hm k2 (by simp)).1
        simp [List.lookup, beq_eq_false_iff_ne.2 this, Except.map]
    · rw [beq_eq_false_iff_ne.2 hk]
      simp [Except.map]

/-! ## C31 -/

/-- **C31**: `create_group` on something that exists raises `ValueError`, and whenever it raises it
leaves the tree as it was. -/
theorem C31_create_group (root : Node V δ) (hroot : ∃ a k, root = .group a k) (g n : Str)
    (hg : isAbs g = true) :
    ((∃ i, see fields root g n = .ok i) → createGroup fields root g n = (root, some .valueError)) ∧
    (∀ root' e, createGroup fields root g n = (root', some e) → root' = root) := by
  refine ⟨?_, fun root' e h => createGroup_error fields root root' hroot g n hg e h⟩
  rintro ⟨i, hi⟩
  unfold createGroup
  rw [formatAbs_ok _ (isAbs_join g n hg)]
  simp only
  unfold see at hi
  cases hgi : getItem fields root g n with
  | ok o => rfl
  | error e => rw [hgi] at hi; simp [Except.map] at hi

example : (see noFields exTree ['/'] ['a', '/', 'x']).toOption.isSome = true := rfl

/-- **C31**: `create_dataset` under a name that is not there yet changes nothing that is there; if it
raises, under whatever name, it changes nothing that is there. -/
theorem C31_create_dataset_partial (root root' : Node V δ) (hroot : ∃ a k, root = .group a k)
    (g n : Str) (hg : isAbs g = true) (hn : PlainEnd n) (make : Except Err δ) (r : Option Err)
    (h : createDataset fields root g n make = (root', r))
    (hnew : see fields root g n = .error .keyError ∨ r ≠ none)
    (g' q : Str) (hg' : isAbs g' = true) (hthere : see fields root g' q ≠ .error .keyError) :
    see fields root' g' q = see fields root g' q := by
  obtain ⟨_, h2, _, _, h5⟩ := createDataset_sees fields root root' hroot g n hg hn make r h
  rw [see_ne_iff fields _ _ _ hg'] at hthere
  rw [see_eq _ _ _ _ hg', see_eq _ _ _ _ hg']
  rcases hnew with hnew | hr
  · have hk : crawl fields (.node root) (components g n) = .error .keyError :=
      Classical.byContradiction fun hc => ((see_ne_iff fields root g n hg).2 hc) hnew
    rw [h2 _ ?_ hthere]
    rintro ⟨t, ht⟩
    apply hthere
    rw [← ht, crawl_append, hk]
    rfl
  · rw [h5 hr _ hthere]

/-- **C31 fails** for `create_dataset` under an existing name: a group with all it holds, or a
dataset, is replaced without an error. -/
theorem C31_overwrite_violated :
    see noFields exTree ['/'] "a/x".toList = .ok (.dataset 7) ∧
    (createDataset noFields exTree ['/'] "a".toList (.ok 5)).2 = none ∧
    see noFields (createDataset noFields exTree ['/'] "a".toList (.ok 5)).1 ['/'] "a/x".toList =
      .error .indexError ∧
    (createDataset noFields exTree ['/'] "a/x".toList (.ok 5)).2 = none ∧
    see noFields (createDataset noFields exTree ['/'] "a/x".toList (.ok 5)).1 ['/'] "a/x".toList =
      .ok (.dataset 5) := ⟨rfl, rfl, rfl, rfl, rfl⟩

/-- **C31**: `require_group` and `require_dataset` return what exists and leave the tree as it was, if
it is of the right kind, and raise `TypeError` otherwise. -/
theorem C31_require (root : Node V δ) (g n : Str) (make : Except Err δ) :
    (∀ a, see fields root g n = .ok (.group a) →
      requireGroup fields root g n = (root, none) ∧
      requireDataset fields root g n make = (root, some .typeError)) ∧
    (∀ d, see fields root g n = .ok (.dataset d) →
      requireGroup fields root g n = (root, some .typeError) ∧
      requireDataset fields root g n make = (root, none)) := by
  unfold see requireGroup requireDataset
  cases hgi : getItem fields root g n with
  | error e => simp [Except.map]
  | ok o =>
    match o with
    | .node (.group a k) => simp [Except.map, Obj.info, Obj.isGroup]
    | .node (.dset d) => simp [Except.map, Obj.info, Obj.isGroup]
    | .field d fs => simp [Except.map, Obj.info]

example : see noFields exTree ['/'] "a/x".toList = .ok (.dataset 7) ∧
    see noFields exTree ['/'] "a".toList = .ok (.group [("unit".toList, 3)]) := ⟨rfl, rfl⟩

/-- **C31**: deletion, under a name that does not end in a slash: what is in the tree under that name
can be deleted; then it and everything below is gone, and everything else looks the same. -/
theorem C31_delete_partial (root : Node V δ) (g n : Str) (hg : isAbs g = true) (hn : PlainEnd n)
    (i : Info V δ) (hi : see fields root g n = .ok i) (hnode : ∀ d fs, i ≠ .field d fs) :
    ∃ root', delItem fields root g n = (root', none) ∧
      ∀ g' q, isAbs g' = true →
        (components g n <+: components g' q → see fields root' g' q = .error .keyError) ∧
        (¬ components g n <+: components g' q → see fields root' g' q = see fields root g' q) := by
  have habs := isAbs_split _ (isAbs_join g n hg)
  have hcomp := split_join_components g n hg hn
  unfold delItem
  rw [see_eq _ _ _ _ hg] at hi
  rw [getItem_eq _ _ _ _ hg]
  cases hc : crawl fields (.node root) (components g n) with
  | error e => rw [hc] at hi; simp [Except.map] at hi
  | ok o =>
    rw [hc] at hi
    simp only
    rw [rootGet_eq _ _ _ habs]
    rw [hcomp, crawl_append] at hc
    cases hp : crawl fields (.node root) (parts (splitPath (joinPath g n)).1) with
    | error e => rw [hp] at hc; simp [Except.bind] at hc
    | ok par =>
      rw [hp] at hc
      have hc' : crawl fields par [(splitPath (joinPath g n)).2] = .ok o := hc
      match par with
      | .node (.group a kids) =>
        rw [crawl_group_cons] at hc'
        cases hl : kids.lookup (splitPath (joinPath g n)).2 with
        | none => rw [hl] at hc'; simp at hc'
        | some c =>
          simp only [hl, Option.isSome_some, if_true]
          refine ⟨_, rfl, ?_⟩
          obtain ⟨d1, d2⟩ := crawl_delete fields (splitPath (joinPath g n)).2 _ root a kids hp
          intro g' q hg'
          rw [see_eq _ _ _ _ hg', see_eq _ _ _ _ hg']
          constructor
          · rintro ⟨t, ht⟩
            rw [← ht, hcomp, List.append_assoc]
            show Except.map _ (crawl fields _ (_ ++ _ :: t)) = _
            rw [d1]
            rfl
          · intro hnp
            rw [d2 _ (by rw [← hcomp]; exact hnp)]
      | .node (.dset d) =>
        exfalso
        simp only [crawl, index] at hc'
        cases hf : fields d [(splitPath (joinPath g n)).2] with
        | some e => rw [hf] at hc'; simp at hc'
        | none =>
          rw [hf] at hc'
          simp only [Except.ok.injEq] at hc'
          subst hc'
          exact hnode _ _ (Except.ok.inj hi).symm
      | .field d fs =>
        exfalso
        simp only [crawl, index] at hc'
        cases hf : fields d (fs ++ [(splitPath (joinPath g n)).2]) with
        | some e => rw [hf] at hc'; simp at hc'
        | none =>
          rw [hf] at hc'
          simp only [Except.ok.injEq] at hc'
          subst hc'
          exact hnode _ _ (Except.ok.inj hi).symm

/-- **C31**: deleting what does not exist raises `KeyError` and changes nothing. -/
theorem C31_delete_missing (root : Node V δ) (g n : Str)
    (h : see fields root g n = .error .keyError) :
    delItem fields root g n = (root, some .keyError) := by
  unfold see at h
  unfold delItem
  cases hgi : getItem fields root g n with
  | ok o => rw [hgi] at h; simp [Except.map] at h
  | error e =>
    rw [hgi] at h
    simp only [Except.map, Except.error.injEq] at h
    subst h
    rfl

/-- **C31 fails** for a deletion with a trailing slash: `"a/"` is in the group, but deleting it raises
`KeyError` and leaves it there. -/
theorem C31_delete_trailing_violated :
    see noFields exTree ['/'] "a/".toList = .ok (.group [("unit".toList, 3)]) ∧
    delItem noFields exTree ['/'] "a/".toList = (exTree, some .keyError) := ⟨rfl, rfl⟩

/-! Histories. -/

/-- The creating operations. -/
inductive Op (δ : Type) where
  | createGroup (g n : Str)
  | requireGroup (g n : Str)
  | createDataset (g n : Str) (make : Except Err δ)
  | requireDataset (g n : Str) (make : Except Err δ)

def Op.run (root : Node V δ) : Op δ → Node V δ
  | .createGroup g n => (Mem.createGroup fields root g n).1
  | .requireGroup g n => (Mem.requireGroup fields root g n).1
  | .createDataset g n m => (Mem.createDataset fields root g n m).1
  | .requireDataset g n m => (Mem.requireDataset fields root g n m).1

/-- Operations with absolute group names; datasets under plain names, and `create_dataset` only where
nothing is yet. -/
def Op.Allowed (root : Node V δ) : Op δ → Prop
  | .createGroup g _ => isAbs g = true
  | .requireGroup g _ => isAbs g = true
  | .createDataset g n _ => isAbs g = true ∧ PlainEnd n ∧ see fields root g n = .error .keyError
  | .requireDataset g n _ => isAbs g = true ∧ PlainEnd n

/-- A history of allowed operations. -/
inductive History : Node V δ → Node V δ → Prop where
  | start (root) : History root root
  | step {root root1} (op : Op δ) : History root root1 → op.Allowed fields root1 →
      History root (op.run fields root1)

theorem op_keeps (root : Node V δ) (hroot : ∃ a k, root = .group a k) (op : Op δ)
    (h : op.Allowed fields root) :
    (∃ a k, op.run fields root = .group a k) ∧
    ∀ g' q, isAbs g' = true → see fields root g' q ≠ .error .keyError →
      see fields (op.run fields root) g' q = see fields root g' q := by
  cases op with
  | createGroup g n =>
    have hg : isAbs g = true := h
    show (∃ a k, (Mem.createGroup fields root g n).1 = .group a k) ∧ ∀ g' q, _ → _ →
      see fields (Mem.createGroup fields root g n).1 g' q = _
    cases hr : Mem.createGroup fields root g n with
    | mk root' r =>
      cases r with
      | none =>
        refine ⟨(createGroup_sees fields root root' hroot g n hg hr).1, fun g' q hg' hne => ?_⟩
        exact (C30_create_group_others fields root root' hroot g n hg hr g' q hg').1 hne
      | some e =>
        have := createGroup_error fields root root' hroot g n hg e hr
        subst this
        exact ⟨hroot, fun _ _ _ _ => rfl⟩
  | requireGroup g n =>
    have hg : isAbs g = true := h
    show (∃ a k, (Mem.requireGroup fields root g n).1 = .group a k) ∧ ∀ g' q, _ → _ →
      see fields (Mem.requireGroup fields root g n).1 g' q = _
    cases hr : Mem.requireGroup fields root g n with
    | mk root' r =>
      obtain ⟨h1, h2, _, _⟩ := requireGroup_sees fields root root' hroot g n hg r hr
      refine ⟨h1, fun g' q hg' hne => ?_⟩
      rw [see_ne_iff fields _ _ _ hg'] at hne
      rw [see_eq _ _ _ _ hg', see_eq _ _ _ _ hg', h2 _ hne]
  | createDataset g n m =>
    obtain ⟨hg, hn, hk⟩ := h
    show (∃ a k, (Mem.createDataset fields root g n m).1 = .group a k) ∧ ∀ g' q, _ → _ →
      see fields (Mem.createDataset fields root g n m).1 g' q = _
    cases hr : Mem.createDataset fields root g n m with
    | mk root' r =>
      refine ⟨(createDataset_sees fields root root' hroot g n hg hn m r hr).1, fun g' q hg' hne => ?_⟩
      exact C31_create_dataset_partial fields root root' hroot g n hg hn m r hr (.inl hk) g' q hg' hne
  | requireDataset g n m =>
    obtain ⟨hg, hn⟩ := h
    show (∃ a k, (Mem.requireDataset fields root g n m).1 = .group a k) ∧ ∀ g' q, _ → _ →
      see fields (Mem.requireDataset fields root g n m).1 g' q = _
    unfold requireDataset
    cases hgi : getItem fields root g n with
    | ok o =>
      simp only
      split <;> exact ⟨hroot, fun _ _ _ _ => rfl⟩
    | error e =>
      by_cases he : e = .keyError
      · subst he
        simp only
        have hk : see fields root g n = .error .keyError := by
          unfold see
          rw [hgi]
          rfl
        cases hr : Mem.createDataset fields root g n m with
        | mk root' r =>
          refine ⟨(createDataset_sees fields root root' hroot g n hg hn m r hr).1,
            fun g' q hg' hne => ?_⟩
          exact C31_create_dataset_partial fields root root' hroot g n hg hn m r hr (.inl hk) g' q hg'
            hne
      · cases e <;> first | exact absurd rfl he | exact ⟨hroot, fun _ _ _ _ => rfl⟩

/-- **C31**, histories: through any sequence of creating operations, `create_dataset` being used only
for new names, everything that was there at the beginning looks the same at the end. -/
theorem C31_history_partial (root root' : Node V δ) (hroot : ∃ a k, root = .group a k)
    (h : History fields root root') :
    (∃ a k, root' = .group a k) ∧
    ∀ g q, isAbs g = true → see fields root g q ≠ .error .keyError →
      see fields root' g q = see fields root g q := by
  induction h with
  | start => exact ⟨hroot, fun _ _ _ _ => rfl⟩
  | step op _ hop ih =>
    obtain ⟨h1, h2⟩ := ih
    obtain ⟨k1, k2⟩ := op_keeps fields _ h1 op hop
    refine ⟨k1, fun g q hg hne => ?_⟩
    have := h2 g q hg hne
    rw [k2 g q hg (by rw [this]; exact hne), this]

example : History noFields exTree
    (Op.run noFields (Op.run noFields exTree (.createGroup ['/'] "a/b".toList))
      (.createDataset "/a".toList "b/y".toList (.ok 1))) :=
  .step _ (.step _ (.start _) rfl) ⟨rfl, by decide, rfl⟩

end Verif.Mem
