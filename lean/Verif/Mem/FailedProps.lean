import Verif.Mem.FailedLemmas
import Verif.Mem.Props

/-!
# C125: a call that fails leaves the tree as it was

`root` is the tree before the call, `root'` the one after it. Groups have absolute names (`_memh5.py:204-206`), hence
`isAbs g`; the root of a tree is a group.
-/
namespace Verif.Mem
variable {V δ : Type} (fields : δ → List Str → Option FieldErr)

/-- **C125** `create_group`, `require_group` and `del` that raise leave the very same tree. -/
theorem C125_groups (root root' : Node V δ) (hroot : ∃ a k, root = .group a k) (g n : Str) (hg : isAbs g = true)
    (e : Err) :
    (createGroup fields root g n = (root', some e) → root' = root) ∧
      (requireGroup fields root g n = (root', some e) → root' = root) ∧
      (delItem fields root g n = (root', some e) → root' = root) :=
  ⟨createGroup_error fields root root' hroot g n hg e, requireGroup_error fields root root' hroot g n hg e,
    delItem_error fields root root' g n e⟩

example : (createGroup noFields exTree ['/'] "a/x".toList).2 = some .valueError ∧
    (createGroup noFields exTree ['/'] "a/x/y".toList).2 = some .indexError ∧
    (requireGroup noFields exTree ['/'] "a/x".toList).2 = some .typeError ∧
    (delItem noFields exTree ['/'] "a/y".toList).2 = some .keyError := ⟨rfl, rfl, rfl, rfl⟩

/-- **C125** (partial) `create_dataset` and `require_dataset` that raise leave all that was there as it was. What is
there now and was not there before is a group without attributes, and its path is a beginning of the path of the dataset, shorter than it.

Missing: such groups may be left, `C125_left_violated`. -/
theorem C125_datasets_partial (root root' : Node V δ) (hroot : ∃ a k, root = .group a k) (g n : Str)
    (hg : isAbs g = true) (hn : PlainEnd n) (make : Except Err δ) (e : Err)
    (h : createDataset fields root g n make = (root', some e) ∨ requireDataset fields root g n make = (root', some e))
    (g' q : Str) (hg' : isAbs g' = true) :
    (see fields root g' q ≠ .error .keyError → see fields root' g' q = see fields root g' q) ∧
      (see fields root g' q = .error .keyError → see fields root' g' q ≠ .error .keyError →
        see fields root' g' q = .ok (.group []) ∧ components g' q <+: components g n ∧ components g' q ≠ components g n) := by
  have key : root' = root ∨ createGroup fields root g (parentOf g n) = (root', none) := by
    rcases h with h | h
    · exact (createDataset_error fields root root' hroot g n hg make e h).imp id (·.2)
    · unfold requireDataset at h
      cases hgi : getItem fields root g n with
      | ok o =>
        rw [hgi] at h
        simp only at h
        by_cases ho : o.isGroup = true
        · rw [if_pos ho] at h; exact .inl (Prod.mk.inj h).1.symm
        · rw [if_neg ho] at h; simp at h
      | error e' =>
        rw [hgi] at h
        by_cases he : e' = .keyError
        · subst he
          exact (createDataset_error fields root root' hroot g n hg make e h).imp id (·.2)
        · have : (root, some e') = (root', some e) := by
            cases e' <;> first | exact absurd rfl he | exact h
          exact .inl (Prod.mk.inj this).1.symm
  rcases key with rfl | hc
  · exact ⟨fun _ => rfl, fun h1 h2 => absurd h1 h2⟩
  · obtain ⟨_, _, h3, _, _⟩ := createGroup_sees fields root root' hroot g _ hg hc
    refine ⟨fun hne => ?_, fun hk hne => ?_⟩
    · rw [see_ne_iff fields _ _ _ hg'] at hne
      rw [see_eq _ _ _ _ hg', see_eq _ _ _ _ hg', h3 _ hne]
    · have hk' : crawl fields (.node root) (components g' q) = .error .keyError :=
        Classical.byContradiction fun hc => ((see_ne_iff fields root g' q hg').2 hc) hk
      rw [see_ne_iff fields _ _ _ hg'] at hne
      rcases createGroup_adds fields root root' hroot g _ hg hc _ hk' with h1 | ⟨h1, k, h2⟩
      · exact absurd h1 hne
      · rw [components_parentOf] at h1
        rw [see_eq _ _ _ _ hg', h2, split_join_components g n hg hn]
        refine ⟨rfl, h1.trans (List.prefix_append _ _), fun hh => ?_⟩
        rw [hh] at h1
        have := h1.length_le
        rw [List.length_append, List.length_singleton] at this
        omega

example : (createDataset noFields exTree ['/'] "new/b/y".toList (.error .typeError)).2 = some .typeError ∧
    PlainEnd "new/b/y".toList := by decide

/-- **C125** If the failure is not one of making the dataset itself, but of the groups on the way, the tree is the very
same; also if the group that was to hold the dataset was there. -/
theorem C125_datasets_same (root root' : Node V δ) (hroot : ∃ a k, root = .group a k) (g n : Str)
    (hg : isAbs g = true) (hn : PlainEnd n) (make : Except Err δ) (e : Err)
    (h : createDataset fields root g n make = (root', some e)) (p : Str)
    (hp : components g p = (components g n).dropLast)
    (hw : (∃ d, make = .ok d) ∨ ∃ i, see fields root g p = .ok i) : root' = root := by
  rcases createDataset_error fields root root' hroot g n hg make e h with h1 | ⟨hm, hc⟩
  · exact h1
  · rcases hw with ⟨d, hd⟩ | ⟨i, hi⟩
    · rw [hd] at hm; cases hm
    · obtain ⟨_, h2, _⟩ := createGroup_sees fields root root' hroot g _ hg hc
      rw [components_parentOf] at h2
      rw [see_eq _ _ _ _ hg, hp, split_join_components g n hg hn, List.dropLast_concat, h2] at hi
      simp [Except.map] at hi

example : (createDataset noFields exTree ['/'] "a/x/y".toList (.ok 1)).2 = some .typeError ∧
    (createDataset noFields exTree ['/'] "a/y".toList (.error .valueError)).2 = some .valueError ∧
    components ['/'] "a".toList = (components ['/'] "a/y".toList).dropLast := by decide

/-- **C125** After a `create_dataset` that raised the call can be repeated, with the same tree and the same outcome as
if it had not been made. -/
theorem C125_again (root root' : Node V δ) (hroot : ∃ a k, root = .group a k) (g n : Str) (hg : isAbs g = true)
    (make make' : Except Err δ) (e : Err) (h : createDataset fields root g n make = (root', some e)) :
    createDataset fields root' g n make' = createDataset fields root g n make' := by
  rcases createDataset_error fields root root' hroot g n hg make e h with rfl | ⟨_, hc⟩
  · rfl
  · obtain ⟨_, h2, _, h4, _⟩ := createGroup_sees fields root root' hroot g _ hg hc
    obtain ⟨a, k, ha⟩ := h4 _ List.prefix_rfl
    have h5 : requireGroup fields root g (parentOf g n) = (root', none) := by
      unfold requireGroup
      rw [getItem_eq _ _ _ _ hg, h2]
      exact hc
    rw [createDataset_eq fields root' g n hg, createDataset_eq fields root g n hg,
      requireGroup_there fields root' g _ hg a k ha, h5]

/-- **C125** (partial) The same for `require_dataset`.

Missing: names that end in a slash, `C125_slash_violated`. -/
theorem C125_again_require_partial (root root' : Node V δ) (hroot : ∃ a k, root = .group a k) (g n : Str)
    (hg : isAbs g = true) (hn : PlainEnd n) (make make' : Except Err δ) (e : Err)
    (h : requireDataset fields root g n make = (root', some e)) :
    requireDataset fields root' g n make' = requireDataset fields root g n make' := by
  have hd := fun g' q hg' => C125_datasets_partial fields root root' hroot g n hg hn make e (.inr h) g' q hg'
  have h0 := h
  unfold requireDataset at h
  cases hgi : getItem fields root g n with
  | ok o =>
    rw [hgi] at h
    simp only at h
    by_cases ho : o.isGroup = true
    · rw [if_pos ho] at h; rw [(Prod.mk.inj h).1]
    · rw [if_neg ho] at h; simp at h
  | error e' =>
    rw [hgi] at h
    by_cases he : e' = .keyError
    · subst he
      simp only at h
      have hs : see fields root g n = .error .keyError := by unfold see; rw [hgi]; rfl
      have hs' : see fields root' g n = .error .keyError :=
        Classical.byContradiction fun hne => ((hd g n hg).2 hs hne).2.2 rfl
      have hgi' : getItem fields root' g n = .error .keyError := by
        unfold see at hs'
        cases hq : getItem fields root' g n with
        | error e => rw [hq] at hs'; simpa [Except.map] using hs'
        | ok o => rw [hq] at hs'; simp [Except.map] at hs'
      unfold requireDataset
      rw [hgi, hgi']
      exact C125_again fields root root' hroot g n hg make make' e h
    · have : (root, some e') = (root', some e) := by
        cases e' <;> first | exact absurd rfl he | exact h
      rw [(Prod.mk.inj this).1]

example : (createDataset noFields (createDataset noFields exTree ['/'] "new/y".toList (.error .typeError)).1 ['/']
    "new/y".toList (.ok 5)).2 = none := rfl

/-- **C125 fails**: a `create_dataset` that raises leaves the groups on the way, and a `create_group` that would have
succeeded raises afterwards. -/
theorem C125_left_violated (e : Err) :
    see noFields exTree ['/'] "new".toList = .error .keyError ∧
    (createDataset noFields exTree ['/'] "new/y".toList (.error e)).2 = some e ∧
    see noFields (createDataset noFields exTree ['/'] "new/y".toList (.error e)).1 ['/'] "new".toList = .ok (.group []) ∧
    (createGroup noFields exTree ['/'] "new".toList).2 = none ∧
    (createGroup noFields (createDataset noFields exTree ['/'] "new/y".toList (.error e)).1 ['/'] "new".toList).2 =
      some .valueError := ⟨rfl, rfl, rfl, rfl, rfl⟩

/-- **C125 fails** for `require_dataset` with a name that ends in a slash: the call that raised leaves a group of that
name, so that the next one raises too. -/
theorem C125_slash_violated (e : Err) (d : Nat) :
    (requireDataset noFields exTree ['/'] "y/".toList (.error e)).2 = some e ∧
    (requireDataset noFields exTree ['/'] "y/".toList (.ok d)).2 = none ∧
    (requireDataset noFields (requireDataset noFields exTree ['/'] "y/".toList (.error e)).1 ['/'] "y/".toList
      (.ok d)).2 = some .typeError := ⟨rfl, rfl, rfl⟩

end Verif.Mem
