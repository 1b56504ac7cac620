import Verif.Mem.Lemmas

/-!
# Lemmas for C125
-/
namespace Verif.Mem
variable {V δ : Type} (fields : δ → List Str → Option FieldErr)

theorem requireGroup_error (root root' : Node V δ) (hroot : ∃ a k, root = .group a k) (g n : Str)
    (hg : isAbs g = true) (e : Err) (h : requireGroup fields root g n = (root', some e)) : root' = root := by
  unfold requireGroup at h
  cases hgi : getItem fields root g n with
  | ok o =>
    rw [hgi] at h
    simp only at h
    by_cases ho : o.isGroup = true
    · rw [if_pos ho] at h; simp at h
    · rw [if_neg ho] at h; exact (Prod.mk.inj h).1.symm
  | error e' =>
    rw [hgi] at h
    by_cases he : e' = .keyError
    · subst he
      exact createGroup_error fields root root' hroot g n hg e h
    · have : (root, some e') = (root', some e) := by
        cases e' <;> first | exact absurd rfl he | exact h
      exact (Prod.mk.inj this).1.symm

theorem delItem_error (root root' : Node V δ) (g n : Str) (e : Err)
    (h : delItem fields root g n = (root', some e)) : root' = root := by
  unfold delItem at h
  split at h
  · exact (Prod.mk.inj h).1.symm
  · simp only at h
    split at h
    · exact (Prod.mk.inj h).1.symm
    · split at h
      · simp at h
      · exact (Prod.mk.inj h).1.symm
    · exact (Prod.mk.inj h).1.symm

/-- `require_group` that succeeds: either the group was there and nothing happens, or it is made. -/
theorem requireGroup_none (root root' : Node V δ) (g n : Str) (hg : isAbs g = true)
    (h : requireGroup fields root g n = (root', none)) :
    (root' = root ∧ ∃ a k, crawl fields (.node root) (components g n) = .ok (.node (.group a k))) ∨
      createGroup fields root g n = (root', none) := by
  unfold requireGroup at h
  rw [getItem_eq _ _ _ _ hg] at h
  cases hc : crawl fields (.node root) (components g n) with
  | ok o =>
    rw [hc] at h
    simp only at h
    by_cases ho : o.isGroup = true
    · rw [if_pos ho] at h
      match o, ho with
      | .node (.group a k), _ => exact .inl ⟨(Prod.mk.inj h).1.symm, a, k, rfl⟩
    · rw [if_neg ho] at h; simp at h
  | error e =>
    rw [hc] at h
    by_cases he : e = .keyError
    · subst he; exact .inr h
    · have : (root, some e) = (root', none) := by
        cases e <;> first | exact absurd rfl he | exact h
      simp at this

/-- `require_group` of a group that is there. -/
theorem requireGroup_there (root : Node V δ) (g n : Str) (hg : isAbs g = true) (a : List (Str × V))
    (k : List (Str × Node V δ)) (h : crawl fields (.node root) (components g n) = .ok (.node (.group a k))) :
    requireGroup fields root g n = (root, none) := by
  unfold requireGroup
  rw [getItem_eq _ _ _ _ hg, h]
  rfl

/-- The canonical path of the group that holds the object with a name. -/
def parentOf (g n : Str) : Str := render (parts (splitPath (joinPath g n)).1)

theorem isAbs_parentOf (g n : Str) : isAbs (parentOf g n) = true := isAbs_render _

theorem components_parentOf (g n : Str) : components g (parentOf g n) = parts (splitPath (joinPath g n)).1 := by
  rw [components_abs _ _ (isAbs_parentOf g n), parentOf, parts_render _ (fun q hq => parts_mem _ q hq)]

theorem createDataset_eq (root : Node V δ) (g n : Str) (hg : isAbs g = true) (make : Except Err δ) :
    createDataset fields root g n make =
      match requireGroup fields root g (parentOf g n) with
      | (root1, some e) => (root1, some e)
      | (root1, none) =>
        match make with
        | .error e => (root1, some e)
        | .ok d => (insertAt (splitPath (joinPath g n)).2 (.dset d) (parts (parentOf g n)) root1, none) := by
  unfold createDataset
  rw [formatAbs_ok _ (isAbs_split _ (isAbs_join g n hg))]
  rfl

/-- A `create_dataset` that raises either does nothing, or makes the groups on the way. -/
theorem createDataset_error (root root' : Node V δ) (hroot : ∃ a k, root = .group a k) (g n : Str)
    (hg : isAbs g = true) (make : Except Err δ) (e : Err)
    (h : createDataset fields root g n make = (root', some e)) :
    root' = root ∨ (make = .error e ∧ createGroup fields root g (parentOf g n) = (root', none)) := by
  rw [createDataset_eq fields root g n hg] at h
  cases hrg : requireGroup fields root g (parentOf g n) with
  | mk root1 r1 =>
    rw [hrg] at h
    cases r1 with
    | some e1 =>
      simp only at h
      have := requireGroup_error fields root root1 hroot g _ hg e1 hrg
      exact .inl ((Prod.mk.inj h).1.symm.trans this)
    | none =>
      simp only at h
      cases make with
      | ok d => simp at h
      | error e' =>
        simp only at h
        obtain ⟨rfl, he⟩ := Prod.mk.inj h
        cases he
        rcases requireGroup_none fields root root1 g _ hg hrg with ⟨h1, _⟩ | h1
        · exact .inl h1
        · exact .inr ⟨rfl, h1⟩

theorem crawl_chain_group (C Q : List Str) (h : Q <+: C) :
    ∃ k, crawl fields (.node (chain C : Node V δ)) Q = .ok (.node (.group [] k)) := by
  induction C generalizing Q with
  | nil =>
    rw [List.prefix_nil] at h
    subst h
    exact ⟨_, rfl⟩
  | cons c C ih =>
    cases Q with
    | nil => exact ⟨_, rfl⟩
    | cons q Q =>
      obtain ⟨rfl, hp⟩ := List.cons_prefix_cons.1 h
      rw [chain, crawl_group_cons]
      simp only [List.lookup, beq_self_eq_true]
      exact ih Q hp

/-- What `create_group` adds are groups without attributes. -/
theorem createGroup_adds (root root' : Node V δ) (hroot : ∃ a k, root = .group a k) (g n : Str)
    (hg : isAbs g = true) (h : createGroup fields root g n = (root', none)) (Q : List Str)
    (hk : crawl fields (.node root) Q = .error .keyError) :
    crawl fields (.node root') Q = .error .keyError ∨
      (Q <+: components g n ∧ ∃ k, crawl fields (.node root') Q = .ok (.node (.group [] k))) := by
  rcases createGroup_cases fields root hroot g n hg with ⟨e, he, _⟩ | ⟨_, E, c, C, a, kids, hc, hE, hl, hr⟩
  · rw [he] at h
    simp at h
  · rw [hr] at h
    obtain ⟨rfl, _⟩ := Prod.mk.inj h
    obtain ⟨i1, i2, i3, i4⟩ := crawl_insert fields c (chain C) E root a kids hE
    by_cases hp : (E ++ [c]) <+: Q
    · obtain ⟨Q', rfl⟩ := hp
      rw [List.append_assoc, List.singleton_append, i1 Q', hc]
      by_cases hq : Q' <+: C
      · right
        refine ⟨?_, crawl_chain_group fields C Q' hq⟩
        obtain ⟨t, rfl⟩ := hq
        exact ⟨t, by simp⟩
      · exact .inl (crawl_chain_other fields C Q' hq)
    · left
      have := i2 Q hp
      rw [hk] at this
      cases hq : crawl fields (.node (insertAt c (chain C) E root)) Q with
      | error e => rw [hq] at this; simpa [Except.map] using this
      | ok o => rw [hq] at this; simp [Except.map] at this

end Verif.Mem
