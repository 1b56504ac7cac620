import Verif.Mem.Lemmas
import Verif.Mem.Copy

namespace Verif.Mem

/-! ## Specification -/

/-- The node at a path, by components. -/
def nodeAt {V δ : Type} : Node V δ → List Str → Option (Node V δ)
  | n, [] => some n
  | .dset _, _ :: _ => none
  | .group _ kids, k :: ks =>
    match kids.lookup k with
    | some c => nodeAt c ks
    | none => none

/-- A tree as dictionaries make it: no key twice; all names are non-empty and without slash; no
attribute twice. -/
def Tidy {V δ : Type} (n : Node V δ) : Prop :=
  ∀ P a kids, nodeAt n P = some (.group a kids) →
    (kids.map Prod.fst).Nodup ∧ (∀ x ∈ kids, x.1 ≠ [] ∧ '/' ∉ x.1) ∧ (a.map Prod.fst).Nodup

variable {V δ : Type}

theorem nodeAt_crawl (fields : δ → List Str → Option FieldErr) (n m : Node V δ) (P : List Str)
    (h : nodeAt n P = some m) : crawl fields (.node n) P = .ok (.node m) := by
  induction P generalizing n with
  | nil => simp only [nodeAt, Option.some.injEq] at h; subst h; rfl
  | cons k ks ih =>
    match n with
    | .dset d => simp [nodeAt] at h
    | .group a kids =>
      rw [crawl_group_cons]
      simp only [nodeAt] at h
      cases hl : kids.lookup k with
      | none => rw [hl] at h; simp at h
      | some c => rw [hl] at h; exact ih c h

theorem nodeAt_append (n : Node V δ) (P Q : List Str) :
    nodeAt n (P ++ Q) = (nodeAt n P).bind fun m => nodeAt m Q := by
  induction P generalizing n with
  | nil => simp [nodeAt]
  | cons k ks ih =>
    match n with
    | .dset d => simp [nodeAt]
    | .group a kids =>
      simp only [List.cons_append, nodeAt]
      cases kids.lookup k with
      | none => rfl
      | some c => exact ih c

theorem nodeAt_insert_below (c : Str) (n : Node V δ) (E : List Str) (root : Node V δ)
    (a : List (Str × V)) (kids : List (Str × Node V δ))
    (h : nodeAt root E = some (.group a kids)) (Q : List Str) :
    nodeAt (insertAt c n E root) (E ++ c :: Q) = nodeAt n Q := by
  induction E generalizing root with
  | nil =>
    simp only [nodeAt, Option.some.injEq] at h
    subst h
    show nodeAt (.group a (setKid c n kids)) (c :: Q) = _
    simp only [nodeAt, lookup_setKid, if_true]
  | cons p E ih =>
    match root with
    | .dset d => simp [nodeAt] at h
    | .group a0 kids0 =>
      simp only [nodeAt] at h
      cases hl : kids0.lookup p with
      | none => rw [hl] at h; simp at h
      | some ch =>
        rw [hl] at h
        rw [insertAt, hl]
        simp only [List.cons_append, nodeAt, lookup_setKid, if_true]
        exact ih ch h

/-- What is at a node, apart from what is below. -/
def Node.tip : Node V δ → List (Str × V) ⊕ δ
  | .group a _ => .inl a
  | .dset d => .inr d

theorem nodeAt_insert_other (c : Str) (n : Node V δ) (E : List Str) (root : Node V δ)
    (Q : List Str) (hQ : ¬ (E ++ [c]) <+: Q) :
    (nodeAt (insertAt c n E root) Q).map Node.tip = (nodeAt root Q).map Node.tip := by
  induction E generalizing root Q with
  | nil =>
    match root with
    | .dset d => rfl
    | .group a kids =>
      show (nodeAt (.group a (setKid c n kids)) Q).map _ = _
      cases Q with
      | nil => rfl
      | cons k Q =>
        have : k ≠ c := by rintro rfl; exact hQ ⟨Q, rfl⟩
        simp only [nodeAt, lookup_setKid, if_neg this]
  | cons p E ih =>
    match root with
    | .dset d => cases Q <;> rfl
    | .group a0 kids0 =>
      cases hl : kids0.lookup p with
      | none => rw [insertAt, hl]
      | some ch =>
        rw [insertAt, hl]
        cases Q with
        | nil => rfl
        | cons k Q =>
          simp only [nodeAt, lookup_setKid]
          by_cases hk : k = p
          · subst hk
            rw [if_pos rfl, hl]
            exact ih ch Q (fun hp => hQ (by
              rw [List.cons_append]; exact List.cons_prefix_cons.2 ⟨rfl, hp⟩))
          · rw [if_neg hk]

theorem setAttrs_insert (a' : List (Str × V)) (c : Str) (E : List Str) (root : Node V δ)
    (a b : List (Str × V)) (kids k2 : List (Str × Node V δ))
    (h : nodeAt root E = some (.group a kids)) :
    setAttrsAt a' (E ++ [c]) (insertAt c (.group b k2) E root) = insertAt c (.group a' k2) E root := by
  induction E generalizing root with
  | nil =>
    simp only [nodeAt, Option.some.injEq] at h
    subst h
    show setAttrsAt a' [c] (.group a (setKid c (.group b k2) kids)) = .group a (setKid c (.group a' k2) kids)
    rw [setAttrsAt, lookup_setKid, if_pos rfl]
    simp only [setAttrsAt]
    rw [setKid_setKid]
  | cons p E ih =>
    match root with
    | .dset d => simp [nodeAt] at h
    | .group a0 kids0 =>
      simp only [nodeAt] at h
      cases hl : kids0.lookup p with
      | none => rw [hl] at h; simp at h
      | some ch =>
        rw [hl] at h
        have hi : ∀ m, insertAt c m (p :: E) (.group a0 kids0) =
            .group a0 (setKid p (insertAt c m E ch) kids0) := by
          intro m; rw [insertAt, hl]
        rw [hi, hi, List.cons_append, setAttrsAt, lookup_setKid, if_pos rfl]
        simp only
        rw [setKid_setKid, ih ch h]

/-! ## Creating at a path whose parent exists -/

theorem plainEnd_render (E : List Str) (c : Str) (hp : ∀ p ∈ E ++ [c], Part p) :
    PlainEnd (render (E ++ [c])) := by
  have hc := hp c (by simp)
  unfold render PlainEnd
  rw [if_neg (by simp), List.flatMap_append]
  refine ⟨by simp, ?_⟩
  rw [List.getLast?_append]
  have : ([c].flatMap fun p => '/' :: p) = '/' :: c := by simp
  rw [this, List.getLast?_cons, List.getLast?_eq_some_getLast hc.1]
  simp only [Option.getD_some, Option.some_or]
  intro e
  exact hc.2 (Option.some.inj e ▸ List.getLast_mem hc.1)

theorem components_render (E : List Str) (hp : ∀ p ∈ E, Part p) :
    components ['/'] (render E) = E := by
  rw [components_abs _ _ (isAbs_render _), parts_render E hp]

theorem join_render (E : List Str) : joinPath ['/'] (render E) = render E := by
  unfold joinPath
  rw [isAbs_render]
  rfl

theorem split_render (E : List Str) (c : Str) (hp : ∀ p ∈ E ++ [c], Part p) :
    parts (splitPath (joinPath ['/'] (render (E ++ [c])))).1 = E ∧
      (splitPath (joinPath ['/'] (render (E ++ [c])))).2 = c := by
  have h := split_join_components ['/'] (render (E ++ [c])) rfl (plainEnd_render E c hp)
  rw [components_render _ hp] at h
  have h1 := List.append_inj_left' h (by simp)
  have h2 := List.append_inj_right' h (by simp)
  exact ⟨h1.symm, by simpa using h2.symm⟩

variable (fields : δ → List Str → Option FieldErr)

theorem getItem_render (root m : Node V δ) (P : List Str) (hp : ∀ p ∈ P, Part p)
    (h : nodeAt root P = some m) : getItem fields root ['/'] (render P) = .ok (.node m) := by
  rw [getItem_eq _ _ _ _ rfl, components_render P hp]
  exact nodeAt_crawl fields root m P h

theorem createGroup_at (root : Node V δ) (E : List Str) (c : Str) (hp : ∀ p ∈ E ++ [c], Part p)
    (a : List (Str × V)) (kids : List (Str × Node V δ)) (h : nodeAt root E = some (.group a kids))
    (hl : kids.lookup c = none) :
    createGroup fields root ['/'] (render (E ++ [c])) = (insertAt c (.group [] []) E root, none) := by
  have hroot : ∃ a k, root = .group a k := by
    match root with
    | .group a k => exact ⟨a, k, rfl⟩
    | .dset d => cases E <;> simp [nodeAt] at h
  have hE := nodeAt_crawl fields root _ E h
  have hkey : crawl fields (.node root) (components ['/'] (render (E ++ [c]))) = .error .keyError := by
    rw [components_render _ hp, crawl_append, hE]
    show crawl fields _ [c] = _
    rw [crawl_group_cons, hl]
  rcases createGroup_cases fields root hroot ['/'] (render (E ++ [c])) rfl with
    ⟨e, _, hne⟩ | ⟨_, E', c', C', a', kids', hc, hE', hl', hr⟩
  · exact absurd hkey hne
  · rw [components_render _ hp] at hc
    rcases List.eq_nil_or_concat C' with rfl | ⟨C'', x, rfl⟩
    · have h1 := List.append_inj_left' hc (by simp)
      have h2 := List.append_inj_right' hc (by simp)
      simp only [List.cons.injEq, and_true] at h2
      subst h1 h2
      exact hr
    · exfalso
      rw [List.concat_eq_append] at hc
      have h1 : E = E' ++ c' :: C'' := by
        have : E ++ [c] = (E' ++ c' :: C'') ++ [x] := by rw [hc]; simp
        exact List.append_inj_left' this (by simp)
      rw [h1, crawl_append, hE'] at hE
      have : crawl fields (.node (.group a' kids')) (c' :: C'') = .ok (.node (.group a kids)) := hE
      rw [crawl_group_cons, hl'] at this
      simp at this

theorem createDataset_at (root : Node V δ) (E : List Str) (c : Str) (hp : ∀ p ∈ E ++ [c], Part p)
    (a : List (Str × V)) (kids : List (Str × Node V δ)) (h : nodeAt root E = some (.group a kids))
    (d : δ) :
    createDataset fields root ['/'] (render (E ++ [c])) (.ok d) =
      (insertAt c (.dset d) E root, none) := by
  obtain ⟨h1, h2⟩ := split_render E c hp
  unfold createDataset
  rw [formatAbs_ok _ (isAbs_split _ (isAbs_join _ _ rfl)), h1, h2]
  simp only
  have hpE : ∀ p ∈ E, Part p := fun p hm => hp p (by simp [hm])
  have hrg : requireGroup fields root ['/'] (render E) = (root, none) := by
    unfold requireGroup
    rw [getItem_render fields root _ E hpE h]
    rfl
  rw [hrg, parts_render E hpE]

/-! ## Attributes -/

theorem lookup_setAttr (k k' : Str) (v : V) (l : List (Str × V)) :
    (setAttr k v l).lookup k' = if k' = k then some v else l.lookup k' := by
  induction l with
  | nil =>
    simp only [setAttr, List.lookup]
    by_cases h : k' = k
    · subst h; simp
    · rw [beq_eq_false_iff_ne.2 h]; simp [h]
  | cons x xs ih =>
    obtain ⟨a, b⟩ := x
    simp only [setAttr]
    by_cases ha : a = k
    · subst ha
      rw [if_pos rfl]
      simp only [List.lookup]
      by_cases h : k' = a
      · subst h; simp
      · rw [beq_eq_false_iff_ne.2 h]; simp [h]
    · rw [if_neg ha]
      simp only [List.lookup]
      by_cases h : k' = a
      · subst h; simp [ha]
      · rw [beq_eq_false_iff_ne.2 h]
        simp only
        exact ih

theorem lookup_eq_some_iff {β : Type} (l : List (Str × β)) (hn : (l.map Prod.fst).Nodup) (k : Str)
    (v : β) : l.lookup k = some v ↔ (k, v) ∈ l := by
  induction l with
  | nil => simp
  | cons x xs ih =>
    obtain ⟨a, b⟩ := x
    rw [List.map_cons, List.nodup_cons] at hn
    by_cases h : k = a
    · subst h
      simp only [List.lookup, beq_self_eq_true, Option.some.injEq, List.mem_cons, Prod.mk.injEq,
        true_and]
      constructor
      · intro e; exact .inl e.symm
      · rintro (e | e)
        · exact e.symm
        · exact absurd (List.mem_map_of_mem (f := Prod.fst) e) hn.1
    · simp only [List.lookup, beq_eq_false_iff_ne.2 h, List.mem_cons, Prod.mk.injEq, h, false_and,
        false_or]
      exact ih hn.2

theorem lookup_none_iff {β : Type} (l : List (Str × β)) (k : Str) :
    l.lookup k = none ↔ k ∉ l.map Prod.fst := by
  induction l with
  | nil => simp
  | cons x xs ih =>
    obtain ⟨a, b⟩ := x
    by_cases h : k = a
    · subst h; simp
    · simp [List.lookup, beq_eq_false_iff_ne.2 h, h, ih]

theorem lookup_perm {β : Type} (l l' : List (Str × β)) (hp : l.Perm l')
    (hn : (l.map Prod.fst).Nodup) (k : Str) : l.lookup k = l'.lookup k := by
  have hn' : (l'.map Prod.fst).Nodup := (hp.map Prod.fst).nodup_iff.1 hn
  cases h : l'.lookup k with
  | some v =>
    rw [lookup_eq_some_iff l hn]
    rw [lookup_eq_some_iff l' hn'] at h
    exact hp.mem_iff.2 h
  | none =>
    rw [lookup_none_iff] at h ⊢
    exact fun hm => h ((hp.map Prod.fst).mem_iff.1 hm)

theorem insertKey_perm {β : Type} (x : Str × β) (l : List (Str × β)) :
    (insertKey x l).Perm (x :: l) := by
  induction l with
  | nil => exact List.Perm.refl _
  | cons y t ih =>
    unfold insertKey
    split
    · exact List.Perm.refl _
    · exact (ih.cons y).trans (List.Perm.swap x y t)

theorem sortKeys_perm {β : Type} (l : List (Str × β)) : (sortKeys l).Perm l := by
  induction l with
  | nil => exact List.Perm.refl _
  | cons x t ih =>
    exact (insertKey_perm x (sortKeys t)).trans (ih.cons x)

theorem foldl_copyAttr (conv : V → Except Err V) (l acc out : List (Str × V))
    (hn : (l.map Prod.fst).Nodup) (h : l.foldlM (copyAttr conv) acc = .ok out) (k : Str) :
    (∀ v, l.lookup k = some v → ∃ w, conv v = .ok w ∧ out.lookup k = some w) ∧
    (l.lookup k = none → out.lookup k = acc.lookup k) := by
  induction l generalizing acc with
  | nil =>
    rw [List.foldlM_nil] at h
    have : acc = out := by injection h
    subst this
    simp
  | cons x xs ih =>
    obtain ⟨a, b⟩ := x
    rw [List.map_cons, List.nodup_cons] at hn
    rw [List.foldlM_cons] at h
    unfold copyAttr at h
    cases hc : conv b with
    | error e => rw [hc] at h; simp [bind, Except.bind] at h
    | ok w =>
      rw [hc] at h
      have h' : xs.foldlM (copyAttr conv) (setAttr a w acc) = .ok out := h
      obtain ⟨i1, i2⟩ := ih _ hn.2 h'
      by_cases hk : k = a
      · subst hk
        have hnone : xs.lookup k = none := (lookup_none_iff xs k).2 hn.1
        have := i2 hnone
        rw [lookup_setAttr, if_pos rfl] at this
        constructor
        · intro v hv
          simp only [List.lookup, beq_self_eq_true, Option.some.injEq] at hv
          subst hv
          exact ⟨w, hc, this⟩
        · intro hv
          simp [List.lookup] at hv
      · simp only [List.lookup, beq_eq_false_iff_ne.2 hk]
        rw [lookup_setAttr, if_neg hk] at i2
        exact ⟨i1, i2⟩

/-- The attributes of a copy: the same keys, with converted values. -/
def AttrsCopied (conv : V → Except Err V) (a a' : List (Str × V)) : Prop :=
  ∀ k, (∀ v, a.lookup k = some v → ∃ w, conv v = .ok w ∧ a'.lookup k = some w) ∧
    (a.lookup k = none → a'.lookup k = none)

theorem copyAttrs_copied (conv : V → Except Err V) (a out : List (Str × V))
    (hn : (a.map Prod.fst).Nodup) (h : copyAttrs conv a [] = .ok out) : AttrsCopied conv a out := by
  intro k
  unfold copyAttrs at h
  have hp := sortKeys_perm a
  have hn' : ((sortKeys a).map Prod.fst).Nodup := (hp.map Prod.fst).nodup_iff.2 hn
  have := foldl_copyAttr conv (sortKeys a) [] out hn' h k
  rw [lookup_perm _ _ hp hn'] at this
  exact this

theorem copyAttrs_ok (conv : V → Except Err V) (a acc : List (Str × V))
    (h : ∀ x ∈ a, ∃ w, conv x.2 = .ok w) : ∃ out, copyAttrs conv a acc = .ok out := by
  unfold copyAttrs
  have hm : ∀ x ∈ sortKeys a, ∃ w, conv x.2 = .ok w :=
    fun x hx => h x ((sortKeys_perm a).mem_iff.1 hx)
  generalize sortKeys a = l at hm
  induction l generalizing acc with
  | nil => exact ⟨acc, rfl⟩
  | cons x xs ih =>
    obtain ⟨w, hw⟩ := hm x (by simp)
    rw [List.foldlM_cons]
    unfold copyAttr
    rw [hw]
    exact ih _ (fun y hy => hm y (List.mem_cons_of_mem _ hy))

end Verif.Mem
