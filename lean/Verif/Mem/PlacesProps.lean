import Verif.Mem.PlacesOwn

/-!
# C103: objects in memory know where they are, and are equal if they are the same

`W` is any state that a program can arrive at, `t` any tree, `g` the (absolute) name of any group object.
-/
namespace Verif.Mem.Places
variable {V α : Type} (fields : Named → List Str → Option FieldErr)

/-- C103. The name of what is found is its path: a slash, and the components joined by slashes, whatever slashes the
program wrote; and it belongs to the tree. -/
theorem C103_name (W : World V α) (hW : Reach fields W) (t : Nat) (g n : Str) (hg : isAbs g = true) (h : Handle)
    (hh : W.get fields t g n = .ok (.obj h)) : h.name = pathName (components g n) ∧ h.tree = some t := by
  rw [pathName_eq]
  rcases (get_obj fields W t g n hg h).1 hh with ⟨a, k, _, rfl⟩ | ⟨d, hc, rfl⟩
  · exact ⟨rfl, rfl⟩
  · exact ⟨(good_reach fields W hW t).2 _ d (fun p hp => components_mem g n p hp) hc, rfl⟩

/-- C103. `x.file[x.name]` is `x`, as is `y[x.name]` for any other group `y` of the tree. -/
theorem C103_again (W : World V α) (hW : Reach fields W) (t : Nat) (g n : Str) (hg : isAbs g = true) (h : Handle)
    (hh : W.get fields t g n = .ok (.obj h)) (g' : Str) (hg' : isAbs g' = true) :
    h.file = (some t, ['/']) ∧ W.get fields t g' h.name = .ok (.obj h) := by
  obtain ⟨hn, ht⟩ := C103_name fields W hW t g n hg h hh
  refine ⟨by rw [Handle.file, ht], ?_⟩
  have hc : components g' h.name = components g n := by
    rw [hn, pathName_eq, components_abs _ _ (isAbs_render _), parts_render _ (fun p hp => components_mem g n p hp)]
  rw [get_obj fields W t g' h.name hg', hc]
  exact (get_obj fields W t g n hg h).1 hh

/-- C103. The parent of what is found is the group that it is in: it is there, and has the object under the last
component of its name. -/
theorem C103_parent (W : World V α) (hW : Reach fields W) (t : Nat) (g n : Str) (hg : isAbs g = true) (h : Handle)
    (hh : W.get fields t g n = .ok (.obj h)) (E : List Str) (c : Str) (hc : components g n = E ++ [c]) :
    h.parent = (some t, pathName E) ∧ W.get fields t ['/'] h.parent.2 = .ok (.obj (.group t h.parent.2)) ∧
      W.get fields t h.parent.2 c = .ok (.obj h) := by
  obtain ⟨hn, ht⟩ := C103_name fields W hW t g n hg h hh
  have hp : ∀ p ∈ E ++ [c], Part p := by rw [← hc]; exact fun p hp => components_mem g n p hp
  have hE : ∀ p ∈ E, Part p := fun p h => hp p (by simp [h])
  have hcp : Part c := hp c (by simp)
  have hpar : h.parent = (some t, render E) := by
    rw [Handle.parent, ht, hn, pathName_eq, hc, split_render E c hE hcp]
  have hnabs : c.head? ≠ some '/' := by
    intro e
    cases c with
    | nil => simp at e
    | cons x xs =>
      have hx : x = '/' := by simpa using e
      exact hcp.2 (by simp [hx])
  have hcc : components (render E) c = components g n := by
    unfold components
    rw [if_neg hnabs, parts_render E hE, parts_part c hcp]
    exact hc.symm
  rw [hpar, pathName_eq]
  refine ⟨rfl, ?_, ?_⟩
  · show W.get fields t ['/'] (render E) = .ok (.obj (.group t (render E)))
    have hcr : components ['/'] (render E) = E := by
      rw [components_abs _ _ (isAbs_render E), parts_render E hE]
    rw [get_obj fields W t ['/'] (render E) rfl, hcr]
    refine .inl ?_
    have hok : ∃ o, crawl fields (.node (W.trees t)) (E ++ [c]) = .ok (.node o) := by
      rw [← hc]
      rcases (get_obj fields W t g n hg h).1 hh with ⟨a, k, hk, _⟩ | ⟨d, hk, _⟩ <;> exact ⟨_, hk⟩
    obtain ⟨o, ho⟩ := hok
    rw [crawl_append] at ho
    match hcE : crawl fields (.node (W.trees t)) E, ho with
    | .error e, ho => simp [Except.bind] at ho
    | .ok (.node (.group a k)), _ => exact ⟨a, k, rfl, rfl⟩
    | .ok (.node (.dset d)), ho =>
      simp only [Except.bind, crawl, index] at ho
      cases hf : fields d [c] with
      | none => rw [hf] at ho; simp at ho
      | some e => rw [hf] at ho; simp at ho
    | .ok (.field d fs), ho =>
      simp only [Except.bind, crawl, index] at ho
      cases hf : fields d (fs ++ [c]) with
      | none => rw [hf] at ho; simp at ho
      | some e => rw [hf] at ho; simp at ho
  · show W.get fields t (render E) c = .ok (.obj h)
    rw [get_obj fields W t (render E) c (isAbs_render E), hcc]
    exact (get_obj fields W t g n hg h).1 hh

/-- C103. The parent of the root is the root. -/
theorem C103_root (W : World V α) (hW : Reach fields W) (t : Nat) (g n : Str) (hg : isAbs g = true) (h : Handle)
    (hh : W.get fields t g n = .ok (.obj h)) (hc : components g n = []) :
    h = .group t ['/'] ∧ h.parent = (some t, ['/']) := by
  rcases (get_obj fields W t g n hg h).1 hh with ⟨a, k, _, rfl⟩ | ⟨d, hd, rfl⟩
  · rw [hc]; exact ⟨rfl, congrArg (Prod.mk (some t)) (by decide : (splitPath (render [])).1 = ['/'])⟩
  · obtain ⟨a, k, hk⟩ := (good_reach fields W hW t).1
    rw [hc, hk] at hd
    simp [crawl] at hd

/-- C103. Two objects that are found at the same time are equal exactly if they are in the same tree under the same
path. It is assumed that what contents a dataset has are equal to themselves. -/
theorem C103_equal (same : α → α → Bool) (hs : ∀ a, same a a = true) (W : World V α) (hW : Reach fields W)
    (t t' : Nat) (g n g' n' : Str) (hg : isAbs g = true) (hg' : isAbs g' = true) (h h' : Handle)
    (hh : W.get fields t g n = .ok (.obj h)) (hh' : W.get fields t' g' n' = .ok (.obj h')) :
    W.eq same h h' = true ↔ t = t' ∧ components g n = components g' n' := by
  obtain ⟨hn, ht⟩ := C103_name fields W hW t g n hg h hh
  obtain ⟨hn', ht'⟩ := C103_name fields W hW t' g' n' hg' h' hh'
  have inj : h.name = h'.name → components g n = components g' n' := by
    intro e
    rw [hn, hn', pathName_eq, pathName_eq] at e
    rw [← parts_render _ (fun p hp => components_mem g n p hp), e,
      parts_render _ (fun p hp => components_mem g' n' p hp)]
  constructor
  · intro he
    have : h.tree = h'.tree ∧ h.name = h'.name := by
      cases h with
      | group s m =>
        simp only [World.eq, Bool.and_eq_true, beq_iff_eq] at he
        exact he
      | dset s d =>
        cases h' with
        | group s' m' => simp [World.eq] at he
        | dset s' d' =>
          simp only [World.eq, Bool.and_eq_true, beq_iff_eq] at he
          exact he.1
    rw [ht, ht'] at this
    exact ⟨Option.some.inj this.1, inj this.2⟩
  · rintro ⟨rfl, hc⟩
    have : h = h' := by
      have a1 := (get_obj fields W t g n hg h).1 hh
      rw [hc] at a1
      have := (get_obj fields W t g' n' hg' h).2 a1
      rw [hh'] at this
      simpa using this.symm
    subst this
    cases h with
    | group s m =>
      simp only [World.eq, Bool.and_eq_true, beq_iff_eq]
      exact ⟨rfl, rfl⟩
    | dset s d => simp [World.eq, hs]

/-- C103. Creating a dataset under a name that does not end in a slash gives the new dataset, with its path as its
name; creating a group gives the group. -/
theorem C103_created_partial (W : World V α) (hW : Reach fields W) (t : Nat) (g n : Str) (hg : isAbs g = true) :
    (∀ a, PlainEnd n → ∀ W' r, W.createDataset fields t g n (.ok a) = (W', .ok r) →
      r = .obj (.dset (some t) ⟨pathName (components g n), W.next⟩) ∧ W'.cells W.next = a ∧
        W'.get fields t g n = .ok r) ∧
    ∀ W' r, W.createGroup fields t g n = (W', .ok r) →
      r = .obj (.group t (pathName (components g n))) ∧ W'.get fields t g n = .ok r := by
  have hgood := good_reach fields W hW t
  constructor
  · intro a hn W' r h
    unfold World.createDataset at h
    match hop : (Op.createDataset t g n (.ok a) : Op α).run fields W with
    | (W1, some e) => rw [hop] at h; simp at h
    | (W1, none) =>
      rw [hop] at h
      simp only [Prod.mk.injEq] at h
      obtain ⟨rfl, hget⟩ := h
      simp only [Op.run] at hop
      obtain ⟨hW1, hr⟩ := Prod.mk.inj hop
      have hcd : Mem.createDataset fields (W.trees t) g n (.ok ⟨storedName g n, W.next⟩) =
          (W1.trees t, none) := by
        rw [← hW1]
        show _ = (if t = t then _ else _, none)
        rw [if_pos rfl, ← hr]
        rfl
      obtain ⟨_, _, h3, _⟩ := createDataset_sees fields _ _ hgood.1 g n hg hn _ none hcd
      obtain ⟨d, hd, hQ⟩ := h3 rfl
      have h0 := hQ []
      rw [List.append_nil] at h0
      have hd' : d = ⟨storedName g n, W.next⟩ := (Except.ok.inj hd).symm
      have ht : (splitPath (joinPath g n)).2 ≠ [] := tailOf_ne _ (plainEnd_join g n hn)
      have hsn : storedName g n = render (components g n) := by
        rw [storedName_eq g n hg ht, split_join_components g n hg hn]
      have hc : components g (storedName g n) = components g n := by
        rw [hsn, components_abs _ _ (isAbs_render _), parts_render _ (fun p hp => components_mem g n p hp)]
      rw [get_eq fields W1 t g _ hg, hc, h0] at hget
      refine ⟨?_, ?_, ?_⟩
      · rw [pathName_eq, ← hsn, ← hd']
        simpa [crawl] using hget.symm
      · rw [← hW1]
        show (if W.next = W.next then a else _) = a
        rw [if_pos rfl]
      · rw [get_eq fields W1 t g _ hg, h0]
        exact hget
  · intro W' r h
    unfold World.createGroup at h
    match hop : (Op.createGroup t g n : Op α).run fields W with
    | (W1, some e) => rw [hop] at h; simp at h
    | (W1, none) =>
      rw [hop] at h
      simp only [Prod.mk.injEq] at h
      obtain ⟨rfl, hget⟩ := h
      simp only [Op.run] at hop
      obtain ⟨hW1, hr⟩ := Prod.mk.inj hop
      have hcg : Mem.createGroup fields (W.trees t) g n = (W1.trees t, none) := by
        rw [← hW1]
        show _ = (if t = t then _ else _, none)
        rw [if_pos rfl, ← hr]
      obtain ⟨_, _, _, h4, _⟩ := createGroup_sees fields _ _ hgood.1 g n hg hcg
      obtain ⟨a, k, hk⟩ := h4 _ (List.prefix_refl _)
      refine ⟨?_, hget⟩
      rw [get_eq fields W1 t g _ hg, hk] at hget
      rw [pathName_eq]
      simpa using hget.symm

/-- C103. A copy has the contents of the original, but as its own: whatever is done then, no dataset found in any tree and
no other copy has the same ones, so that writing to them does not change the copy, nor the other way round. -/
theorem C103_copy_own (W : World V α) (hW : Reach fields W) (h : Named) (W' : World V α)
    (hA : After fields (W.copyOf h).1 W') :
    (W.copyOf h).1.cells (W.copyOf h).2.cell = W.cells h.cell ∧
    (∀ t g n ot d, isAbs g = true → W'.get fields t g n = .ok (.obj (.dset ot d)) → d.cell ≠ (W.copyOf h).2.cell) ∧
    ∀ h', (W'.copyOf h').2.cell ≠ (W.copyOf h).2.cell := by
  have hr : Reach fields (W.copyOf h).1 := .step W (.copy h) hW trivial
  have hc := cells_reach fields W hW
  obtain ⟨h1, h2⟩ := after_ne fields hr hA W.next (Nat.lt_succ_self _)
    (fun t Q d hd => Nat.ne_of_lt (hc t Q d hd))
  refine ⟨?_, ?_, ?_⟩
  · show (if W.next = W.next then W.cells h.cell else _) = _
    rw [if_pos rfl]
  · intro t g n ot d hg hget
    rcases (get_obj fields W' t g n hg _).1 hget with ⟨_, _, _, he⟩ | ⟨d', hcr, he⟩
    · simp at he
    · have : d = d' := by simpa using (by simpa using he : ot = some t ∧ d = d').2
      rw [this]
      exact h2 t _ d' hcr
  · intro h'
    exact (Nat.ne_of_lt h1).symm

/-- C103. A new dataset has contents of its own: it is none of the datasets that could be found before in any tree. -/
theorem C103_new_own (W : World V α) (hW : Reach fields W) (t : Nat) (g n : Str) (hg : isAbs g = true) (a : α)
    (hn : PlainEnd n) (W' : World V α) (ot : Option Nat) (d : Named)
    (hr : W.createDataset fields t g n (.ok a) = (W', .ok (.obj (.dset ot d)))) :
    ∀ t' g' n' ot' d', isAbs g' = true → W.get fields t' g' n' = .ok (.obj (.dset ot' d')) → d'.cell ≠ d.cell := by
  intro t' g' n' ot' d' hg' hget
  obtain ⟨h1, _⟩ := (C103_created_partial fields W hW t g n hg).1 a hn W' _ hr
  have hd : d.cell = W.next := by
    simp only [Found.obj.injEq, Handle.dset.injEq] at h1
    rw [h1.2]
  rcases (get_obj fields W t' g' n' hg' _).1 hget with ⟨_, _, _, he⟩ | ⟨d1, hcr, he⟩
  · simp at he
  · have : d' = d1 := by simpa using (by simpa using he : ot' = some t' ∧ d' = d1).2
    rw [this, hd]
    exact Nat.ne_of_lt (cells_reach fields W hW t' _ d1 hcr)

/-! ## A program -/

def noArrays : Named → List Str → Option FieldErr := fun _ _ => some .indexError
def W0 : World Nat Nat := ⟨fun _ => .group [] [], fun _ => 0, 0⟩

/-- Two datasets in the first tree; one is shared with the second tree. -/
def exOps : List (Op Nat) :=
  [.createDataset 0 ['/'] "a//b/x".toList (.ok 7), .createDataset 0 "/a".toList "y".toList (.ok 7),
    .createGroup 1 ['/'] "a/b/".toList, .share 0 "a/b/x".toList 1 ['/']]

def exW : World Nat Nat := exOps.foldl (fun W op => (op.run noArrays W).1) W0

theorem exW_reach : Reach noArrays exW :=
  .step _ _ (.step _ _ (.step _ _ (.step _ _ (.start _ 0) (rfl : isAbs _ = true)) (rfl : isAbs _ = true))
    (rfl : isAbs _ = true)) (rfl : isAbs _ = true)

example : (exW.get noArrays 0 "/a".toList "b//x/".toList).toOption =
      some (.obj (.dset (some 0) ⟨"/a/b/x".toList, 0⟩)) ∧
    (exW.get noArrays 1 ['/'] "a/b/x".toList).toOption = some (.obj (.dset (some 1) ⟨"/a/b/x".toList, 0⟩)) ∧
    components "/a".toList "b//x/".toList = ["a".toList, "b".toList] ++ ["x".toList] ∧
    (Handle.dset (some 0) ⟨"/a/b/x".toList, 0⟩).parent = (some 0, "/a/b".toList) := by decide +kernel

example : exW.eq (· == ·) (.dset (some 0) ⟨"/a/b/x".toList, 0⟩) (.dset (some 1) ⟨"/a/b/x".toList, 0⟩) = false ∧
    exW.eq (· == ·) (.dset (some 0) ⟨"/a/b/x".toList, 0⟩) (.dset (some 0) ⟨"/a/y".toList, 1⟩) = false := by decide

example : (exW.createDataset noArrays 0 "/a".toList "//c//z".toList (.ok 5)).2.toOption =
      some (.obj (.dset (some 0) ⟨"/c/z".toList, 2⟩)) ∧ PlainEnd "//c//z".toList ∧
    (exW.createGroup noArrays 0 "/a".toList "c/".toList).2.toOption = some (.obj (.group 0 "/a/c".toList)) := by
  decide +kernel

/-- A copy of a dataset, then a copy of another one. -/
example : (exW.copyOf ⟨"/a/b/x".toList, 0⟩).2.cell = 2 ∧ (exW.copyOf ⟨"/a/b/x".toList, 0⟩).1.cells 2 = 7 ∧
    ((exW.copyOf ⟨"/a/b/x".toList, 0⟩).1.copyOf ⟨"/a/y".toList, 1⟩).2.cell = 3 := by decide

/-! ## Where it fails -/

/-- C103 fails for a dataset name that ends in a slash: what is returned is not the dataset but a group. -/
theorem C103_trailing_violated (a : α) (cells : Nat → α) :
    (World.createDataset fields ⟨fun _ => (.group [] [] : Node V Named), cells, 0⟩ 0 ['/'] ['y', '/'] (.ok a)).2 =
      .ok (.obj (.group 0 ['/', 'y'])) := rfl

/-- C103 fails for a dataset object that is kept. After its dataset was replaced by one with the same contents it is
still equal to the one that is now there, though writing to it does not change that one; so is a copy equal to the
original. -/
theorem C103_kept_violated (same : α → α → Bool) (hs : ∀ a, same a a = true) (a b : α) (hab : same b a = false) :
    let W1 : World V α := (World.createDataset fields ⟨fun _ => .group [] [], fun _ => a, 0⟩ 0 ['/'] ['x'] (.ok a)).1
    let r := W1.createDataset fields 0 ['/'] ['x'] (.ok a)
    let old : Handle := .dset (some 0) ⟨['/', 'x'], 0⟩
    let new : Handle := .dset (some 0) ⟨['/', 'x'], 1⟩
    let copy : Handle := .dset (some 0) (W1.copyOf ⟨['/', 'x'], 0⟩).2
    let W3 := ((Op.write ⟨['/', 'x'], 0⟩ b).run fields r.1).1
    W1.get fields 0 ['/'] ['x'] = .ok (.obj old) ∧ r.2 = .ok (.obj new) ∧ r.1.eq same old new = true ∧
      W3.get fields 0 ['/'] ['x'] = .ok (.obj new) ∧ W3.cells 0 = b ∧ W3.cells 1 = a ∧ W3.eq same old new = false ∧
      (W1.copyOf ⟨['/', 'x'], 0⟩).1.eq same old copy = true ∧ copy ≠ old := by
  refine ⟨rfl, rfl, ?_, rfl, rfl, rfl, ?_, ?_, ?_⟩
  · exact hs a
  · exact hab
  · exact hs a
  · show (Handle.dset (some 0) ⟨['/', 'x'], 1⟩) ≠ .dset (some 0) ⟨['/', 'x'], 0⟩
    decide

example : (∀ a : Nat, (a == a) = true) ∧ ((1 : Nat) == 0) = false := ⟨by simp, rfl⟩

/-- C103 fails for a group object that is kept: when there is a dataset in its place, the group is equal to the
dataset, but the dataset is not equal to the group. -/
theorem C103_symmetric_violated (same : α → α → Bool) (a : α) :
    let W1 : World V α := (World.createGroup fields ⟨fun _ => .group [] [], fun _ => a, 0⟩ 0 ['/'] ['x']).1
    let W2 := ((Op.delete 0 ['/'] ['x'] : Op α).run fields W1).1
    let r := W2.createDataset fields 0 ['/'] ['x'] (.ok a)
    let g : Handle := .group 0 ['/', 'x']
    let d : Handle := .dset (some 0) ⟨['/', 'x'], 0⟩
    W1.get fields 0 ['/'] ['x'] = .ok (.obj g) ∧ r.2 = .ok (.obj d) ∧ r.1.eq same g d = true ∧ r.1.eq same d g = false :=
  ⟨rfl, rfl, rfl, rfl⟩

/-- C103 fails for datasets that are in no tree: with the same name (by default the empty one) and contents they are
equal. -/
theorem C103_detached_violated (same : α → α → Bool) (hs : ∀ a, same a a = true) (a : α) (nm : Str) :
    (⟨fun _ => .group [] [], fun _ => a, 2⟩ : World V α).eq same (.dset none ⟨nm, 0⟩) (.dset none ⟨nm, 1⟩) = true := by
  simp [World.eq, hs]

end Verif.Mem.Places
