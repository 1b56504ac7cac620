import Verif.Mem.CopyLoop

/-!
# C32: copying a tree

`Ends` says that `deep_group_copy` ends with a result. `CopiedAt` compares what is at one path of the
original and of the copy; `CopySource` says that the original is a tree made of dictionaries in which
every dataset object is at one place; `CopyFails` lists the legitimate reasons for an exception.
-/
namespace Verif.Mem
variable {V α σ : Type}

/-- `deep_group_copy` into an empty group ends with this result. -/
def Ends (fields : Nat → List Str → Option FieldErr) (c : CopyArgs V α σ) (g1 : Node V Nat)
    (h : Heap V α) (r : Except Err (Node V Nat × Heap V α)) : Prop :=
  ∃ fuel, deepCopy fields c g1 (.group [] []) h fuel = some r

theorem ends_unique {fields : Nat → List Str → Option FieldErr} {c : CopyArgs V α σ}
    {g1 : Node V Nat} {h : Heap V α} {r r' : Except Err (Node V Nat × Heap V α)}
    (h1 : Ends fields c g1 h r) (h2 : Ends fields c g1 h r') : r = r' := by
  obtain ⟨n, hn⟩ := h1
  obtain ⟨m, hm⟩ := h2
  have a := copyLoop_mono _ _ _ _ _ _ _ _ hn (max n m) (by omega)
  have b := copyLoop_mono _ _ _ _ _ _ _ _ hm (max n m) (by omega)
  rw [a] at b
  exact Option.some.inj b

variable (fields : Nat → List Str → Option FieldErr) (c : CopyArgs V α σ) (g1 : Node V Nat)
  (h0 : Heap V α)

/-- C32. Copying a whole tree into an empty group always ends, and raises an exception only if an
attribute cannot be converted, a selection does not fit its dataset, or a selection is given for a
shared dataset; in all other cases it succeeds.

Partial: for groups other than the root, and for names the path lookup cannot find again, see
`C32_subgroup_violated` and `C32_empty_name_violated`. -/
theorem C32_ends_partial (src : CopySource g1 h0) (hb : c.base = ['/']) :
    (∃ e, Ends fields c g1 h0 (.error e) ∧ CopyFails c g1 h0 e) ∨
    (∃ g2 h, Ends fields c g1 h0 (.ok (g2, h))) := by
  rcases deepCopy_spec fields c g1 h0 src hb (sizeOf g1) (Nat.le_refl _) with ⟨e, he, hf⟩ | ⟨g2, h, hr, _⟩
  · exact .inl ⟨e, ⟨_, he⟩, hf⟩
  · exact .inr ⟨g2, h, ⟨_, hr⟩⟩

theorem inv_of_ends (src : CopySource g1 h0) (hb : c.base = ['/']) (g2 : Node V Nat) (h : Heap V α)
    (he : Ends fields c g1 h0 (.ok (g2, h))) : CopyInv c g1 h0 [] g2 h := by
  rcases deepCopy_spec fields c g1 h0 src hb (sizeOf g1) (Nat.le_refl _) with ⟨e, hr, _⟩ | ⟨g2', h', hr, I⟩
  · have := ends_unique he ⟨_, hr⟩
    simp at this
  · have := ends_unique he ⟨_, hr⟩
    simp only [Except.ok.injEq, Prod.mk.injEq] at this
    rw [this.1, this.2]
    exact I

theorem not_covered_nil (Q : List Str) : ¬ Covered [] Q := by
  rintro ⟨P, hP, _⟩
  simp at hP

/-- C32. At every path the copy has what the original has: groups with the converted attributes;
datasets with the selected data and the converted attributes in a new object, or the same object if
they are shared; and nothing else. -/
theorem C32_content_partial (src : CopySource g1 h0) (hb : c.base = ['/']) (g2 : Node V Nat)
    (h : Heap V α) (he : Ends fields c g1 h0 (.ok (g2, h))) (Q : List Str) :
    CopiedAt c h0 h Q (tipAt g1 Q) (tipAt g2 Q) :=
  (inv_of_ends fields c g1 h0 src hb g2 h he).done Q (not_covered_nil Q)

/-- C32. Copying leaves the data of every existing dataset alone, and the attributes of those that
are not shared; the attributes of a shared dataset are converted in place
(`C32_shared_attributes_violated`). -/
theorem C32_source_partial (src : CopySource g1 h0) (hb : c.base = ['/']) (g2 : Node V Nat)
    (h : Heap V α) (he : Ends fields c g1 h0 (.ok (g2, h))) (r : Nat) (cell : Cell V α)
    (hr : h0[r]? = some cell) :
    ∃ cell', h[r]? = some cell' ∧ cell'.data = cell.data ∧
      ((∀ Q, nodeAt g1 Q = some (.dset r) → c.isShared (render Q) = false) → cell' = cell) := by
  obtain ⟨cell', h1, h2, h3⟩ := (inv_of_ends fields c g1 h0 src hb g2 h he).old r cell hr
  refine ⟨cell', h1, h2, fun hs => ?_⟩
  rcases h3 with ⟨Q, _, q2, q3, _⟩ | ⟨_, q2⟩
  · rw [hs Q ((tipAt_dset _ _ _).1 q2)] at q3
    simp at q3
  · exact q2

/-- C32. Later changes of a dataset of the copy that is not shared show neither in the original nor
at any other path of the copy; later changes of a dataset of the original show in the copy only where
that dataset is shared. -/
theorem C32_independent (src : CopySource g1 h0) (hb : c.base = ['/']) (g2 : Node V Nat)
    (h : Heap V α) (he : Ends fields c g1 h0 (.ok (g2, h))) (new : Cell V α) :
    (∀ Q r, nodeAt g2 Q = some (.dset r) → c.isShared (render Q) = false →
      (∀ Q' r', nodeAt g1 Q' = some (.dset r') → (h.set r new)[r']? = h[r']?) ∧
      (∀ Q' r', nodeAt g2 Q' = some (.dset r') → Q' ≠ Q → (h.set r new)[r']? = h[r']?)) ∧
    (∀ Q r, nodeAt g1 Q = some (.dset r) → ∀ Q' r', nodeAt g2 Q' = some (.dset r') →
      (h.set r new)[r']? = h[r']? ∨ (Q' = Q ∧ c.isShared (render Q) = true)) := by
  have I := inv_of_ends fields c g1 h0 src hb g2 h he
  have hfresh : ∀ Q r, nodeAt g2 Q = some (.dset r) →
      (c.isShared (render Q) = false ∧ h0.length ≤ r) ∨
      (c.isShared (render Q) = true ∧ nodeAt g1 Q = some (.dset r)) := by
    intro Q r hr
    have hd := I.done Q (not_covered_nil Q)
    rw [(tipAt_dset _ _ _).2 hr] at hd
    cases t : tipAt g1 Q with
    | none => rw [t] at hd; exact hd.elim
    | some y =>
      rw [t] at hd
      cases y with
      | inl a => exact hd.elim
      | inr r1 =>
        simp only [CopiedAt] at hd
        split at hd
        · rename_i hs
          subst hd
          exact .inr ⟨hs, (tipAt_dset _ _ _).1 t⟩
        · rename_i hs
          exact .inl ⟨by simpa using hs, hd.1⟩
  have hlt : ∀ Q r, nodeAt g1 Q = some (.dset r) → r < h0.length := by
    intro Q r hr
    obtain ⟨cell, hc, _⟩ := src.cell Q r hr
    exact getElem?_lt' hc
  refine ⟨fun Q r hr hs => ⟨fun Q' r' hr' => ?_, fun Q' r' hr' hne => ?_⟩, fun Q r hr Q' r' hr' => ?_⟩
  · rcases hfresh Q r hr with ⟨_, h1⟩ | ⟨h1, _⟩
    · have := hlt Q' r' hr'
      rw [List.getElem?_set_ne (by omega)]
    · rw [hs] at h1; simp at h1
  · rw [List.getElem?_set_ne]
    rintro rfl
    exact hne (I.inj _ _ r ((tipAt_dset _ _ _).2 hr') ((tipAt_dset _ _ _).2 hr))
  · by_cases hrr : r = r'
    · subst hrr
      rcases hfresh Q' r hr' with ⟨_, h1⟩ | ⟨h1, h2⟩
      · have := hlt Q r hr
        omega
      · have := src.once Q' Q r h2 hr
        subst this
        exact .inr ⟨rfl, h1⟩
    · exact .inl (List.getElem?_set_ne hrr)

/-- C32. Which datasets are shared: all of them in a shallow copy, otherwise those whose path is listed,
with or without the leading slash. -/
theorem C32_shared_names (Q : List Str) (hQ : Q ≠ []) (hp : ∀ p ∈ Q, Part p) :
    c.isShared (render Q) = true ↔
      c.shallow = true ∨ ∃ n ∈ c.shared, n = render Q ∨ '/' :: n = render Q := by
  have hr : ∃ x t, render Q = '/' :: x :: t ∧ x ≠ '/' := by
    cases Q with
    | nil => exact absurd rfl hQ
    | cons p ps =>
      have h := hp p (by simp)
      cases p with
      | nil => simp [Part] at h
      | cons x t =>
        refine ⟨x, t ++ ps.flatMap fun p => '/' :: p, by simp [render], ?_⟩
        intro hx; subst hx; simp [Part] at h
  obtain ⟨x, t, hr, hx⟩ := hr
  unfold CopyArgs.isShared
  simp only [Bool.or_eq_true, List.contains_iff_mem, List.mem_map]
  constructor
  · rintro (h | ⟨n, hn, h⟩)
    · exact .inl h
    · refine .inr ⟨n, hn, ?_⟩
      unfold withSlash at h
      split at h
      · exact .inl h
      · exact .inr h
  · rintro (h | ⟨n, hn, h⟩)
    · exact .inl h
    · refine .inr ⟨n, hn, ?_⟩
      rcases h with h | h
      · unfold withSlash; rw [if_pos (by rw [h, hr]; rfl)]; exact h
      · unfold withSlash
        rw [if_neg, h]
        rw [hr] at h
        injection h with _ h
        rw [h]; simp [hx]

/-- C32. Which data a dataset of the copy gets: the selection listed for its path, with or without the
leading slash, or everything if there is none. -/
theorem C32_selected_data (Q : List Str) (d : α) :
    (∀ s, c.selections (render Q) = some s → c.take (render Q) d = c.apply s d) ∧
    (∀ s, c.selections (render Q) = none → c.selections (render Q).tail = some s →
      c.take (render Q) d = c.apply s d) ∧
    (c.selections (render Q) = none → c.selections (render Q).tail = none → c.ndim d ≠ 0 →
      c.take (render Q) d = .ok d) := by
  refine ⟨fun s h => ?_, fun s h1 h2 => ?_, fun h1 h2 h3 => ?_⟩
  · simp [CopyArgs.take, CopyArgs.selection, h]
  · simp [CopyArgs.take, CopyArgs.selection, h1, h2]
  · simp [CopyArgs.take, CopyArgs.selection, h1, h2, h3]

/-! A concrete tree: `/a/x` and `/b`. -/

def exCopyTree : Node Nat Nat :=
  .group [("n".toList, 7)] [("b".toList, .dset 1), ("a".toList, .group [] [("x".toList, .dset 0)])]

def exHeap : Heap Nat (List Nat) := [⟨[1, 2, 3], [("u".toList, 5)]⟩, ⟨[4], []⟩]

/-- First two items of `/a/x`; `/b` is shared. -/
def exArgs : CopyArgs Nat (List Nat) Nat where
  ndim _ := 1
  apply n d := .ok (d.take n)
  selections k := if k = "a/x".toList then some 2 else none
  shared := ["b".toList]
  conv v := .ok (v + 100)

theorem exTree_dset (Q : List Str) (r : Nat) (h : nodeAt exCopyTree Q = some (.dset r)) :
    (Q = ["b".toList] ∧ r = 1) ∨ (Q = ["a".toList, "x".toList] ∧ r = 0) := by
  unfold exCopyTree at h
  match Q with
  | [] => simp [nodeAt] at h
  | k :: Q =>
    simp only [nodeAt, List.lookup] at h
    by_cases h1 : k = "b".toList
    · subst h1
      cases Q with
      | nil => simp [nodeAt] at h; exact .inl ⟨rfl, h.symm⟩
      | cons y Q => simp [nodeAt] at h
    · rw [beq_eq_false_iff_ne.2 h1] at h
      by_cases h2 : k = "a".toList
      · subst h2
        match Q with
        | [] => simp [nodeAt] at h
        | y :: Q =>
          simp only [beq_self_eq_true, nodeAt, List.lookup] at h
          by_cases h3 : y = "x".toList
          · subst h3
            cases Q with
            | nil => simp [nodeAt] at h; exact .inr ⟨rfl, h.symm⟩
            | cons z Q => simp [nodeAt] at h
          · rw [beq_eq_false_iff_ne.2 h3] at h; simp at h
      · rw [beq_eq_false_iff_ne.2 h2] at h; simp at h

theorem exTree_group (Q : List Str) (a kids) (h : nodeAt exCopyTree Q = some (.group a kids)) :
    (Node.group a kids = exCopyTree) ∨ (a = [] ∧ kids = [("x".toList, .dset 0)]) := by
  unfold exCopyTree at h
  match Q with
  | [] => simp only [nodeAt, Option.some.injEq] at h; exact .inl h.symm
  | k :: Q =>
    simp only [nodeAt, List.lookup] at h
    by_cases h1 : k = "b".toList
    · subst h1
      cases Q with
      | nil => simp [nodeAt] at h
      | cons y Q => simp [nodeAt] at h
    · rw [beq_eq_false_iff_ne.2 h1] at h
      by_cases h2 : k = "a".toList
      · subst h2
        match Q with
        | [] =>
          simp only [beq_self_eq_true, nodeAt, Option.some.injEq, Node.group.injEq] at h
          exact .inr ⟨h.1.symm, h.2.symm⟩
        | y :: Q =>
          simp only [beq_self_eq_true, nodeAt, List.lookup] at h
          by_cases h3 : y = "x".toList
          · subst h3
            cases Q with
            | nil => simp [nodeAt] at h
            | cons z Q => simp [nodeAt] at h
          · rw [beq_eq_false_iff_ne.2 h3] at h; simp at h
      · rw [beq_eq_false_iff_ne.2 h2] at h; simp at h

theorem exSource : CopySource exCopyTree exHeap where
  tidy := by
    intro P a kids h
    rcases exTree_group P a kids h with e | ⟨rfl, rfl⟩
    · unfold exCopyTree at e
      injection e with e1 e2
      subst e1 e2
      decide
    · decide
  root := ⟨_, _, rfl⟩
  cell := by
    intro Q r h
    rcases exTree_dset Q r h with ⟨_, rfl⟩ | ⟨_, rfl⟩
    · exact ⟨_, rfl, by decide⟩
    · exact ⟨_, rfl, by decide⟩
  once := by
    intro Q Q' r h h'
    rcases exTree_dset Q r h with ⟨e, rfl⟩ | ⟨e, rfl⟩ <;>
      rcases exTree_dset Q' _ h' with ⟨e', e2⟩ | ⟨e', e2⟩ <;> simp_all

example : ∀ e, ¬ CopyFails exArgs exCopyTree exHeap e := by
  rintro e (⟨Q, a, kids, _, x, _, hx⟩ | ⟨Q, r, cell, hQ, hc, h⟩)
  · simp [exArgs] at hx
  · rcases h with ⟨h1, h2, _⟩ | ⟨h1, h2⟩ | ⟨x, _, hx⟩
    · rcases exTree_dset Q r hQ with ⟨rfl, rfl⟩ | ⟨rfl, rfl⟩
      · revert h2; decide
      · revert h1; decide
    · rcases exTree_dset Q r hQ with ⟨rfl, rfl⟩ | ⟨rfl, rfl⟩
      · revert h1; decide
      · simp [CopyArgs.take, CopyArgs.selection, exArgs, render] at h2
    · simp [exArgs] at hx

/-- The copy of the example: `/a/x` is a new object with two items, `/b` the same object. -/
example : Ends (fun _ _ => some .indexError) exArgs exCopyTree exHeap
    (.ok (.group [("n".toList, 107)]
      [("a".toList, .group [] [("x".toList, .dset 2)]), ("b".toList, .dset 1)],
      [⟨[1, 2, 3], [("u".toList, 5)]⟩, ⟨[4], []⟩, ⟨[1, 2], [("u".toList, 105)]⟩])) :=
  ⟨5, by rfl⟩

example : exArgs.isShared "/b".toList = true ∧ exArgs.isShared "/a/x".toList = false ∧
    ({ exArgs with shallow := true } : CopyArgs _ _ _).isShared "/a/x".toList = true ∧
    exArgs.take "/a/x".toList [1, 2, 3] = .ok [1, 2] ∧ exArgs.take "/b".toList [4] = .ok [4] := by
  refine ⟨rfl, rfl, rfl, rfl, rfl⟩

/-! ## Where it fails -/

/-- C32 fails for groups below the root: whatever the group holds, copying it into an empty group
raises `KeyError`. -/
theorem C32_subgroup_violated (P : List Str) (hP : P ≠ []) (hp : ∀ p ∈ P, Part p)
    (a : List (Str × V)) (kids : List (Str × Node V Nat)) (hn : nodeAt g1 P = some (.group a kids))
    (hb : c.base = render P) : Ends fields c g1 h0 (.error .keyError) := by
  refine ⟨1, ?_⟩
  unfold deepCopy
  rw [copyLoop]
  have h1 : getItem fields g1 ['/'] c.base = .ok (.node (.group a kids)) := by
    rw [hb]; exact getItem_render fields g1 _ P hp hn
  have h2 : getItem fields (.group [] [] : Node V Nat) ['/'] c.base = .error .keyError := by
    rw [hb, getItem_eq _ _ _ _ rfl, components_render P hp]
    cases P with
    | nil => exact absurd rfl hP
    | cons p ps => rw [crawl_group_cons]; rfl
  unfold copyEntry
  rw [h1]
  simp only
  unfold copyGroup
  rw [if_pos rfl]
  simp only
  rw [h2]

/-- The group `/a` of the example. -/
example : Ends (fun _ _ => some .indexError) { exArgs with base := "/a".toList } exCopyTree exHeap
    (.error .keyError) :=
  C32_subgroup_violated _ _ _ _ ["a".toList] (by simp) (by simp [Part]) [] [("x".toList, .dset 0)] rfl rfl

/-- C32 fails for a dataset created under the name `/`: it is stored under the empty name, and copying
the tree never ends. -/
theorem C32_empty_name_violated :
    ∃ g : Node Nat Nat, createDataset (fun _ _ => some .indexError) (.group [] []) ['/'] ['/'] (.ok 0) =
      (g, none) ∧
    ∀ fuel, deepCopy (fun _ _ => some .indexError) { exArgs with shared := [] } g (.group [] [])
      exHeap fuel = none := by
  refine ⟨.group [] [([], .dset 0)], rfl, fun fuel => ?_⟩
  induction fuel with
  | zero => rfl
  | succ n ih => exact ih

/-- C32 fails for datasets without dimensions: the copy raises `IndexError`, since a single number
cannot be indexed with a slice. -/
theorem C32_scalar_violated (d : α) (hd : c.ndim d = 0) (hsel : ∀ k, c.selections k = none)
    (hsh : c.isShared "/x".toList = false) (hb : c.base = ['/']) :
    Ends fields c (.group [] [("x".toList, .dset 0)]) [⟨d, []⟩] (.error .indexError) := by
  refine ⟨2, ?_⟩
  unfold deepCopy
  rw [hb, copyLoop]
  have h1 : copyEntry fields c (.group [] [("x".toList, .dset 0)]) ['/'] (.group [] []) [⟨d, []⟩] =
      .ok (["/x".toList], .group [] [], [⟨d, []⟩]) := by
    unfold copyEntry
    have : getItem fields (.group [] [("x".toList, .dset 0)] : Node V Nat) ['/'] ['/'] =
      .ok (.node (.group [] [("x".toList, .dset 0)])) := rfl
    rw [this]
    simp only
    unfold copyGroup
    rw [if_pos hb.symm]
    rfl
  rw [h1]
  simp only [List.append_nil]
  rw [copyLoop]
  have h2 : copyEntry fields c (.group [] [("x".toList, .dset 0)]) "/x".toList (.group [] []) [⟨d, []⟩] =
      .error .indexError := by
    unfold copyEntry
    have : getItem fields (.group [] [("x".toList, .dset 0)] : Node V Nat) ['/'] "/x".toList =
      .ok (.node (.dset 0)) := rfl
    rw [this]
    simp only [List.getElem?_cons_zero]
    rw [if_neg (by rw [hsh]; simp)]
    unfold copyDataset
    have ht : c.take "/x".toList d = .error .indexError := by
      unfold CopyArgs.take CopyArgs.selection
      rw [hsel, hsel]
      simp only
      rw [if_pos hd]
    rw [ht]
  rw [h2]

example : Ends (fun _ _ => some .indexError)
    ({ ndim := fun _ => 0, apply := fun _ d => .ok d, conv := fun v => .ok v } : CopyArgs Nat Nat Nat)
    (.group [] [("x".toList, .dset 0)]) [⟨3, []⟩] (.error .indexError) :=
  C32_scalar_violated _ _ 3 rfl (fun _ => rfl) rfl rfl

/-- C32 fails for shared datasets whose attributes need conversion: the copy changes the attributes of
the original. -/
theorem C32_shared_attributes_violated :
    ∃ (g1 : Node Nat Nat) (h0 : Heap Nat (List Nat)) (c : CopyArgs Nat (List Nat) Nat)
      (g2 : Node Nat Nat) (h : Heap Nat (List Nat)),
      nodeAt g1 ["x".toList] = some (.dset 0) ∧
      Ends (fun _ _ => some .indexError) c g1 h0 (.ok (g2, h)) ∧
      (h0[0]?.map Cell.attrs) = some [("u".toList, 5)] ∧
      (h[0]?.map Cell.attrs) = some [("u".toList, 105)] :=
  ⟨.group [] [("x".toList, .dset 0)], [⟨[1], [("u".toList, 5)]⟩],
    { ndim := fun _ => 1, apply := fun n d => .ok (d.take n), shared := ["x".toList],
      conv := fun v => .ok (v + 100) },
    .group [] [("x".toList, .dset 0)], [⟨[1], [("u".toList, 105)]⟩], rfl, ⟨2, rfl⟩, rfl, rfl⟩

/-- C32 fails for selections when writing to a file without string conversion: whatever the selection
selects, all the data is written. -/
theorem C32_file_selection_violated (bytesOf : α → Except Err α) (hasUnicode : α → Bool) (key : Str)
    (d s : α) (hs : c.take key d = .ok s) (hu : hasUnicode d = false) :
    fileData c bytesOf hasUnicode false key d = .ok d := by
  unfold fileData
  rw [hs]
  simp [hu]

/-- With string conversion the selected data is written. -/
theorem C32_file_selection_partial (bytesOf : α → Except Err α) (hasUnicode : α → Bool) (key : Str)
    (d s : α) (hs : c.take key d = .ok s) :
    fileData c bytesOf hasUnicode true key d = bytesOf s := by
  unfold fileData
  rw [hs]
  rfl

example : fileData exArgs (fun d => .ok d) (fun _ => false) false "/a/x".toList [1, 2, 3] = .ok [1, 2, 3] ∧
    fileData exArgs (fun d => .ok d) (fun _ => false) true "/a/x".toList [1, 2, 3] = .ok [1, 2] :=
  ⟨rfl, rfl⟩

end Verif.Mem
