import Verif.Mem.CopyInv

namespace Verif.Mem
variable {V α σ : Type}

theorem notCovered_of {S : List (List Str)} {E : List Str} {k : Str} {rest : List (List Str)}
    {Q : List Str} (hS : ∀ P ∈ S, ∃ x, P = E ++ [k] ++ [x]) (h : ¬ Covered ((E ++ [k]) :: rest) Q) :
    ¬ Covered (S ++ rest) Q := by
  rintro ⟨P, hP, hPQ⟩
  rcases List.mem_append.1 hP with hP | hP
  · obtain ⟨x, rfl⟩ := hS P hP
    exact h ⟨E ++ [k], by simp, (List.prefix_append _ _).trans hPQ⟩
  · exact h ⟨P, by simp [hP], hPQ⟩

theorem render_ne_root (E : List Str) (k : Str) (hp : ∀ p ∈ E ++ [k], Part p) :
    render (E ++ [k]) ≠ ['/'] := by
  intro e
  have h1 := parts_render _ hp
  rw [e] at h1
  have : parts ['/'] = [] := rfl
  rw [this] at h1
  simp at h1

theorem dset_leaf {g1 : Node V Nat} {Q : List Str} {r : Nat} (h : nodeAt g1 Q = some (.dset r))
    (x : Str) (R : List Str) : nodeAt g1 (Q ++ x :: R) = none := by
  rw [nodeAt_append, h]; rfl

theorem getElem?_lt' {β : Type} {l : List β} {i : Nat} {x : β} (h : l[i]? = some x) : i < l.length := by
  rw [List.getElem?_eq_some_iff] at h; exact h.1

theorem copyAttrs_self (conv : V → Except Err V) (a out : List (Str × V))
    (hn : (a.map Prod.fst).Nodup) (h : copyAttrs conv a a = .ok out) : AttrsCopied conv a out := by
  intro k
  unfold copyAttrs at h
  have hp := sortKeys_perm a
  have hn' : ((sortKeys a).map Prod.fst).Nodup := (hp.map Prod.fst).nodup_iff.2 hn
  have := foldl_copyAttr conv (sortKeys a) a out hn' h k
  rw [lookup_perm _ _ hp hn'] at this
  exact ⟨this.1, fun hh => (this.2 hh).trans hh⟩

section
variable (fields : Nat → List Str → Option FieldErr) (c : CopyArgs V α σ) (g1 : Node V Nat)
  (h0 : Heap V α) (src : CopySource g1 h0)
include src

/-- A group is copied. -/
theorem step_group (hb : c.base = ['/']) {E : List Str} {k : Str} {rest : List (List Str)} {g2 : Node V Nat} {h : Heap V α}
    (I : CopyInv c g1 h0 ((E ++ [k]) :: rest) g2 h)
    (a : List (Str × V)) (kids : List (Str × Node V Nat))
    (hn : nodeAt g1 (E ++ [k]) = some (.group a kids)) :
    (∃ e, copyAttrs c.conv a [] = .error e ∧
      copyEntry fields c g1 (render (E ++ [k])) g2 h = .error e) ∨
    ∃ a', copyAttrs c.conv a [] = .ok a' ∧
      copyEntry fields c g1 (render (E ++ [k])) g2 h =
        .ok (((sortKeys kids).map fun x => E ++ [k] ++ [x.1]).map render,
          insertAt k (.group a' []) E g2, h) ∧
      CopyInv c g1 h0 (((sortKeys kids).map fun x => E ++ [k] ++ [x.1]) ++ rest)
        (insertAt k (.group a' []) E g2) h := by
  have hp := parts_of_nodeAt g1 src.tidy (E ++ [k]) (by rw [hn]; simp)
  obtain ⟨E', k', a2, kids2, e, _, hE⟩ := I.stk (E ++ [k]) (by simp)
  have e1 := List.append_inj_left' e rfl
  have e2 := List.append_inj_right' e rfl
  simp only [List.cons.injEq, and_true] at e2
  subst e1 e2
  clear e
  have hl : kids2.lookup k = none := by
    have h1 := I.cov (E ++ [k]) ⟨_, by simp, List.prefix_refl _⟩
    rw [nodeAt_append, hE] at h1
    simp only [Option.bind_some, nodeAt] at h1
    cases hh : kids2.lookup k with
    | none => rfl
    | some ch => rw [hh] at h1; simp at h1
  have hcg := createGroup_at fields g2 E k hp a2 kids2 hE hl
  have hnew : nodeAt (insertAt k (.group [] []) E g2) (E ++ [k]) = some (.group [] []) :=
    nodeAt_insert_below k (.group [] []) E g2 a2 kids2 hE []
  have hget := getItem_render fields _ _ (E ++ [k]) hp hnew
  have hget1 := getItem_render fields _ _ (E ++ [k]) hp hn
  obtain ⟨hnd, hkp, hand⟩ := src.tidy (E ++ [k]) a kids hn
  have hentry : copyEntry fields c g1 (render (E ++ [k])) g2 h =
      copyGroup fields c (render (E ++ [k])) a kids g2 h := by
    unfold copyEntry; rw [hget1]
  have hcopy : copyGroup fields c (render (E ++ [k])) a kids g2 h =
      match copyAttrs c.conv a [] with
      | .ok a' => .ok ((sortKeys kids).map fun x => childKey (render (E ++ [k])) x.1,
          setAttrsAt a' (parts (render (E ++ [k]))) (insertAt k (.group [] []) E g2), h)
      | .error e => .error e := by
    unfold copyGroup
    rw [hb, if_neg (render_ne_root E k hp), hcg]
    simp only
    rw [hget]
    rfl
  rw [hentry, hcopy]
  cases hc : copyAttrs c.conv a [] with
  | error e => exact .inl ⟨e, rfl, rfl⟩
  | ok a' =>
    refine .inr ⟨a', rfl, ?_, ?_⟩
    · simp only
      rw [parts_render _ hp, setAttrs_insert a' k E g2 a2 [] kids2 [] hE, List.map_map]
      congr 2
      refine List.map_congr_left fun x hx => ?_
      have hx' := hkp x ((sortKeys_perm kids).mem_iff.1 hx)
      exact childKey_render (E ++ [k]) x.1 hp hx'
    · have hmap : ((sortKeys kids).map fun x => E ++ [k] ++ [x.1]) =
          ((sortKeys kids).map Prod.fst).map fun x => E ++ [k] ++ [x] := by
        rw [List.map_map]; rfl
      rw [hmap]
      have hnews : ∀ x, x ∈ (sortKeys kids).map Prod.fst ↔ nodeAt g1 (E ++ [k] ++ [x]) ≠ none := by
        intro x
        rw [((sortKeys_perm kids).map Prod.fst).mem_iff, nodeAt_append, hn]
        simp only [Option.bind_some, nodeAt]
        cases hh : kids.lookup x with
        | none => simpa using (lookup_none_iff kids x).1 hh
        | some ch =>
          simp only [ne_eq, reduceCtorEq, not_false_eq_true, iff_true]
          exact List.mem_map.2 ⟨_, (lookup_eq_some_iff kids hnd x ch).1 hh, rfl⟩
      refine I.advance a2 kids2 hE (.group a' []) (fun x R => by simp [nodeAt])
        ((sortKeys kids).map Prod.fst) (((sortKeys_perm kids).map Prod.fst).nodup_iff.2 hnd)
        hnews (fun _ => ⟨a', rfl⟩) ?_ (fun _ _ _ hh => hh) (Nat.le_refl _) ?_ (by simp) (by simp)
      · have : tipAt g1 (E ++ [k]) = some (.inl a) := by unfold tipAt; rw [hn]; rfl
        rw [this]
        exact copyAttrs_copied c.conv a a' hand hc
      · intro r cell hr
        obtain ⟨cell', h1, h2, h3⟩ := I.old r cell hr
        refine ⟨cell', h1, h2, ?_⟩
        rcases h3 with ⟨Q, q1, q2⟩ | ⟨q1, q2⟩
        · refine .inl ⟨Q, notCovered_of (fun P hP => ?_) q1, q2⟩
          obtain ⟨x, _, rfl⟩ := List.mem_map.1 hP
          exact ⟨x, rfl⟩
        · refine .inr ⟨fun Q t1 t2 => ?_, q2⟩
          obtain ⟨P, hP, hPQ⟩ := q1 Q t1 t2
          rcases List.mem_cons.1 hP with rfl | hP
          · rcases prefix_cases hPQ with rfl | ⟨x, R, rfl⟩
            · rw [tipAt_dset, hn] at t1; simp at t1
            · refine ⟨E ++ [k] ++ [x], List.mem_append.2 (.inl (List.mem_map.2 ⟨x, ?_, rfl⟩)), ⟨R, by simp⟩⟩
              rw [hnews]
              intro hnone
              rw [tipAt_dset, show E ++ [k] ++ x :: R = (E ++ [k] ++ [x]) ++ R by simp, nodeAt_append,
                hnone] at t1
              simp at t1
          · exact ⟨P, List.mem_append.2 (.inr hP), hPQ⟩

/-- What holds when a dataset is on top of the stack. -/
theorem dset_facts {E : List Str} {k : Str} {rest : List (List Str)} {g2 : Node V Nat} {h : Heap V α}
    (I : CopyInv c g1 h0 ((E ++ [k]) :: rest) g2 h) (r : Nat)
    (hn : nodeAt g1 (E ++ [k]) = some (.dset r)) :
    (∀ p ∈ E ++ [k], Part p) ∧ (∃ a2 kids2, nodeAt g2 E = some (.group a2 kids2)) ∧
    ∃ cell, h0[r]? = some cell ∧ h[r]? = some cell ∧ (cell.attrs.map Prod.fst).Nodup := by
  have hp := parts_of_nodeAt g1 src.tidy (E ++ [k]) (by rw [hn]; simp)
  obtain ⟨E', k', a2, kids2, e, _, hE⟩ := I.stk (E ++ [k]) (by simp)
  have e1 := List.append_inj_left' e rfl
  subst e1
  obtain ⟨cell, hc1, hc2⟩ := src.cell _ r hn
  refine ⟨hp, ⟨a2, kids2, hE⟩, cell, hc1, ?_, hc2⟩
  obtain ⟨cell', h1, h2, h3⟩ := I.old r cell hc1
  rcases h3 with ⟨Q, q1, q2, _⟩ | ⟨_, q2⟩
  · have := src.once Q _ r ((tipAt_dset g1 Q r).1 q2) hn
    subst this
    exact absurd ⟨_, by simp, List.prefix_refl _⟩ q1
  · rw [h1, q2]

/-- A dataset is copied to a new object. -/
theorem step_dset {E : List Str} {k : Str} {rest : List (List Str)} {g2 : Node V Nat} {h : Heap V α}
    (I : CopyInv c g1 h0 ((E ++ [k]) :: rest) g2 h) (r : Nat) (cell : Cell V α)
    (hn : nodeAt g1 (E ++ [k]) = some (.dset r)) (hcell : h0[r]? = some cell)
    (hs : c.isShared (render (E ++ [k])) = false) :
    (∃ e, (c.take (render (E ++ [k])) cell.data = .error e ∨ copyAttrs c.conv cell.attrs [] = .error e) ∧
      copyEntry fields c g1 (render (E ++ [k])) g2 h = .error e) ∨
    ∃ g2' h', copyEntry fields c g1 (render (E ++ [k])) g2 h = .ok ([], g2', h') ∧
      CopyInv c g1 h0 rest g2' h' := by
  obtain ⟨hp, ⟨a2, kids2, hE⟩, cell1, hc1, hc2, hc3⟩ := dset_facts c g1 h0 src I r hn
  rw [hcell] at hc1
  injection hc1 with hc1
  subst hc1
  have hget1 := getItem_render fields _ _ (E ++ [k]) hp hn
  have hcd := createDataset_at fields g2 E k hp a2 kids2 hE h.length
  have hentry : copyEntry fields c g1 (render (E ++ [k])) g2 h =
      copyDataset fields c (render (E ++ [k])) cell g2 h := by
    unfold copyEntry
    rw [hget1]
    simp only
    rw [hc2]
    simp only
    rw [if_neg (by rw [hs]; simp)]
  rw [hentry]
  unfold copyDataset
  cases ht : c.take (render (E ++ [k])) cell.data with
  | error e => exact .inl ⟨e, .inl rfl, rfl⟩
  | ok d =>
    simp only
    rw [hcd]
    simp only
    cases hc : copyAttrs c.conv cell.attrs [] with
    | error e => exact .inl ⟨e, .inr rfl, rfl⟩
    | ok a' =>
      refine .inr ⟨_, _, rfl, ?_⟩
      have hnew : ([] : List Str).map (fun x => E ++ [k] ++ [x]) ++ rest = rest := rfl
      rw [← hnew]
      refine I.advance a2 kids2 hE (.dset h.length) (fun x R => by simp [nodeAt]) [] (by simp) ?_
        (by simp) ?_ ?_ (by simp) ?_ ?_ ?_
      · intro x
        rw [dset_leaf hn x []]
        simp
      · have : tipAt g1 (E ++ [k]) = some (.inr r) := (tipAt_dset _ _ _).2 hn
        rw [this]
        show (if c.isShared (render (E ++ [k])) then _ else _)
        rw [if_neg (by rw [hs]; simp)]
        refine ⟨I.len, cell, ⟨d, a'⟩, hcell, by simp, ht, copyAttrs_copied c.conv _ _ hc3 hc⟩
      · intro r' x _ hx
        rw [List.getElem?_append_left (getElem?_lt' hx)]
        exact hx
      · intro r' x hx
        obtain ⟨cell', h1, h2, h3⟩ := I.old r' x hx
        refine ⟨cell', ?_, h2, ?_⟩
        · rw [List.getElem?_append_left (getElem?_lt' h1)]; exact h1
        · rcases h3 with ⟨Q, q1, q2⟩ | ⟨q1, q2⟩
          · exact .inl ⟨Q, notCovered_of (by simp) q1, q2⟩
          · refine .inr ⟨fun Q t1 t2 => ?_, q2⟩
            obtain ⟨P, hP, hPQ⟩ := q1 Q t1 t2
            rcases List.mem_cons.1 hP with rfl | hP
            · rcases prefix_cases hPQ with rfl | ⟨x, R, rfl⟩
              · rw [hs] at t2; simp at t2
              · rw [tipAt_dset, dset_leaf hn] at t1; simp at t1
            · exact ⟨P, by simpa using hP, hPQ⟩
      · intro r' e
        injection e with e
        subst e
        simp
      · intro r' Q e hQ
        injection e with e
        subst e
        exact absurd (I.bound Q _ hQ) (by omega)

/-- A dataset is shared. -/
theorem step_shared {E : List Str} {k : Str} {rest : List (List Str)} {g2 : Node V Nat} {h : Heap V α}
    (I : CopyInv c g1 h0 ((E ++ [k]) :: rest) g2 h) (r : Nat) (cell : Cell V α)
    (hn : nodeAt g1 (E ++ [k]) = some (.dset r)) (hcell : h0[r]? = some cell)
    (hs : c.isShared (render (E ++ [k])) = true) :
    (∃ e, (((c.selection (render (E ++ [k]))).isSome ∧ e = .valueError) ∨
        copyAttrs c.conv cell.attrs cell.attrs = .error e) ∧
      copyEntry fields c g1 (render (E ++ [k])) g2 h = .error e) ∨
    ∃ g2' h', copyEntry fields c g1 (render (E ++ [k])) g2 h = .ok ([], g2', h') ∧
      CopyInv c g1 h0 rest g2' h' := by
  obtain ⟨hp, ⟨a2, kids2, hE⟩, cell1, hc1, hc2, hc3⟩ := dset_facts c g1 h0 src I r hn
  rw [hcell] at hc1
  injection hc1 with hc1
  subst hc1
  have hget1 := getItem_render fields _ _ (E ++ [k]) hp hn
  have hentry : copyEntry fields c g1 (render (E ++ [k])) g2 h =
      copyShared fields c (render (E ++ [k])) r cell g2 h := by
    unfold copyEntry
    rw [hget1]
    simp only
    rw [hc2]
    simp only
    rw [if_pos hs]
  rw [hentry]
  unfold copyShared
  obtain ⟨s1, s2⟩ := split_render E k hp
  by_cases hsel : (c.selection (render (E ++ [k]))).isSome
  · rw [if_pos hsel]
    exact .inl ⟨_, .inl ⟨hsel, rfl⟩, rfl⟩
  · rw [if_neg hsel]
    simp only
    have hg : getItem fields g2 ['/'] (splitPath (joinPath ['/'] (render (E ++ [k])))).1 =
        .ok (.node (.group a2 kids2)) := by
      rw [getItem_eq _ _ _ _ rfl, components_abs _ _ (isAbs_split _ (isAbs_join _ _ rfl)), s1]
      exact nodeAt_crawl fields g2 _ E hE
    rw [hg, s1, s2]
    simp only
    cases hc : copyAttrs c.conv cell.attrs cell.attrs with
    | error e => exact .inl ⟨e, .inr rfl, rfl⟩
    | ok a' =>
      refine .inr ⟨_, _, rfl, ?_⟩
      have hnew : ([] : List Str).map (fun x => E ++ [k] ++ [x]) ++ rest = rest := rfl
      have htip1 : tipAt g1 (E ++ [k]) = some (.inr r) := (tipAt_dset _ _ _).2 hn
      have hrl : r < h.length := getElem?_lt' hc2
      have hnotcov : ¬ Covered rest (E ++ [k]) := by
        rintro ⟨P, hP, hPQ⟩
        exact ((List.pairwise_cons.1 I.incomp).1 P hP).2 hPQ
      rw [← hnew]
      refine I.advance a2 kids2 hE (.dset r) (fun x R => by simp [nodeAt]) [] (by simp) ?_
        (by simp) ?_ ?_ (by simp) ?_ ?_ ?_
      · intro x
        rw [dset_leaf hn x []]
        simp
      · rw [htip1]
        show (if c.isShared (render (E ++ [k])) then _ else _)
        rw [if_pos hs]
      · intro r' x hr' hx
        rw [List.getElem?_set_ne]
        · exact hx
        · have := getElem?_lt' hcell
          omega
      · intro r' x hx
        obtain ⟨cell', h1, h2, h3⟩ := I.old r' x hx
        by_cases hr : r' = r
        · subst hr
          rw [hcell] at hx
          injection hx with hx
          subst hx
          refine ⟨{ cell with attrs := a' }, by rw [List.getElem?_set_self hrl], rfl, .inl
            ⟨E ++ [k], hnotcov, htip1, hs, copyAttrs_self c.conv _ _ hc3 hc⟩⟩
        · refine ⟨cell', by rw [List.getElem?_set_ne (Ne.symm hr)]; exact h1, h2, ?_⟩
          rcases h3 with ⟨Q, q1, q2⟩ | ⟨q1, q2⟩
          · exact .inl ⟨Q, notCovered_of (by simp) q1, q2⟩
          · refine .inr ⟨fun Q t1 t2 => ?_, q2⟩
            obtain ⟨P, hP, hPQ⟩ := q1 Q t1 t2
            rcases List.mem_cons.1 hP with rfl | hP
            · rcases prefix_cases hPQ with rfl | ⟨x, R, rfl⟩
              · rw [htip1] at t1
                simp only [Option.some.injEq, Sum.inr.injEq] at t1
                exact absurd t1.symm hr
              · rw [tipAt_dset, dset_leaf hn] at t1; simp at t1
            · exact ⟨P, by simpa using hP, hPQ⟩
      · intro r' e
        injection e with e
        subst e
        simpa using hrl
      · intro r' Q e hQ
        injection e with e
        subst e
        -- Q is a finished path of the copy with an old reference, so it is the same path
        have hQc : ¬ Covered ((E ++ [k]) :: rest) Q := by
          intro hcov
          rw [(tipAt_none g2 Q).2 (I.cov Q hcov)] at hQ
          simp at hQ
        have hd := I.done Q hQc
        rw [hQ] at hd
        cases t : tipAt g1 Q with
        | none => rw [t] at hd; exact hd
        | some y =>
          rw [t] at hd
          cases y with
          | inl a => exact hd
          | inr r1 =>
            simp only [CopiedAt] at hd
            split at hd
            · subst hd
              have := src.once Q _ r ((tipAt_dset g1 Q r).1 t) hn
              subst this
              exact hQc ⟨_, by simp, List.prefix_refl _⟩
            · have := getElem?_lt' hcell
              omega

end

end Verif.Mem
