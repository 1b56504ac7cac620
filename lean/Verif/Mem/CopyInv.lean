import Verif.Mem.CopyLemmas

namespace Verif.Mem
variable {V α σ : Type}

/-- What is at a path of the copy, compared with the original: nothing for nothing; a group with the
converted attributes for a group; for a dataset, the same object if it is shared, otherwise a new
object with the selected data and the converted attributes. -/
def CopiedAt (c : CopyArgs V α σ) (h0 h : Heap V α) (Q : List Str) :
    Option (List (Str × V) ⊕ Nat) → Option (List (Str × V) ⊕ Nat) → Prop
  | none, none => True
  | some (.inl a), some (.inl a') => AttrsCopied c.conv a a'
  | some (.inr r), some (.inr r') =>
    if c.isShared (render Q) then r' = r
    else h0.length ≤ r' ∧ ∃ cell cell', h0[r]? = some cell ∧ h[r']? = some cell' ∧
      c.take (render Q) cell.data = .ok cell'.data ∧ AttrsCopied c.conv cell.attrs cell'.attrs
  | _, _ => False

def tipAt {δ : Type} (n : Node V δ) (Q : List Str) : Option (List (Str × V) ⊕ δ) :=
  (nodeAt n Q).map Node.tip

/-- Below one of the paths still to be copied. -/
def Covered (S : List (List Str)) (Q : List Str) : Prop := ∃ P ∈ S, P <+: Q

structure CopyInv (c : CopyArgs V α σ) (g1 : Node V Nat) (h0 : Heap V α) (S : List (List Str))
    (g2 : Node V Nat) (h : Heap V α) : Prop where
  stk : ∀ P ∈ S, ∃ E k a kids, P = E ++ [k] ∧ nodeAt g1 P ≠ none ∧ nodeAt g2 E = some (.group a kids)
  incomp : S.Pairwise fun P Q => ¬ P <+: Q ∧ ¬ Q <+: P
  cov : ∀ Q, Covered S Q → nodeAt g2 Q = none
  done : ∀ Q, ¬ Covered S Q → CopiedAt c h0 h Q (tipAt g1 Q) (tipAt g2 Q)
  len : h0.length ≤ h.length
  old : ∀ (r : Nat) cell, h0[r]? = some cell → ∃ cell', h[r]? = some cell' ∧ cell'.data = cell.data ∧
    ((∃ Q, ¬ Covered S Q ∧ tipAt g1 Q = some (.inr r) ∧ c.isShared (render Q) = true ∧
        AttrsCopied c.conv cell.attrs cell'.attrs) ∨
      ((∀ Q, tipAt g1 Q = some (.inr r) → c.isShared (render Q) = true → Covered S Q) ∧
        cell' = cell))
  bound : ∀ Q r, tipAt g2 Q = some (.inr r) → r < h.length
  inj : ∀ Q Q' r, tipAt g2 Q = some (.inr r) → tipAt g2 Q' = some (.inr r) → Q = Q'

/-- The requirements on the original. -/
structure CopySource (g1 : Node V Nat) (h0 : Heap V α) : Prop where
  tidy : Tidy g1
  root : ∃ a k, g1 = .group a k
  cell : ∀ Q r, nodeAt g1 Q = some (.dset r) →
    ∃ cell, h0[r]? = some cell ∧ (cell.attrs.map Prod.fst).Nodup
  once : ∀ Q Q' r, nodeAt g1 Q = some (.dset r) → nodeAt g1 Q' = some (.dset r) → Q = Q'

theorem tipAt_dset {δ : Type} (n : Node V δ) (Q : List Str) (r : δ) :
    tipAt n Q = some (.inr r) ↔ nodeAt n Q = some (.dset r) := by
  unfold tipAt
  cases nodeAt n Q with
  | none => simp
  | some m => cases m <;> simp [Node.tip]

theorem tipAt_none {δ : Type} (n : Node V δ) (Q : List Str) :
    tipAt n Q = none ↔ nodeAt n Q = none := by
  unfold tipAt; cases nodeAt n Q <;> simp

theorem parts_of_nodeAt {δ : Type} (n : Node V δ) (ht : Tidy n) (P : List Str) (h : nodeAt n P ≠ none) :
    ∀ p ∈ P, Part p := by
  intro p hp
  obtain ⟨A, B, rfl⟩ := List.append_of_mem hp
  rw [nodeAt_append] at h
  cases hA : nodeAt n A with
  | none => rw [hA] at h; simp at h
  | some m =>
    rw [hA] at h
    match m with
    | .dset d => simp [nodeAt] at h
    | .group a kids =>
      simp only [Option.bind_some, nodeAt] at h
      cases hl : kids.lookup p with
      | none => rw [hl] at h; simp at h
      | some ch =>
        obtain ⟨hn, hparts, _⟩ := ht A a kids hA
        exact hparts _ ((lookup_eq_some_iff kids hn p ch).1 hl)

theorem childKey_render (P : List Str) (k : Str) (hP : ∀ p ∈ P, Part p) (hk : Part k) :
    childKey (render P) k = render (P ++ [k]) := by
  have habs : isAbs k = false := by
    cases k with
    | nil => rfl
    | cons x xs =>
      simp only [isAbs]
      rw [Bool.eq_false_iff]
      intro e
      exact hk.2 (by simp at e; simp [e])
  have : parts (joinPath (render P) k) = P ++ [k] := by
    rw [parts_join, habs, parts_render P hP, parts_part k hk]
    rfl
  unfold childKey
  rw [this, foldl_render]
  intro p hp
  rcases List.mem_append.1 hp with hp | hp
  · exact hP p hp
  · simp at hp; exact hp ▸ hk

/-- Heaps that agree from the old length on. -/
theorem CopiedAt.mono {c : CopyArgs V α σ} {h0 h h' : Heap V α} {Q : List Str}
    {t t' : Option (List (Str × V) ⊕ Nat)} (hc : CopiedAt c h0 h Q t t')
    (hh : ∀ (r : Nat) cell, h0.length ≤ r → h[r]? = some cell → h'[r]? = some cell) :
    CopiedAt c h0 h' Q t t' := by
  unfold CopiedAt at hc ⊢
  split at hc
  · trivial
  · exact hc
  · split at hc
    · rw [if_pos (by assumption)]; exact hc
    · rw [if_neg (by assumption)]
      obtain ⟨h1, cell, cell', h2, h3, h4⟩ := hc
      exact ⟨h1, cell, cell', h2, hh _ _ h1 h3, h4⟩
  · exact hc

theorem prefix_cases {P Q : List Str} (h : P <+: Q) : Q = P ∨ ∃ k R, Q = P ++ k :: R := by
  obtain ⟨R, rfl⟩ := h
  cases R with
  | nil => left; simp
  | cons k R => right; exact ⟨k, R, rfl⟩

/-- The tip of a tree into which a node without children has been put. -/
theorem tipAt_insert_leaf (k : Str) (n : Node V Nat) (E : List Str) (g2 : Node V Nat)
    (a : List (Str × V)) (kids : List (Str × Node V Nat)) (hE : nodeAt g2 E = some (.group a kids))
    (hn : ∀ x R, nodeAt n (x :: R) = none) (Q : List Str) :
    tipAt (insertAt k n E g2) Q =
      if Q = E ++ [k] then some n.tip else if (E ++ [k]) <+: Q then none else tipAt g2 Q := by
  by_cases hp : (E ++ [k]) <+: Q
  · rcases prefix_cases hp with rfl | ⟨x, R, rfl⟩
    · rw [if_pos rfl]
      unfold tipAt
      rw [nodeAt_insert_below k n E g2 a kids hE]
      rfl
    · rw [if_neg (by intro e; simpa using congrArg List.length e), if_pos hp, tipAt_none]
      rw [List.append_assoc, List.singleton_append, nodeAt_insert_below k n E g2 a kids hE]
      exact hn x R
  · rw [if_neg (by rintro rfl; exact hp (List.prefix_refl _)), if_neg hp]
    exact nodeAt_insert_other k n E g2 Q hp

theorem nodeAt_group_of_tip {δ : Type} (n : Node V δ) (Q : List Str) (a : List (Str × V))
    (h : tipAt n Q = some (.inl a)) : ∃ kids, nodeAt n Q = some (.group a kids) := by
  unfold tipAt at h
  cases hn : nodeAt n Q with
  | none => rw [hn] at h; simp at h
  | some m =>
    rw [hn] at h
    cases m with
    | group a' kids => simp [Node.tip] at h; exact ⟨kids, by rw [h]⟩
    | dset d => simp [Node.tip] at h

/-- After one entry has been dealt with: `new` are the paths pushed for its children. -/
theorem CopyInv.advance {c : CopyArgs V α σ} {g1 : Node V Nat} {h0 : Heap V α}
    {E : List Str} {k : Str} {rest : List (List Str)} {g2 : Node V Nat} {h h' : Heap V α}
    (I : CopyInv c g1 h0 ((E ++ [k]) :: rest) g2 h)
    (a2 : List (Str × V)) (kids2 : List (Str × Node V Nat)) (hE : nodeAt g2 E = some (.group a2 kids2))
    (n : Node V Nat) (hleaf : ∀ x R, nodeAt n (x :: R) = none)
    (news : List Str) (hnd : news.Nodup)
    (hnews : ∀ x, x ∈ news ↔ nodeAt g1 (E ++ [k] ++ [x]) ≠ none)
    (hgrp : news ≠ [] → ∃ a, n = .group a [])
    (hself : CopiedAt c h0 h' (E ++ [k]) (tipAt g1 (E ++ [k])) (some n.tip))
    (hheap : ∀ (r : Nat) cell, h0.length ≤ r → h[r]? = some cell → h'[r]? = some cell)
    (hlen : h.length ≤ h'.length)
    (hold : ∀ (r : Nat) cell, h0[r]? = some cell → ∃ cell', h'[r]? = some cell' ∧ cell'.data = cell.data ∧
      ((∃ Q, ¬ Covered (news.map (fun x => E ++ [k] ++ [x]) ++ rest) Q ∧ tipAt g1 Q = some (.inr r) ∧
          c.isShared (render Q) = true ∧ AttrsCopied c.conv cell.attrs cell'.attrs) ∨
        ((∀ Q, tipAt g1 Q = some (.inr r) → c.isShared (render Q) = true →
            Covered (news.map (fun x => E ++ [k] ++ [x]) ++ rest) Q) ∧ cell' = cell)))
    (hb : ∀ r, n = .dset r → r < h'.length)
    (hi : ∀ r Q, n = .dset r → tipAt g2 Q ≠ some (.inr r)) :
    CopyInv c g1 h0 (news.map (fun x => E ++ [k] ++ [x]) ++ rest) (insertAt k n E g2) h' := by
  have htip := tipAt_insert_leaf k n E g2 a2 kids2 hE hleaf
  have hinc := List.pairwise_cons.1 I.incomp
  -- what is covered now
  have hcovered : ∀ Q, Covered (news.map (fun x => E ++ [k] ++ [x]) ++ rest) Q →
      Covered ((E ++ [k]) :: rest) Q ∧ Q ≠ E ++ [k] := by
    rintro Q ⟨P, hP, hPQ⟩
    rcases List.mem_append.1 hP with hP | hP
    · obtain ⟨x, hx, rfl⟩ := List.mem_map.1 hP
      refine ⟨⟨E ++ [k], by simp, (List.prefix_append _ _).trans hPQ⟩, ?_⟩
      rintro rfl
      have := hPQ.length_le
      simp at this
    · refine ⟨⟨P, by simp [hP], hPQ⟩, ?_⟩
      rintro rfl
      exact (hinc.1 P hP).2 hPQ
  have hne_of_rest : ∀ P ∈ rest, ∀ E' k', P = E' ++ [k'] → ¬ (E ++ [k]) <+: E' := by
    intro P hP E' k' e hp
    exact (hinc.1 P hP).1 (e ▸ hp.trans (List.prefix_append _ _))
  constructor
  · -- stack
    intro P hP
    rcases List.mem_append.1 hP with hP | hP
    · obtain ⟨x, hx, rfl⟩ := List.mem_map.1 hP
      obtain ⟨a, rfl⟩ := hgrp (List.ne_nil_of_mem hx)
      refine ⟨E ++ [k], x, a, [], rfl, (hnews x).1 hx, ?_⟩
      have := nodeAt_insert_below k (.group a []) E g2 a2 kids2 hE []
      rw [this]; rfl
    · obtain ⟨E', k', a, kids, e, h1, h2⟩ := I.stk P (by simp [hP])
      have := htip E'
      rw [if_neg (by rintro rfl; exact hne_of_rest P hP _ k' e (List.prefix_refl _)),
        if_neg (hne_of_rest P hP E' k' e)] at this
      have h3 : tipAt g2 E' = some (.inl a) := by unfold tipAt; rw [h2]; rfl
      obtain ⟨kids', h4⟩ := nodeAt_group_of_tip _ _ _ (this.trans h3)
      exact ⟨E', k', a, kids', e, h1, h4⟩
  · -- incomparable
    rw [List.pairwise_append]
    refine ⟨?_, hinc.2, ?_⟩
    · rw [List.pairwise_map]
      refine hnd.imp ?_
      intro x y hxy
      have key : ∀ x y : Str, x ≠ y → ¬ (E ++ [k] ++ [x]) <+: (E ++ [k] ++ [y]) := by
        intro x y hxy hp
        rw [List.prefix_append_right_inj] at hp
        have := List.cons_prefix_cons.1 hp
        exact hxy this.1
      exact ⟨key x y hxy, key y x (Ne.symm hxy)⟩
    · intro P hP Q hQ
      obtain ⟨x, hx, rfl⟩ := List.mem_map.1 hP
      have h1 := hinc.1 Q hQ
      refine ⟨fun hp => h1.1 ((List.prefix_append _ _).trans hp), fun hp => ?_⟩
      rcases List.prefix_concat_iff.1 hp with e | e
      · exact h1.1 (by rw [e]; simp)
      · exact h1.2 e
  · -- nothing there yet
    intro Q hQ
    obtain ⟨h1, h2⟩ := hcovered Q hQ
    rw [← tipAt_none, htip, if_neg h2]
    split
    · rfl
    · rw [tipAt_none]; exact I.cov Q h1
  · -- copied
    intro Q hQ
    rw [htip]
    by_cases h1 : Q = E ++ [k]
    · subst h1; rw [if_pos rfl]; exact hself
    · rw [if_neg h1]
      by_cases h2 : (E ++ [k]) <+: Q
      · rw [if_pos h2]
        rcases prefix_cases h2 with rfl | ⟨x, R, rfl⟩
        · exact absurd rfl h1
        · have hx : x ∉ news := by
            intro hx
            refine hQ ⟨E ++ [k] ++ [x], ?_, ?_⟩
            · exact List.mem_append.2 (.inl (List.mem_map.2 ⟨x, hx, rfl⟩))
            · exact ⟨R, by simp⟩
          have h3 : nodeAt g1 (E ++ [k] ++ [x]) = none :=
            Classical.byContradiction fun hh => hx ((hnews x).2 hh)
          have h4 : tipAt g1 (E ++ [k] ++ x :: R) = none := by
            rw [tipAt_none, show E ++ [k] ++ x :: R = (E ++ [k] ++ [x]) ++ R by simp, nodeAt_append, h3]
            rfl
          rw [h4]
          trivial
      · rw [if_neg h2]
        refine (I.done Q ?_).mono hheap
        rintro ⟨P, hP, hPQ⟩
        rcases List.mem_cons.1 hP with rfl | hP
        · exact h2 hPQ
        · exact hQ ⟨P, List.mem_append.2 (.inr hP), hPQ⟩
  · exact Nat.le_trans I.len hlen
  · exact hold
  · intro Q r hr
    rw [htip] at hr
    split at hr
    · cases n with
      | group a ks => simp [Node.tip] at hr
      | dset d => simp [Node.tip] at hr; subst hr; exact hb d rfl
    · split at hr
      · simp at hr
      · exact Nat.lt_of_lt_of_le (I.bound Q r hr) hlen
  · intro Q Q' r hr hr'
    rw [htip] at hr hr'
    split at hr
    · rename_i e1
      cases n with
      | group a ks => simp [Node.tip] at hr
      | dset d =>
        simp [Node.tip] at hr; subst hr
        split at hr'
        · rename_i e2; rw [e1, e2]
        · split at hr'
          · simp at hr'
          · exact absurd hr' (hi d Q' rfl)
    · split at hr
      · simp at hr
      · split at hr'
        · cases n with
          | group a ks => simp [Node.tip] at hr'
          | dset d => simp [Node.tip] at hr'; subst hr'; exact absurd hr (hi d Q rfl)
        · split at hr'
          · simp at hr'
          · exact I.inj Q Q' r hr hr'

end Verif.Mem
