import Verif.Mem.CopyStep

namespace Verif.Mem
variable {V α σ : Type}

/-- The reasons for which a copy may raise an exception: an attribute cannot be converted, a selection
is given for a shared dataset, or the selection does not fit the dataset. -/
def CopyFails (c : CopyArgs V α σ) (g1 : Node V Nat) (h0 : Heap V α) (e : Err) : Prop :=
  (∃ Q a kids, nodeAt g1 Q = some (.group a kids) ∧ ∃ x ∈ a, c.conv x.2 = .error e) ∨
  (∃ (Q : List Str) (r : Nat) (cell : Cell V α), nodeAt g1 Q = some (.dset r) ∧ h0[r]? = some cell ∧
    ((c.isShared (render Q) = true ∧ (c.selection (render Q)).isSome ∧ e = .valueError) ∨
     (c.isShared (render Q) = false ∧ c.take (render Q) cell.data = .error e) ∨
     (∃ x ∈ cell.attrs, c.conv x.2 = .error e)))

theorem copyAttrs_error (conv : V → Except Err V) (a acc : List (Str × V)) (e : Err)
    (h : copyAttrs conv a acc = .error e) : ∃ x ∈ a, conv x.2 = .error e := by
  unfold copyAttrs at h
  have : ∃ x ∈ sortKeys a, conv x.2 = .error e := by
    generalize sortKeys a = l at h
    induction l generalizing acc with
    | nil => simp [pure, Except.pure] at h
    | cons x xs ih =>
      rw [List.foldlM_cons] at h
      cases hc : conv x.2 with
      | error e' =>
        have : copyAttr conv acc x = .error e' := by unfold copyAttr; rw [hc]
        rw [this] at h
        simp only [bind, Except.bind, Except.error.injEq] at h
        exact ⟨x, by simp, by rw [hc, h]⟩
      | ok w =>
        have : copyAttr conv acc x = .ok (setAttr x.1 w acc) := by unfold copyAttr; rw [hc]
        rw [this] at h
        obtain ⟨y, hy, hy2⟩ := ih _ h
        exact ⟨y, List.mem_cons_of_mem _ hy, hy2⟩
  obtain ⟨x, hx, hx2⟩ := this
  exact ⟨x, (sortKeys_perm a).mem_iff.1 hx, hx2⟩

/-- Number of turns the loop may need for the entry at a path. -/
noncomputable def weight (g1 : Node V Nat) (P : List Str) : Nat :=
  match nodeAt g1 P with
  | some n => sizeOf n
  | none => 0

theorem sum_kids (kids : List (Str × Node V Nat)) : (kids.map fun x => sizeOf x.2).sum ≤ sizeOf kids := by
  induction kids with
  | nil => simp
  | cons x xs ih =>
    obtain ⟨k, n⟩ := x
    simp only [List.map_cons, List.sum_cons, List.cons.sizeOf_spec, Prod.mk.sizeOf_spec]
    omega

theorem weight_kids (g1 : Node V Nat) (P : List Str) (a : List (Str × V))
    (kids : List (Str × Node V Nat)) (hn : nodeAt g1 P = some (.group a kids))
    (hnd : (kids.map Prod.fst).Nodup) :
    (((sortKeys kids).map fun x => P ++ [x.1]).map (weight g1)).sum + 1 ≤ weight g1 P := by
  have h1 : ((sortKeys kids).map fun x => P ++ [x.1]).map (weight g1) =
      (sortKeys kids).map fun x => sizeOf x.2 := by
    rw [List.map_map]
    refine List.map_congr_left fun x hx => ?_
    have hx' := (sortKeys_perm kids).mem_iff.1 hx
    obtain ⟨k, n⟩ := x
    have hl := (lookup_eq_some_iff kids hnd k n).2 hx'
    show weight g1 (P ++ [k]) = sizeOf n
    unfold weight
    rw [nodeAt_append, hn]
    simp only [Option.bind_some, nodeAt]
    rw [hl]
  rw [h1, ((sortKeys_perm kids).map fun x => sizeOf x.2).sum_nat]
  have h2 : weight g1 P = sizeOf (Node.group a kids) := by unfold weight; rw [hn]
  rw [h2, Node.group.sizeOf_spec]
  have := sum_kids kids
  omega

theorem copyLoop_mono (fields : Nat → List Str → Option FieldErr) (c : CopyArgs V α σ) (g1 : Node V Nat)
    (fuel : Nat) (S : List Str) (g2 : Node V Nat) (h : Heap V α)
    (r : Except Err (Node V Nat × Heap V α)) (hr : copyLoop fields c g1 fuel S g2 h = some r) (m : Nat)
    (hm : fuel ≤ m) : copyLoop fields c g1 m S g2 h = some r := by
  induction fuel generalizing S g2 h m with
  | zero =>
    cases S with
    | nil => cases m <;> exact hr
    | cons k S => simp [copyLoop] at hr
  | succ fuel ih =>
    cases S with
    | nil => cases m <;> exact hr
    | cons k S =>
      cases m with
      | zero => omega
      | succ m =>
        rw [copyLoop] at hr ⊢
        cases he : copyEntry fields c g1 k g2 h with
        | error e => rw [he] at hr; exact hr
        | ok x =>
          rw [he] at hr
          obtain ⟨new, g2', h'⟩ := x
          exact ih _ _ _ hr m (by omega)

section
variable (fields : Nat → List Str → Option FieldErr) (c : CopyArgs V α σ) (g1 : Node V Nat)
  (h0 : Heap V α) (src : CopySource g1 h0)
include src

theorem copyLoop_spec (hb : c.base = ['/']) (fuel : Nat) (S : List (List Str)) (g2 : Node V Nat) (h : Heap V α)
    (I : CopyInv c g1 h0 S g2 h) (hf : (S.map (weight g1)).sum ≤ fuel) :
    (∃ e, copyLoop fields c g1 fuel (S.map render) g2 h = some (.error e) ∧ CopyFails c g1 h0 e) ∨
    ∃ g2' h', copyLoop fields c g1 fuel (S.map render) g2 h = some (.ok (g2', h')) ∧
      CopyInv c g1 h0 [] g2' h' := by
  induction fuel generalizing S g2 h with
  | zero =>
    cases S with
    | nil => exact .inr ⟨g2, h, rfl, I⟩
    | cons P rest =>
      exfalso
      obtain ⟨E, k, a, kids, rfl, h1, h2⟩ := I.stk P (by simp)
      simp only [List.map_cons, List.sum_cons] at hf
      have : weight g1 (E ++ [k]) ≠ 0 := by
        unfold weight
        cases hn : nodeAt g1 (E ++ [k]) with
        | none => exact absurd hn h1
        | some n => cases n <;> simp
      omega
  | succ fuel ih =>
    cases S with
    | nil => exact .inr ⟨g2, h, rfl, I⟩
    | cons P rest =>
      obtain ⟨E, k, a, kids, rfl, h1, h2⟩ := I.stk P (by simp)
      simp only [List.map_cons, List.sum_cons] at hf
      simp only [List.map_cons]
      rw [copyLoop]
      cases hn : nodeAt g1 (E ++ [k]) with
      | none => exact absurd hn h1
      | some n =>
        match n with
        | .group a kids =>
          rcases step_group fields c g1 h0 src hb I a kids hn with ⟨e, he, hr⟩ | ⟨a', _, hr, I'⟩
          · rw [hr]
            exact .inl ⟨e, rfl, .inl ⟨_, a, kids, hn, copyAttrs_error _ _ _ _ he⟩⟩
          · rw [hr]
            simp only
            rw [← List.map_append]
            refine ih _ _ _ I' ?_
            have := weight_kids g1 (E ++ [k]) a kids hn (src.tidy _ a kids hn).1
            rw [List.map_append, List.sum_append]
            omega
        | .dset r =>
          obtain ⟨cell, hc, _⟩ := src.cell _ r hn
          have hw : weight g1 (E ++ [k]) ≠ 0 := by unfold weight; rw [hn]; simp
          cases hs : c.isShared (render (E ++ [k])) with
          | false =>
            rcases step_dset fields c g1 h0 src I r cell hn hc hs with ⟨e, he, hr⟩ | ⟨g2', h', hr, I'⟩
            · rw [hr]
              refine .inl ⟨e, rfl, .inr ⟨_, r, cell, hn, hc, ?_⟩⟩
              rcases he with he | he
              · exact .inr (.inl ⟨hs, he⟩)
              · exact .inr (.inr (copyAttrs_error _ _ _ _ he))
            · rw [hr]
              exact ih _ _ _ I' (by omega)
          | true =>
            rcases step_shared fields c g1 h0 src I r cell hn hc hs with ⟨e, he, hr⟩ | ⟨g2', h', hr, I'⟩
            · rw [hr]
              refine .inl ⟨e, rfl, .inr ⟨_, r, cell, hn, hc, ?_⟩⟩
              rcases he with he | he
              · exact .inl ⟨hs, he⟩
              · exact .inr (.inr (copyAttrs_error _ _ _ _ he))
            · rw [hr]
              exact ih _ _ _ I' (by omega)

theorem deepCopy_spec (hb : c.base = ['/']) (fuel : Nat) (hf : sizeOf g1 ≤ fuel) :
    (∃ e, deepCopy fields c g1 (.group [] []) h0 fuel = some (.error e) ∧ CopyFails c g1 h0 e) ∨
    ∃ g2' h', deepCopy fields c g1 (.group [] []) h0 fuel = some (.ok (g2', h')) ∧
      CopyInv c g1 h0 [] g2' h' := by
  obtain ⟨a, kids, e⟩ := src.root
  have hn : nodeAt g1 [] = some (.group a kids) := by rw [e]; rfl
  obtain ⟨hnd, hkp, hand⟩ := src.tidy [] a kids hn
  have hw := weight_kids g1 [] a kids hn hnd
  have hw0 : weight g1 [] = sizeOf g1 := by unfold weight; rw [hn, e]
  cases fuel with
  | zero => omega
  | succ fuel =>
    unfold deepCopy
    rw [hb, copyLoop]
    have hget1 : getItem fields g1 ['/'] ['/'] = .ok (.node (.group a kids)) := by rw [e]; rfl
    have hget2 : getItem fields (.group [] [] : Node V Nat) ['/'] ['/'] = .ok (.node (.group [] [])) := rfl
    have hentry : copyEntry fields c g1 ['/'] (.group [] []) h0 =
        match copyAttrs c.conv a [] with
        | .ok a' => .ok ((sortKeys kids).map fun x => childKey ['/'] x.1, .group a' [], h0)
        | .error e => .error e := by
      unfold copyEntry
      rw [hget1]
      simp only
      unfold copyGroup
      rw [if_pos hb.symm]
      simp only
      rw [hget2]
      rfl
    rw [hentry]
    cases hc : copyAttrs c.conv a [] with
    | error e => exact .inl ⟨e, rfl, .inl ⟨_, a, kids, hn, copyAttrs_error _ _ _ _ hc⟩⟩
    | ok a' =>
      simp only [List.append_nil]
      have hkeys : ((sortKeys kids).map fun x => childKey ['/'] x.1) =
          ((sortKeys kids).map fun x => [] ++ [x.1]).map render := by
        rw [List.map_map]
        refine List.map_congr_left fun x hx => ?_
        have hx' := hkp x ((sortKeys_perm kids).mem_iff.1 hx)
        exact childKey_render [] x.1 (by simp) hx'
      rw [hkeys]
      refine copyLoop_spec fields c g1 h0 src hb fuel _ _ _ ?_ (by omega)
      -- the first state
      have hmem : ∀ x, [x] ∈ ((sortKeys kids).map fun x => [] ++ [x.1]) ↔ nodeAt g1 [x] ≠ none := by
        intro x
        rw [e]
        simp only [nodeAt, List.nil_append, List.mem_map, List.cons.injEq, and_true]
        cases hh : kids.lookup x with
        | none =>
          have := (lookup_none_iff kids x).1 hh
          simp only [ne_eq, not_true_eq_false, iff_false]
          rintro ⟨y, hy, rfl⟩
          exact this (List.mem_map.2 ⟨y, (sortKeys_perm kids).mem_iff.1 hy, rfl⟩)
        | some ch =>
          simp only [ne_eq, reduceCtorEq, not_false_eq_true, iff_true]
          exact ⟨_, (sortKeys_perm kids).mem_iff.2 ((lookup_eq_some_iff kids hnd x ch).1 hh), rfl⟩
      have hform : ∀ P ∈ ((sortKeys kids).map fun x => ([] : List Str) ++ [x.1]), ∃ x, P = [x] := by
        intro P hP
        obtain ⟨x, _, rfl⟩ := List.mem_map.1 hP
        exact ⟨x.1, rfl⟩
      have htip : ∀ x R, tipAt (.group a' [] : Node V Nat) (x :: R) = none := by
        intro x R; simp [tipAt, nodeAt]
      have hcov : ∀ x R, Covered ((sortKeys kids).map fun x => ([] : List Str) ++ [x.1]) (x :: R) ↔
          nodeAt g1 [x] ≠ none := by
        intro x R
        rw [← hmem]
        constructor
        · rintro ⟨P, hP, hPQ⟩
          obtain ⟨y, rfl⟩ := hform P hP
          have := (List.cons_prefix_cons.1 hPQ).1
          exact this ▸ hP
        · intro hx
          exact ⟨[x], hx, ⟨R, rfl⟩⟩
      have hcov0 : ¬ Covered ((sortKeys kids).map fun x => ([] : List Str) ++ [x.1]) [] := by
        rintro ⟨P, hP, hPQ⟩
        obtain ⟨y, rfl⟩ := hform P hP
        simp at hPQ
      constructor
      · intro P hP
        obtain ⟨x, rfl⟩ := hform P hP
        exact ⟨[], x, a', [], rfl, (hmem x).1 hP, rfl⟩
      · rw [List.pairwise_map]
        have hnd' : ((sortKeys kids).map Prod.fst).Nodup :=
          ((sortKeys_perm kids).map Prod.fst).nodup_iff.2 hnd
        unfold List.Nodup at hnd'
        rw [List.pairwise_map] at hnd'
        refine hnd'.imp ?_
        intro x y hxy
        exact ⟨fun hp => hxy (List.cons_prefix_cons.1 hp).1,
          fun hp => hxy (List.cons_prefix_cons.1 hp).1.symm⟩
      · intro Q hQ
        cases Q with
        | nil => exact absurd hQ hcov0
        | cons x R => exact (tipAt_none _ _).1 (htip x R)
      · intro Q hQ
        cases Q with
        | nil =>
          have h1 : tipAt g1 [] = some (.inl a) := by unfold tipAt; rw [hn]; rfl
          rw [h1]
          exact copyAttrs_copied c.conv a a' hand hc
        | cons x R =>
          rw [htip]
          rw [hcov] at hQ
          have h1 : nodeAt g1 [x] = none := Classical.byContradiction hQ
          have h2 : tipAt g1 (x :: R) = none := by
            rw [tipAt_none, show x :: R = [x] ++ R from rfl, nodeAt_append, h1]; rfl
          rw [h2]
          trivial
      · exact Nat.le_refl _
      · intro r cell hr
        refine ⟨cell, hr, rfl, .inr ⟨fun Q t1 _ => ?_, rfl⟩⟩
        rw [tipAt_dset] at t1
        cases Q with
        | nil => rw [hn] at t1; simp at t1
        | cons x R =>
          rw [hcov]
          intro h1
          rw [show x :: R = [x] ++ R from rfl, nodeAt_append, h1] at t1
          simp at t1
      · intro Q r hr
        cases Q with
        | nil => simp [tipAt, nodeAt, Node.tip] at hr
        | cons x R => rw [htip] at hr; simp at hr
      · intro Q Q' r hr _
        cases Q with
        | nil => simp [tipAt, nodeAt, Node.tip] at hr
        | cons x R => rw [htip] at hr; simp at hr

end

end Verif.Mem
