import Verif.Mpi.Lemmas

/-! # Lemmas on collecting blocks into one array -/
namespace Verif.Mpi

variable {d : Nat} {α : Type}

/-- The block `V` of process `r` is in its place in `A`. -/
def Placed (gs : Idx d) (a : Fin d) (P r : Nat) (V A : Arr d α) : Prop :=
  ∀ i, Inside V.shape i → A.val (upd i a (i a + blockStart (gs a) P r)) = V.val i

theorem axisSl_lo (gs : Idx d) (a : Fin d) {P r : Nat} (hr : r < P) (k : Fin d) :
    min (axisSl gs a (bounds (gs a) P r) k).1 (gs k) = if k = a then blockStart (gs a) P r else 0 := by
  have hle := block_le (gs a) P hr
  unfold axisSl
  by_cases h : k = a
  · subst h; rw [upd_self, bounds_eq _ _ hr, if_pos rfl]; simp only; omega
  · rw [upd_ne _ _ _ h, if_neg h]; simp

theorem axisSl_hi (gs : Idx d) (a : Fin d) {P r : Nat} (hr : r < P) (k : Fin d) :
    min (axisSl gs a (bounds (gs a) P r) k).2 (gs k)
      = if k = a then blockStart (gs a) P r + blockLen (gs a) P r else gs k := by
  have hle := block_le (gs a) P hr
  unfold axisSl
  by_cases h : k = a
  · subst h; rw [upd_self, bounds_eq _ _ hr, if_pos rfl]; simp only; omega
  · rw [upd_ne _ _ _ h, if_neg h]; simp

theorem slice_shape (gs : Idx d) (a : Fin d) {P r : Nat} (hr : r < P) (A V : Arr d α)
    (hA : A.shape = gs) (hV : V.shape = upd gs a (blockLen (gs a) P r)) :
    V.shape = (A.slice (axisSl gs a (bounds (gs a) P r))).shape := by
  funext k
  show _ = min (axisSl gs a (bounds (gs a) P r) k).2 (A.shape k)
    - min (axisSl gs a (bounds (gs a) P r) k).1 (A.shape k)
  rw [hA, axisSl_lo gs a hr, axisSl_hi gs a hr, hV]
  by_cases h : k = a
  · subst h; rw [upd_self]; simp only [if_true]; omega
  · rw [upd_ne _ _ _ h]; simp only [if_neg h]; omega

theorem placed_put (gs : Idx d) (a : Fin d) {P r : Nat} (hr : r < P) (A V : Arr d α)
    (hA : A.shape = gs) (hV : V.shape = upd gs a (blockLen (gs a) P r)) :
    Placed gs a P r V (A.put (axisSl gs a (bounds (gs a) P r)) V) := by
  intro i hi
  rw [hV] at hi
  have hin : A.inSlice (axisSl gs a (bounds (gs a) P r)) (upd i a (i a + blockStart (gs a) P r)) := by
    intro k
    rw [hA, axisSl_lo gs a hr, axisSl_hi gs a hr]
    have := hi k
    by_cases h : k = a
    · subst h; rw [upd_self] at this ⊢; simp only [if_true]; omega
    · rw [upd_ne _ _ _ h] at this ⊢; simp only [if_neg h]; omega
  rw [put_inside _ _ _ (slice_shape gs a hr A V hA hV) _ hin]
  congr 1
  funext k
  rw [hA, axisSl_lo gs a hr]
  by_cases h : k = a
  · subst h; rw [upd_self]; simp
  · rw [upd_ne _ _ _ h]; simp [h]

theorem placed_keep (gs : Idx d) (a : Fin d) {P r q : Nat} (hr : r < P) (hqr : q ≠ r)
    (A V W : Arr d α) (hA : A.shape = gs) (hW : W.shape = upd gs a (blockLen (gs a) P q))
    (h : Placed gs a P q W A) :
    Placed gs a P q W (A.put (axisSl gs a (bounds (gs a) P r)) V) := by
  intro i hi
  rw [put_outside]
  · exact h i hi
  · intro hin
    have h1 := hin a
    rw [hA, axisSl_lo gs a hr, axisSl_hi gs a hr] at h1
    simp only [if_true] at h1
    rw [upd_self] at h1
    have h2 := hi a
    rw [hW, upd_self] at h2
    refine hqr (Split.blk_owner_unique (gs a) P (i a + blockStart (gs a) P q) r q h1.1 ?_
      (Nat.le_add_left _ _) ?_)
    · rw [← blockStart_eq, blockStart_succ]; exact h1.2
    · rw [← blockStart_eq, blockStart_succ]; omega

/-- Collecting blocks in any order puts each in its place. -/
theorem collect_list (gs : Idx d) (a : Fin d) (P : Nat) (buf : Nat → Arr d α)
    (hbuf : ∀ r, r < P → (buf r).shape = upd gs a (blockLen (gs a) P r)) (l : List Nat)
    (hl : ∀ r ∈ l, r < P) (A : Arr d α) (hA : A.shape = gs) (D : Nat → Prop)
    (hD : ∀ r, D r → r < P ∧ Placed gs a P r (buf r) A) :
    ∃ C, l.foldlM (fun A ri => A.assign (axisSl gs a (bounds (gs a) P ri)) (buf ri)) A = .ok C ∧
      C.shape = gs ∧ ∀ r, (D r ∨ r ∈ l) → Placed gs a P r (buf r) C := by
  induction l generalizing A D with
  | nil => exact ⟨A, rfl, hA, fun r h => (hD r (by simpa using h)).2⟩
  | cons x xs ih =>
    have hx := hl x (by simp)
    have hok := assign_ok A (buf x) _ (slice_shape gs a hx A (buf x) hA (hbuf x hx))
    obtain ⟨C, h1, h2, h3⟩ := ih (fun r hr => hl r (by simp [hr]))
      (A.put (axisSl gs a (bounds (gs a) P x)) (buf x)) hA (fun r => D r ∨ r = x) (by
        intro r hr
        by_cases hrx : r = x
        · subst hrx; exact ⟨hx, placed_put gs a hx A _ hA (hbuf r hx)⟩
        · have hDr : D r := hr.resolve_right hrx
          obtain ⟨h4, h5⟩ := hD r hDr
          exact ⟨h4, placed_keep gs a hx hrx A _ _ hA (hbuf r h4) h5⟩)
    refine ⟨C, ?_, h2, fun r hr => h3 r ?_⟩
    · rw [List.foldlM_cons, hok]; exact h1
    · rcases hr with h | h
      · exact .inl (.inl h)
      · rcases List.mem_cons.1 h with h | h
        · exact .inl (.inr h)
        · exact .inr h

theorem collect_spec (gs : Idx d) (a : Fin d) (P : Nat) (buf : Nat → Arr d α)
    (hbuf : ∀ r, r < P → (buf r).shape = upd gs a (blockLen (gs a) P r)) (A : Arr d α)
    (hA : A.shape = gs) :
    ∃ C, collect gs a P buf A = .ok C ∧ C.shape = gs ∧ ∀ r, r < P → Placed gs a P r (buf r) C := by
  obtain ⟨C, h1, h2, h3⟩ := collect_list gs a P buf hbuf (List.range P)
    (fun r hr => List.mem_range.1 hr) A hA (fun _ => False) (fun r hr => hr.elim)
  exact ⟨C, h1, h2, fun r hr => h3 r (.inr (List.mem_range.2 hr))⟩

/-- Blocks in their places make up the concatenation. -/
theorem isConcat_of_placed (gs : Idx d) (a : Fin d) (P : Nat) (hP : 0 < P) (loc : Nat → Arr d α)
    (hloc : ∀ r, r < P → (loc r).shape = upd gs a (blockLen (gs a) P r)) (C : Arr d α)
    (hC : C.shape = gs) (h : ∀ r, r < P → Placed gs a P r (loc r) C) : IsConcat loc a P C := by
  have hsum : ∀ r, r ≤ P → ((List.range r).map fun q => (loc q).shape a).sum = blockStart (gs a) P r := by
    intro r hr
    rw [← sum_blockLen]
    congr 1
    apply List.map_congr_left
    intro q hq
    rw [hloc q (by have := List.mem_range.1 hq; omega), upd_self]
  constructor
  · rw [hsum P (Nat.le_refl _), blockStart_last _ _ hP, hC]
  · intro r hr k hk; rw [hC, hloc r hr, upd_ne _ _ _ hk]
  · intro r hr i hi
    rw [hsum r (by omega)]
    exact h r hr i hi

/-- If the blocks are those of a global array, the concatenation is that array. -/
theorem agrees_of_placed (G : Arr d α) (a : Fin d) (P : Nat) (hP : 0 < P) (loc : Nat → Arr d α)
    (hloc : ∀ r, r < P → IsBlock G a P r (loc r)) (C : Arr d α) (hC : C.shape = G.shape)
    (h : ∀ r, r < P → Placed G.shape a P r (loc r) C) : Agrees C G := by
  refine ⟨hC, fun i hi => ?_⟩
  rw [hC] at hi
  obtain ⟨r, hr, h1, h2⟩ := block_owner (G.shape a) P hP (i a) (hi a)
  have hin : Inside (loc r).shape (upd i a (i a - blockStart (G.shape a) P r)) := by
    intro k
    by_cases hk : k = a
    · subst hk; rw [upd_self, (hloc r hr).axis]; omega
    · rw [upd_ne _ _ _ hk, (hloc r hr).others k hk]; exact hi k
  have h3 := h r hr _ hin
  have h4 := (hloc r hr).elems _ hin
  rw [h4] at h3
  have hidx : upd (upd i a (i a - blockStart (G.shape a) P r)) a
      (upd i a (i a - blockStart (G.shape a) P r) a + blockStart (G.shape a) P r) = i := by
    funext k
    by_cases hk : k = a
    · subst hk; rw [upd_self, upd_self]; omega
    · rw [upd_ne _ _ _ hk, upd_ne _ _ _ hk]
  rw [hidx] at h3
  exact h3

theorem isBlock_shape {G A : Arr d α} {a : Fin d} {P r : Nat} (h : IsBlock G a P r A) :
    A.shape = upd G.shape a (blockLen (G.shape a) P r) := by
  funext k
  by_cases hk : k = a
  · subst hk; rw [upd_self, h.axis]
  · rw [upd_ne _ _ _ hk, h.others k hk]

theorem foldlM_congr {β γ : Type} (f g : γ → β → Except PyErr γ) (l : List β)
    (h : ∀ x ∈ l, ∀ y, f y x = g y x) (y : γ) : l.foldlM f y = l.foldlM g y := by
  induction l generalizing y with
  | nil => rfl
  | cons x xs ih =>
    rw [List.foldlM_cons, List.foldlM_cons, h x (by simp) y]
    congr 1
    funext z
    exact ih (fun x' hx' => h x' (by simp [hx'])) z

theorem full_lo (A : Arr d α) (k : Fin d) : min (A.full k).1 (A.shape k) = 0 := by simp [Arr.full]
theorem full_hi (A : Arr d α) (k : Fin d) : min (A.full k).2 (A.shape k) = A.shape k := by
  simp [Arr.full]

theorem put_full (A V : Arr d α) (h : V.shape = A.shape) :
    A.assign A.full V = .ok (A.put A.full V) ∧ Agrees (A.put A.full V) V := by
  have hsh : V.shape = (A.slice A.full).shape := by
    funext k
    show _ = min (A.full k).2 (A.shape k) - min (A.full k).1 (A.shape k)
    rw [full_lo, full_hi, h]; rfl
  refine ⟨assign_ok _ _ _ hsh, h.symm, fun i hi => ?_⟩
  have hin : A.inSlice A.full i := fun k => by
    rw [full_lo, full_hi]; exact ⟨Nat.zero_le _, hi k⟩
  rw [put_inside _ _ _ hsh i hin]
  congr 1

theorem allgather_spec (gs : Idx d) (a : Fin d) (P : Nat) (loc : Nat → Arr d α)
    (hloc : ∀ r, r < P → (loc r).shape = upd gs a (blockLen (gs a) P r))
    (junk : Idx d → α) (junkB : Nat → Idx d → α) :
    ∃ C, allgather gs a P loc junk junkB = .ok C ∧ C.shape = gs ∧
      ∀ r, r < P → Placed gs a P r (loc r) C := by
  have hsh : ∀ r, r < P → (loc r).shape = (fresh gs a P junkB r).shape := by
    intro r hr; rw [hloc r hr]; show _ = upd gs a (num (gs a) P r); rw [num_eq _ _ hr]
  obtain ⟨C, h1, h2, h3⟩ := collect_spec gs a P
    (fun r => (fresh gs a P junkB r).put (fresh gs a P junkB r).full (loc r))
    (fun r hr => by
      rw [← hloc r hr]
      exact (put_full _ _ (hsh r hr)).2.1) ⟨gs, junk⟩ rfl
  refine ⟨C, ?_, h2, fun r hr i hi => ?_⟩
  · rw [← h1]
    unfold allgather collect
    apply foldlM_congr
    intro r hr y
    unfold bcastBuf
    rw [(put_full _ _ (hsh r (List.mem_range.1 hr))).1]
    rfl
  · have h4 := (put_full _ _ (hsh r hr)).2
    rw [h3 r hr i (by rw [h4.1]; exact hi), h4.2 i (by rw [h4.1]; exact hi)]

end Verif.Mpi
