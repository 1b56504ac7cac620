import Verif.Cont.Model
import Mathlib.Order.Basic
import Mathlib.Tactic.Tauto

/-! Lemmas about the MRO and about dictionaries. -/
namespace Verif.Cont

variable {N V : Type}

/-! ### MRO -/

theorem dropHead_sublist (h : Nat) (s out : List Nat) (hs : (dropHead h s).Sublist out) :
    s.Sublist (h :: out) := by
  unfold dropHead at hs
  cases s with
  | nil => exact List.nil_sublist _
  | cons x s =>
    by_cases hx : x = h
    · rw [if_pos (by simp [hx])] at hs
      subst hx
      exact hs.cons_cons x
    · rw [if_neg (by simp [hx])] at hs
      exact hs.cons h

theorem merge_sublist (n : Nat) (seqs : List (List Nat)) (out : List Nat) (h : merge n seqs = some out) :
    ∀ s ∈ seqs, s.Sublist out := by
  induction n generalizing seqs out with
  | zero =>
    unfold merge at h
    split at h
    · rename_i he
      intro s hs
      have : s.isEmpty = true := List.all_eq_true.1 he s hs
      rw [List.isEmpty_iff.1 this]
      exact List.nil_sublist _
    · simp at h
  | succ n ih =>
    unfold merge at h
    split at h
    · rename_i he
      intro s hs
      have : s.isEmpty = true := List.all_eq_true.1 he s hs
      rw [List.isEmpty_iff.1 this]
      exact List.nil_sublist _
    · cases hc : candidate seqs with
      | none => rw [hc] at h; simp at h
      | some x =>
        rw [hc] at h
        simp only [Option.map_eq_some_iff] at h
        obtain ⟨out', h1, rfl⟩ := h
        intro s hs
        exact dropHead_sublist x s out' (ih _ _ h1 _ (List.mem_map_of_mem hs))

theorem merge_mem (n : Nat) (seqs : List (List Nat)) (out : List Nat) (h : merge n seqs = some out) :
    ∀ x ∈ out, ∃ s ∈ seqs, x ∈ s := by
  induction n generalizing seqs out with
  | zero =>
    unfold merge at h
    split at h
    · cases h; simp
    · simp at h
  | succ n ih =>
    unfold merge at h
    split at h
    · cases h; simp
    · cases hc : candidate seqs with
      | none => rw [hc] at h; simp at h
      | some y =>
        rw [hc] at h
        simp only [Option.map_eq_some_iff] at h
        obtain ⟨out', h1, rfl⟩ := h
        intro x hx
        rcases List.mem_cons.1 hx with rfl | hx
        · have := List.mem_of_find?_eq_some hc
          obtain ⟨s, hs, hh⟩ := List.mem_filterMap.1 this
          exact ⟨s, hs, List.mem_of_head? hh⟩
        · obtain ⟨s', hs', hxs⟩ := ih _ _ h1 x hx
          obtain ⟨s, hs, rfl⟩ := List.mem_map.1 hs'
          refine ⟨s, hs, ?_⟩
          unfold dropHead at hxs
          split at hxs
          · exact List.mem_of_mem_tail hxs
          · exact hxs

theorem mapM_mem {β γ : Type} (f : β → Option γ) (l : List β) (out : List γ) (h : l.mapM f = some out) :
    (∀ y ∈ out, ∃ x ∈ l, f x = some y) ∧ ∀ x ∈ l, ∃ y ∈ out, f x = some y := by
  induction l generalizing out with
  | nil => simp at h; subst h; simp
  | cons x l ih =>
    rw [List.mapM_cons] at h
    simp only [Option.bind_eq_bind, Option.bind_eq_some_iff, Option.pure_def] at h
    obtain ⟨y, hy, ys, hys, e⟩ := h
    cases e
    obtain ⟨h1, h2⟩ := ih ys hys
    constructor
    · intro z hz
      rcases List.mem_cons.1 hz with rfl | hz
      · exact ⟨x, by simp, hy⟩
      · obtain ⟨w, hw, e⟩ := h1 z hz; exact ⟨w, by simp [hw], e⟩
    · intro z hz
      rcases List.mem_cons.1 hz with rfl | hz
      · exact ⟨y, by simp, hy⟩
      · obtain ⟨w, hw, e⟩ := h2 z hz; exact ⟨w, by simp [hw], e⟩

theorem mro_lt (H : List (ClassDef N V)) (c : Nat) (l : List Nat) (h : mro H c = some l) :
    c < H.length := by
  induction H with
  | nil => simp [mro] at h
  | cons d rest ih =>
    unfold mro at h
    split at h
    · rename_i hc; simp [hc]
    · have := ih h; simp; omega

/-- An MRO starts with its class. -/
theorem mro_head (H : List (ClassDef N V)) (c : Nat) (l : List Nat) (h : mro H c = some l) :
    ∃ m, l = c :: m := by
  induction H with
  | nil => simp [mro] at h
  | cons d rest ih =>
    unfold mro at h
    split at h
    · cases hm : d.bases.mapM (mro rest) with
      | none => rw [hm] at h; simp at h
      | some ms =>
        rw [hm] at h
        simp only [Option.map_eq_some_iff] at h
        obtain ⟨m, _, rfl⟩ := h
        exact ⟨m, rfl⟩
    · exact ih h

theorem mro_cons (d : ClassDef N V) (rest : List (ClassDef N V)) (c : Nat) (l : List Nat)
    (h : mro rest c = some l) : mro (d :: rest) c = some l := by
  have := mro_lt rest c l h
  rw [mro, if_neg (by omega), h]

/-- The MRO of every class in the MRO of a class is contained in it, in the same order. -/
theorem mro_sublist (H : List (ClassDef N V)) (D : Nat) (l : List Nat) (h : mro H D = some l) :
    ∀ c ∈ l, ∃ lc, mro H c = some lc ∧ lc.Sublist l := by
  induction H generalizing D l with
  | nil => simp [mro] at h
  | cons d rest ih =>
    have h0 := h
    unfold mro at h
    split at h
    · rename_i hD
      cases hm : d.bases.mapM (mro rest) with
      | none => rw [hm] at h; simp at h
      | some ms =>
        rw [hm] at h
        simp only [Option.map_eq_some_iff] at h
        obtain ⟨m, hmerge, rfl⟩ := h
        obtain ⟨hm1, hm2⟩ := mapM_mem _ _ _ hm
        intro c hc
        rcases List.mem_cons.1 hc with rfl | hc
        · exact ⟨_, h0, List.Sublist.refl _⟩
        · obtain ⟨s, hs, hcs⟩ := merge_mem _ _ _ hmerge c hc
          obtain ⟨mb, hmb, hcb⟩ : ∃ mb ∈ ms, c ∈ mb := by
            rcases List.mem_append.1 hs with hs | hs
            · exact ⟨s, hs, hcs⟩
            · rw [List.mem_singleton] at hs
              subst hs
              obtain ⟨mb, hmb, e⟩ := hm2 c hcs
              obtain ⟨m', rfl⟩ := mro_head rest c mb e
              exact ⟨_, hmb, by simp⟩
          obtain ⟨b, _, hb⟩ := hm1 mb hmb
          obtain ⟨lc, hlc, hsub⟩ := ih b mb hb c hcb
          refine ⟨lc, mro_cons d rest c lc hlc, ?_⟩
          exact (hsub.trans (merge_sublist _ _ _ hmerge mb (by simp [hmb]))).cons D
    · intro c hc
      obtain ⟨lc, hlc, hsub⟩ := ih D l h c hc
      exact ⟨lc, mro_cons d rest c lc hlc, hsub⟩

/-! ### Dictionaries -/

theorem get_append [BEq N] (d e : Dict N V) (k : N) : get (d ++ e) k = (get e k).or (get d k) := by
  unfold get
  rw [List.reverse_append, List.find?_append]
  cases e.reverse.find? (·.1 == k) <;> rfl

theorem get_ne_none [DecidableEq N] (d : Dict N V) (k : N) : get d k ≠ none ↔ k ∈ d.map (·.1) := by
  unfold get
  rw [Ne, Option.map_eq_none_iff, List.find?_eq_none]
  simp only [List.mem_reverse, List.mem_map, beq_iff_eq]
  constructor
  · intro h
    exact Classical.byContradiction fun hn => h fun x hx hk => hn ⟨x, hx, hk⟩
  · rintro ⟨x, hx, rfl⟩ h
    exact h x hx rfl

section
variable [LinearOrder N]

theorem mem_insertS (x y : N) (l : List N) : y ∈ insertS x l ↔ y = x ∨ y ∈ l := by
  induction l with
  | nil => simp [insertS]
  | cons z l ih =>
    unfold insertS
    split
    · simp
    · split
      · rename_i h; subst h; simp
      · simp [ih]; tauto

theorem insertS_sorted (x : N) (l : List N) (h : l.Pairwise (· < ·)) : (insertS x l).Pairwise (· < ·) := by
  induction l with
  | nil => simp [insertS]
  | cons z l ih =>
    rw [List.pairwise_cons] at h
    unfold insertS
    split
    · rename_i hx
      rw [List.pairwise_cons, List.pairwise_cons]
      refine ⟨?_, h.1, h.2⟩
      intro a ha
      rcases List.mem_cons.1 ha with rfl | ha
      · exact hx
      · exact lt_trans hx (h.1 a ha)
    · rename_i hx
      split
      · rw [List.pairwise_cons]; exact h
      · rename_i hne
        rw [List.pairwise_cons]
        refine ⟨?_, ih h.2⟩
        intro a ha
        rcases (mem_insertS x a l).1 ha with rfl | ha
        · exact lt_of_le_of_ne (not_lt.1 hx) (Ne.symm hne)
        · exact h.1 a ha

theorem mem_sortedSet (l : List N) (y : N) : y ∈ sortedSet l ↔ y ∈ l := by
  unfold sortedSet
  induction l with
  | nil => simp
  | cons x l ih => rw [List.foldr_cons, mem_insertS, ih, List.mem_cons]

theorem sortedSet_sorted (l : List N) : (sortedSet l).Pairwise (· < ·) := by
  unfold sortedSet
  induction l with
  | nil => simp
  | cons x l ih => rw [List.foldr_cons]; exact insertS_sorted x _ ih

theorem sortDict_keys (d : Dict N V) : (sortDict d).map (·.1) = sortedSet (d.map (·.1)) := by
  unfold sortDict
  have h : ∀ ks : List N, (∀ k ∈ ks, get d k ≠ none) →
      (ks.filterMap fun k => (get d k).map fun v => (k, v)).map (·.1) = ks := by
    intro ks
    induction ks with
    | nil => simp
    | cons k ks ih =>
      intro hk
      cases hg : get d k with
      | none => exact absurd hg (hk k (by simp))
      | some v =>
        rw [List.filterMap_cons_some (b := (k, v)) (by rw [hg]; rfl), List.map_cons,
          ih fun k hk' => hk k (by simp [hk'])]
  exact h _ fun k hk => (get_ne_none d k).2 ((mem_sortedSet _ _).1 hk)

theorem get_of_sorted (l : Dict N V) (h : (l.map (·.1)).Nodup) (k : N) (v : V) (hm : (k, v) ∈ l) :
    get l k = some v := by
  induction l with
  | nil => simp at hm
  | cons x l ih =>
    rw [List.map_cons, List.nodup_cons] at h
    rw [show x :: l = [x] ++ l from rfl, get_append]
    rcases List.mem_cons.1 hm with rfl | hm
    · cases hg : get l k with
      | none => simp [get]
      | some w =>
        have := (get_ne_none l k).1 (by rw [hg]; simp)
        exact absurd this h.1
    · rw [ih h.2 hm]; rfl

theorem get_sortDict (d : Dict N V) (k : N) : get (sortDict d) k = get d k := by
  have hnd : ((sortDict d).map (·.1)).Nodup := by
    rw [sortDict_keys]
    exact (sortedSet_sorted _).imp fun h => ne_of_lt h
  cases hg : get d k with
  | none =>
    cases hs : get (sortDict d) k with
    | none => rfl
    | some w =>
      have := (get_ne_none _ k).1 (by rw [hs]; simp)
      rw [sortDict_keys, mem_sortedSet] at this
      exact absurd hg ((get_ne_none d k).2 this)
  | some v =>
    apply get_of_sorted _ hnd
    unfold sortDict
    rw [List.mem_filterMap]
    exact ⟨k, (mem_sortedSet _ _).2 ((get_ne_none d k).1 (by rw [hg]; simp)), by rw [hg]; rfl⟩

end

/-- The loop over the reversed MRO, seen from the front of the MRO. -/
theorem get_fold [DecidableEq N] (H : List (ClassDef N V)) (c : Nat) (l : List Nat) (k : N) :
    get ((c :: l).reverse.foldl (addSpec H) []) k
      = ((lookup H (ownSpec H) c).bind fun s => get s k).or (get (l.reverse.foldl (addSpec H) []) k) := by
  rw [List.reverse_cons, List.foldl_append]
  show get (addSpec H _ c) k = _
  unfold addSpec
  cases lookup H (ownSpec H) c with
  | none => rfl
  | some s =>
    show get (update _ s) k = _
    rw [update, get_append]; rfl

theorem mem_fold_axes (H : List (ClassDef N V)) (l : List Nat) (x : N) :
    x ∈ l.reverse.foldl (addAxes H) [] ↔ ∃ c ∈ l, ∃ s, lookup H (ownAxes H) c = some s ∧ x ∈ s := by
  induction l with
  | nil => simp
  | cons c l ih =>
    rw [List.reverse_cons, List.foldl_append]
    show x ∈ addAxes H (l.reverse.foldl (addAxes H) []) c ↔ _
    generalize l.reverse.foldl (addAxes H) [] = acc at ih ⊢
    unfold addAxes
    cases hl : lookup H (ownAxes H) c with
    | none => simp [ih, hl]
    | some s =>
      simp only [List.mem_append, ih, List.mem_cons, exists_eq_or_imp, hl, Option.some.injEq,
        exists_eq_left']
      exact or_comm

end Verif.Cont
