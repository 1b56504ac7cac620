import Verif.Files.Spec
import Mathlib.Data.List.Perm.Basic

/-!
# Lemmas for lists of files
-/
namespace Verif.Files

theorem leStr_total (a b : Str) : leStr a b = true ∨ leStr b a = true := by
  induction a generalizing b with
  | nil => exact .inl rfl
  | cons x a ih =>
    cases b with
    | nil => exact .inr rfl
    | cons y b =>
      unfold leStr
      simp only [Bool.or_eq_true, decide_eq_true_eq, Bool.and_eq_true, beq_iff_eq]
      rcases Nat.lt_trichotomy x.toNat y.toNat with h | h | h
      · exact .inl (.inl h)
      · rcases ih b with g | g
        · exact .inl (.inr ⟨h, g⟩)
        · exact .inr (.inr ⟨h.symm, g⟩)
      · exact .inr (.inl h)

theorem leStr_trans (a b c : Str) (h1 : leStr a b = true) (h2 : leStr b c = true) : leStr a c = true := by
  induction a generalizing b c with
  | nil => rfl
  | cons x a ih =>
    cases b with
    | nil => cases h1
    | cons y b =>
      cases c with
      | nil => cases h2
      | cons z c =>
        rw [leStr] at h1 h2 ⊢
        simp only [Bool.or_eq_true, decide_eq_true_eq, Bool.and_eq_true, beq_iff_eq] at h1 h2 ⊢
        rcases h1 with h1 | ⟨h1, g1⟩ <;> rcases h2 with h2 | ⟨h2, g2⟩
        · exact .inl (by omega)
        · exact .inl (by omega)
        · exact .inl (by omega)
        · exact .inr ⟨by omega, ih b c g1 g2⟩

theorem leStr_antisymm (a b : Str) (h1 : leStr a b = true) (h2 : leStr b a = true) : a = b := by
  induction a generalizing b with
  | nil =>
    cases b with
    | nil => rfl
    | cons y b => cases h2
  | cons x a ih =>
    cases b with
    | nil => cases h1
    | cons y b =>
      rw [leStr] at h1 h2
      simp only [Bool.or_eq_true, decide_eq_true_eq, Bool.and_eq_true, beq_iff_eq] at h1 h2
      rcases h1 with h1 | ⟨h1, g1⟩ <;> rcases h2 with h2 | ⟨h2, g2⟩
      · omega
      · omega
      · omega
      · rw [ih b g1 g2]
        congr 1
        exact Char.toNat_inj.1 h1

theorem insertStr_perm (x : Str) (l : List Str) : (insertStr x l).Perm (x :: l) := by
  induction l with
  | nil => exact .refl _
  | cons y l ih =>
    unfold insertStr
    split
    · exact .refl _
    · exact (List.Perm.cons y ih).trans (List.Perm.swap x y l)

theorem sortStrs_perm (l : List Str) : (sortStrs l).Perm l := by
  induction l with
  | nil => exact .refl _
  | cons x l ih => exact (insertStr_perm x _).trans (ih.cons x)

theorem insertStr_sorted (x : Str) (l : List Str) (h : l.Pairwise (fun a b => leStr a b = true)) :
    (insertStr x l).Pairwise (fun a b => leStr a b = true) := by
  induction l with
  | nil => exact List.pairwise_singleton _ _
  | cons y l ih =>
    rw [List.pairwise_cons] at h
    unfold insertStr
    split
    · rename_i hxy
      rw [List.pairwise_cons]
      refine ⟨?_, List.pairwise_cons.2 h⟩
      intro z hz
      rcases List.mem_cons.1 hz with rfl | hz
      · exact hxy
      · exact leStr_trans _ _ _ hxy (h.1 z hz)
    · rename_i hxy
      rw [List.pairwise_cons]
      refine ⟨?_, ih h.2⟩
      intro z hz
      rcases List.mem_cons.1 ((insertStr_perm x l).mem_iff.1 hz) with rfl | hz
      · rcases leStr_total z y with g | g
        · exact absurd g hxy
        · exact g
      · exact h.1 z hz

theorem sortStrs_sorted (l : List Str) : (sortStrs l).Pairwise (fun a b => leStr a b = true) := by
  induction l with
  | nil => exact .nil
  | cons x l ih => exact insertStr_sorted x _ ih

theorem sorted_unique (l m : List Str) (hl : l.Pairwise (fun a b => leStr a b = true))
    (hm : m.Pairwise (fun a b => leStr a b = true)) (h : l.Perm m) : l = m := by
  induction l generalizing m with
  | nil => exact (List.nil_perm.1 h).symm
  | cons x l ih =>
    cases m with
    | nil => exact absurd h (by simp)
    | cons y m =>
      rw [List.pairwise_cons] at hl hm
      have hxy : x = y := by
        have hx : x ∈ y :: m := h.mem_iff.1 List.mem_cons_self
        have hy : y ∈ x :: l := h.mem_iff.2 List.mem_cons_self
        rcases List.mem_cons.1 hx with e | e
        · exact e
        · rcases List.mem_cons.1 hy with e' | e'
          · exact e'.symm
          · exact leStr_antisymm _ _ (hl.1 y e') (hm.1 x e)
      subst hxy
      rw [ih m hl.2 hm.2 (List.Perm.cons_inv h)]

theorem magic_iff (s : Str) : magic s = true ↔ Wild s := by
  unfold magic Wild
  rw [List.any_eq_true]
  constructor
  · rintro ⟨c, hc, h⟩
    simp only [Bool.or_eq_true, beq_iff_eq] at h
    rcases h with (rfl | rfl) | rfl
    · exact .inl hc
    · exact .inr (.inl hc)
    · exact .inr (.inr hc)
  · rintro (h | h | h)
    · exact ⟨_, h, rfl⟩
    · exact ⟨_, h, rfl⟩
    · exact ⟨_, h, rfl⟩

theorem checkPath_iff (W : World) (s : Str) (l : List Str) : checkPath W s = .ok l ↔ Present W s ∧ l = [s] := by
  have hz : isZarr s = true ↔ ".zarr".toList <:+ s := List.isSuffixOf_iff_suffix
  unfold checkPath Present
  by_cases h : isZarr s = true
  · rw [if_pos h, if_pos (hz.1 h)]
    cases hd : W.isdir s <;> simp [eq_comm]
  · rw [if_neg h, if_neg fun g => h (hz.2 g)]
    cases hd : W.isfile s <;> simp [eq_comm]

theorem collect_iff (f : Arg → Except PyErr (List Str)) (P : Arg → List Str → Prop) (l : List Arg)
    (h : ∀ a ∈ l, ∀ r, f a = .ok r ↔ P a r) (r : List Str) :
    collect f l = .ok r ↔ ∃ rs, List.Forall₂ P l rs ∧ r = rs.flatten := by
  induction l generalizing r with
  | nil =>
    simp only [collect, Except.ok.injEq]
    constructor
    · rintro rfl; exact ⟨[], .nil, rfl⟩
    · rintro ⟨rs, hrs, rfl⟩
      cases hrs
      rfl
  | cons a l ih =>
    have ih := ih fun b hb => h b (List.mem_cons_of_mem _ hb)
    have ha := h a List.mem_cons_self
    unfold collect
    constructor
    · intro hc
      cases h1 : f a with
      | error e => rw [h1] at hc; cases hc
      | ok r1 =>
        rw [h1] at hc
        simp only at hc
        cases h2 : collect f l with
        | error e => rw [h2] at hc; cases hc
        | ok r2 =>
          rw [h2] at hc
          obtain rfl := Except.ok.inj hc
          obtain ⟨rs, w1, w2⟩ := (ih r2).1 h2
          exact ⟨r1 :: rs, .cons ((ha r1).1 h1) w1, by rw [w2]; rfl⟩
    · rintro ⟨rs, hrs, rfl⟩
      cases hrs with
      | @cons _ r1 _ rs p1 p2 =>
        rw [(ha r1).2 p1, (ih _).2 ⟨rs, p2, rfl⟩]
        rfl

theorem paths_iff (W : World) (l : List Str) (r : List Str) :
    (∃ rs, List.Forall₂ (fun (a : Arg) r => ∃ s, a = .str s ∧ Present W s ∧ r = [s]) (l.map .str) rs ∧ r = rs.flatten) ↔
      (∀ f ∈ l, Present W f) ∧ r = l := by
  induction l generalizing r with
  | nil =>
    constructor
    · rintro ⟨rs, hrs, rfl⟩
      cases hrs
      exact ⟨by simp, rfl⟩
    · rintro ⟨-, rfl⟩
      exact ⟨[], .nil, rfl⟩
  | cons x l ih =>
    constructor
    · rintro ⟨rs, hrs, rfl⟩
      rw [List.map_cons] at hrs
      cases hrs with
      | cons p1 p2 =>
        obtain ⟨s, e, hp, rfl⟩ := p1
        obtain rfl := Arg.str.inj e
        obtain ⟨q1, q2⟩ := (ih _).1 ⟨_, p2, rfl⟩
        refine ⟨?_, by rw [List.flatten_cons, q2]; rfl⟩
        intro f hf
        rcases List.mem_cons.1 hf with rfl | hf
        · exact hp
        · exact q1 f hf
    · rintro ⟨h1, rfl⟩
      obtain ⟨rs, p2, e⟩ := (ih l).2 ⟨fun f hf => h1 f (List.mem_cons_of_mem _ hf), rfl⟩
      exact ⟨[x] :: rs, .cons ⟨x, rfl, h1 x List.mem_cons_self, rfl⟩ p2, by rw [List.flatten_cons, ← e]; rfl⟩

end Verif.Files
