import Verif.Cont.Lemmas
import Mathlib.Order.Nat

/-!
# C37: dataset specifications and axes are inherited

`mro H D = some l` says that class `D` of the hierarchy `H` exists and has the MRO `l`.
-/
namespace Verif.Cont

variable {N V : Type} [LinearOrder N]

/-- The definition of dataset `k` in the first class of `l` whose own body declares it. -/
def firstDeclared (H : List (ClassDef N V)) (l : List Nat) (k : N) : Option V :=
  l.findSome? fun c => (ownSpec H c).bind fun s => get s k

theorem findSome_mem {β γ : Type} (f : β → Option γ) (l : List β) (y : γ) (h : l.findSome? f = some y) :
    ∃ x ∈ l, f x = some y := by
  induction l with
  | nil => simp at h
  | cons x l ih =>
    rw [List.findSome?_cons] at h
    cases hx : f x with
    | none => rw [hx] at h; obtain ⟨z, hz, e⟩ := ih h; exact ⟨z, by simp [hz], e⟩
    | some w => rw [hx] at h; cases h; exact ⟨x, by simp, hx⟩

omit [LinearOrder N] in
theorem lookup_own {β : Type} (H : List (ClassDef N V)) (own : Nat → Option β) (D : Nat) (l : List Nat)
    (h : mro H D = some l) (c : Nat) (hc : c ∈ l) (s : β) (ho : own c = some s) :
    lookup H own c = some s := by
  obtain ⟨lc, hlc, _⟩ := mro_sublist H D l h c hc
  obtain ⟨m, rfl⟩ := mro_head H c lc hlc
  simp [lookup, hlc, ho]

omit [LinearOrder N] in
theorem lookup_mem {β : Type} (H : List (ClassDef N V)) (own : Nat → Option β) (D : Nat) (l : List Nat)
    (h : mro H D = some l) (c : Nat) (hc : c ∈ l) (s : β) (ho : lookup H own c = some s) :
    ∃ c' ∈ l, own c' = some s := by
  obtain ⟨lc, hlc, hsub⟩ := mro_sublist H D l h c hc
  rw [lookup, hlc] at ho
  obtain ⟨c', hc', e⟩ := findSome_mem own lc s ho
  exact ⟨c', hsub.subset hc', e⟩

theorem get_fold_mem (H : List (ClassDef N V)) (l : List Nat) (k : N) :
    get (l.reverse.foldl (addSpec H) []) k ≠ none ↔
      ∃ c ∈ l, ∃ s, lookup H (ownSpec H) c = some s ∧ get s k ≠ none := by
  induction l with
  | nil => simp [get]
  | cons c l ih =>
    rw [get_fold]
    cases hl : lookup H (ownSpec H) c with
    | none =>
      simp only [Option.bind_none, Option.none_or, List.mem_cons, exists_eq_or_imp, hl, ← ih]
      simp
    | some s =>
      simp only [List.mem_cons, exists_eq_or_imp, hl, Option.some.injEq, exists_eq_left', ← ih,
        Option.bind_some]
      cases get s k <;> simp

/-- C37: a class has a dataset exactly if one of the classes in its MRO declares it. -/
theorem C37_names (H : List (ClassDef N V)) (D : Nat) (l : List Nat) (h : mro H D = some l) (k : N) :
    k ∈ (classSpec H l).map (·.1) ↔ ∃ c ∈ l, ∃ s, ownSpec H c = some s ∧ k ∈ s.map (·.1) := by
  rw [classSpec, ← get_ne_none, get_sortDict, get_fold_mem]
  constructor
  · rintro ⟨c, hc, s, hs, hk⟩
    obtain ⟨c', hc', e⟩ := lookup_mem H _ D l h c hc s hs
    exact ⟨c', hc', s, e, (get_ne_none s k).1 hk⟩
  · rintro ⟨c, hc, s, hs, hk⟩
    exact ⟨c, hc, s, lookup_own H _ D l h c hc s hs, (get_ne_none s k).2 hk⟩

/-- C37: the names come in the same, increasing order on every process. -/
theorem C37_sorted (H : List (ClassDef N V)) (l : List Nat) :
    ((classSpec H l).map (·.1)).Pairwise (· < ·) := by
  rw [classSpec, sortDict_keys]; exact sortedSet_sorted _

/-- C37: the axes of a class are those declared by the classes in its MRO, each once and in order. -/
theorem C37_axes (H : List (ClassDef N V)) (D : Nat) (l : List Nat) (h : mro H D = some l) :
    (∀ x, x ∈ classAxes H l ↔ ∃ c ∈ l, ∃ s, ownAxes H c = some s ∧ x ∈ s) ∧
    (classAxes H l).Pairwise (· < ·) := by
  refine ⟨fun x => ?_, sortedSet_sorted _⟩
  rw [classAxes, mem_sortedSet, mem_fold_axes]
  constructor
  · rintro ⟨c, hc, s, hs, hk⟩
    obtain ⟨c', hc', e⟩ := lookup_mem H _ D l h c hc s hs
    exact ⟨c', hc', s, e, hk⟩
  · rintro ⟨c, hc, s, hs, hk⟩
    exact ⟨c, hc, s, lookup_own H _ D l h c hc s hs, hk⟩

theorem first_of_find (H : List (ClassDef N V)) (l : List Nat) (k : N) (s : Dict N V)
    (h : l.findSome? (ownSpec H) = some s) :
    (get s k).or (firstDeclared H l k) = firstDeclared H l k := by
  induction l with
  | nil => simp at h
  | cons c l ih =>
    unfold firstDeclared
    rw [List.findSome?_cons] at h ⊢
    cases ho : ownSpec H c with
    | none => rw [ho] at h; exact ih h
    | some s' =>
      rw [ho] at h
      cases h
      simp only [Option.bind_some]
      cases hg : get s k with
      | none => simp
      | some v => rfl

/-- C37: of several declarations the one of the class that comes first in the MRO counts, provided that
every class that inherits its `_dataset_spec` inherits it from the next class in the MRO that has one. -/
theorem C37_override_partial (H : List (ClassDef N V)) (l : List Nat)
    (hnext : ∀ pre c post, l = pre ++ c :: post →
      lookup H (ownSpec H) c = (c :: post).findSome? (ownSpec H)) (k : N) :
    get (classSpec H l) k = firstDeclared H l k := by
  rw [classSpec, get_sortDict]
  suffices ∀ post pre, l = pre ++ post →
      get (post.reverse.foldl (addSpec H) []) k = firstDeclared H post k from this l [] rfl
  intro post
  induction post with
  | nil => intro pre _; rfl
  | cons c post ih =>
    intro pre e
    rw [get_fold, ih (pre ++ [c]) (by rw [e]; simp), hnext pre c post e]
    cases hf : (c :: post).findSome? (ownSpec H) with
    | none =>
      rw [List.findSome?_cons] at hf
      unfold firstDeclared
      rw [List.findSome?_cons]
      cases ho : ownSpec H c with
      | none => rfl
      | some s => rw [ho] at hf; simp at hf
    | some s =>
      rw [Option.bind_some]
      rw [List.findSome?_cons] at hf
      cases ho : ownSpec H c with
      | none =>
        rw [ho] at hf
        rw [first_of_find H post k s hf]
        unfold firstDeclared
        rw [List.findSome?_cons, ho]; rfl
      | some s' =>
        rw [ho] at hf
        cases hf
        unfold firstDeclared
        rw [List.findSome?_cons, ho, Option.bind_some]
        cases get s k <;> rfl

/-- C37: in particular if every class of the MRO has a `_dataset_spec` of its own. -/
theorem C37_all_declare_partial (H : List (ClassDef N V)) (D : Nat) (l : List Nat) (h : mro H D = some l)
    (hall : ∀ c ∈ l, ownSpec H c ≠ none) (k : N) :
    get (classSpec H l) k = firstDeclared H l k := by
  apply C37_override_partial
  intro pre c post e
  have hc : c ∈ l := by rw [e]; simp
  cases ho : ownSpec H c with
  | none => exact absurd ho (hall c hc)
  | some s =>
    rw [lookup_own H _ D l h c hc s ho, List.findSome?_cons, ho]

theorem merge_one (m : List Nat) (n : Nat) (hn : m.length ≤ n) (hm : m.Nodup) :
    merge n [m, []] = some m := by
  induction m generalizing n with
  | nil => cases n <;> rfl
  | cons x m ih =>
    rw [List.nodup_cons] at hm
    cases n with
    | zero => simp at hn
    | succ n =>
      have hc : candidate [x :: m, []] = some x := by
        simp [candidate, good, hm.1]
      rw [merge, if_neg (by simp), hc]
      simp only [List.map_cons, List.map_nil]
      have : dropHead x (x :: m) = m := by simp [dropHead]
      have h2 : dropHead x [] = [] := rfl
      rw [this, h2, ih n (by simp at hn; omega) hm.2]
      rfl

theorem merge_single (m : List Nat) (b n : Nat) (hn : m.length + 1 ≤ n) (hm : (b :: m).Nodup) :
    merge n [b :: m, [b]] = some (b :: m) := by
  rw [List.nodup_cons] at hm
  cases n with
  | zero => omega
  | succ n =>
    have hc : candidate [b :: m, [b]] = some b := by simp [candidate, good, hm.1]
    rw [merge, if_neg (by simp), hc]
    simp only [List.map_cons, List.map_nil]
    have : dropHead b (b :: m) = m := by simp [dropHead]
    have h2 : dropHead b [b] = [] := by simp [dropHead]
    rw [this, h2, merge_one m n (by omega) hm.2]
    rfl

omit [LinearOrder N] in
/-- With single inheritance, an MRO goes on from each of its classes with the MRO of that class. -/
theorem mro_chain (H : List (ClassDef N V)) (hsingle : ∀ d ∈ H, d.bases.length ≤ 1) (D : Nat)
    (l : List Nat) (h : mro H D = some l) :
    l.Pairwise (· > ·) ∧ ∀ pre c post, l = pre ++ c :: post → mro H c = some (c :: post) := by
  induction H generalizing D l with
  | nil => simp [mro] at h
  | cons d rest ih =>
    have ih' := ih fun d hd => hsingle d (by simp [hd])
    by_cases hD : D = rest.length
    · have h0 := h
      rw [mro, if_pos hD] at h
      have hb := hsingle d (by simp)
      match hbs : d.bases, hb with
      | [], _ =>
        rw [hbs] at h
        simp [merge] at h
        subst h
        refine ⟨by simp, ?_⟩
        intro pre c post e
        cases pre with
        | nil => simp at e; obtain ⟨rfl, rfl⟩ := e; exact h0
        | cons x pre => simp at e
      | [b], _ =>
        rw [hbs] at h
        simp only [List.mapM_cons, List.mapM_nil, Option.bind_eq_bind, Option.pure_def] at h
        cases hmb : mro rest b with
        | none => rw [hmb] at h; simp at h
        | some mb =>
          obtain ⟨m, rfl⟩ := mro_head rest b mb hmb
          obtain ⟨hp, hs⟩ := ih' b _ hmb
          rw [hmb] at h
          simp only [Option.bind_some, List.cons_append, List.nil_append] at h
          rw [merge_single m b _ (by simp) (hp.imp fun h => Ne.symm (Nat.ne_of_lt h))] at h
          simp only [Option.map_some, Option.some.injEq] at h
          subst h
          constructor
          · rw [List.pairwise_cons]
            refine ⟨fun x hx => ?_, hp⟩
            obtain ⟨lx, hlx, _⟩ := mro_sublist rest b _ hmb x hx
            have := mro_lt rest x lx hlx
            show x < D
            omega
          · intro pre c post e
            cases pre with
            | nil =>
              simp at e
              obtain ⟨rfl, rfl⟩ := e
              exact h0
            | cons x pre =>
              rw [List.cons_append, List.cons.injEq] at e
              exact mro_cons d rest c _ (hs pre c post e.2)
    · rw [mro, if_neg hD] at h
      obtain ⟨hp, hs⟩ := ih' D l h
      exact ⟨hp, fun pre c post e => mro_cons d rest c _ (hs pre c post e)⟩

/-- C37: with single inheritance the declaration of the most derived class always counts. -/
theorem C37_single_inheritance_partial (H : List (ClassDef N V))
    (hsingle : ∀ d ∈ H, d.bases.length ≤ 1) (D : Nat) (l : List Nat) (h : mro H D = some l) (k : N) :
    get (classSpec H l) k = firstDeclared H l k := by
  apply C37_override_partial
  intro pre c post e
  rw [lookup, (mro_chain H hsingle D l h).2 pre c post e]
  rfl

/-- C37: what is declared on the instance comes on top. -/
theorem C37_instance (H : List (ClassDef N V)) (l : List Nat) (inst : Dict N V) (k : N) :
    get (instSpec H l inst) k = (get inst k).or (get (classSpec H l) k) := by
  rw [instSpec, get_sortDict, update, get_append]

/-- Class 0 declares dataset 0, class 1 inherits from it, class 2 inherits from it and redefines
dataset 0, class 3 inherits from 1 and 2 and declares dataset 5. (Newest first.) -/
def diamond : List (ClassDef Nat String) :=
  [⟨[1, 2], some [(5, "D")], none⟩, ⟨[0], some [(0, "B")], none⟩, ⟨[0], none, some [7]⟩,
    ⟨[], some [(0, "Base")], some [3]⟩]

/-- C37 fails in a diamond with a class that has no `_dataset_spec` of its own: the definition in class
2 comes first in the MRO of class 3, but that of class 0 is used. -/
theorem C37_diamond_violated : mro diamond 3 = some [3, 1, 2, 0] ∧
    firstDeclared diamond [3, 1, 2, 0] 0 = some "B" ∧
    get (classSpec diamond [3, 1, 2, 0]) 0 = some "Base" := by decide +kernel

example : 0 ∈ (classSpec diamond [3, 1, 2, 0]).map (·.1) ↔
    ∃ c ∈ [3, 1, 2, 0], ∃ s, ownSpec diamond c = some s ∧ 0 ∈ s.map (·.1) :=
  C37_names diamond 3 _ (by decide +kernel) 0

example : classAxes diamond [3, 1, 2, 0] = [3, 7] := by decide +kernel

/-- A diamond in which every class has a `_dataset_spec` meets the hypotheses. -/
example : get (classSpec ([⟨[1, 2], some [(5, "D")], none⟩, ⟨[0], some [(0, "B")], none⟩,
      ⟨[0], some [], none⟩, ⟨[], some [(0, "Base")], some [3]⟩] : List (ClassDef Nat String)) [3, 1, 2, 0]) 0
    = some "B" :=
  (C37_all_declare_partial _ 3 _ (by decide +kernel) (by decide +kernel) 0).trans (by decide +kernel)

/-- And so does a chain in which the middle class declares nothing. -/
example : get (classSpec ([⟨[1], some [(0, "C")], none⟩, ⟨[0], none, none⟩,
      ⟨[], some [(0, "Base"), (4, "Base")], none⟩] : List (ClassDef Nat String)) [2, 1, 0]) 0 = some "C" :=
  (C37_single_inheritance_partial _ (by decide) 2 _ (by decide +kernel) 0).trans (by decide +kernel)

end Verif.Cont
