import Verif.Build.Spec
import Mathlib.Tactic.Common

namespace Verif.Build

open Verif.Config (Val Cfg Class Obj Decl getAttr MostDerived readConfig readAll)

theorem lookup_append {β : Type} (l m : List (String × β)) (k : String) : (l ++ m).lookup k = (l.lookup k).or (m.lookup k) := by
  induction l with
  | nil => simp
  | cons x l ih =>
    obtain ⟨k', v⟩ := x
    simp only [List.cons_append, List.lookup_cons]
    cases k == k'
    · exact ih
    · rfl

theorem lookup_none_iff {β : Type} (l : List (String × β)) (k : String) : l.lookup k = none ↔ k ∉ l.map Prod.fst := by
  induction l with
  | nil => simp
  | cons x l ih =>
    obtain ⟨k', v⟩ := x
    simp only [List.lookup_cons, List.map_cons, List.mem_cons, not_or]
    cases h : k == k'
    · simp only [ih]
      have : k ≠ k' := by simpa using h
      tauto
    · have : k = k' := by simpa using h
      simp [this]

theorem lookup_filter (l : Cfg) (p : String → Bool) (k : String) (hp : p k = true) : (l.filter fun kv => p kv.1).lookup k = l.lookup k := by
  induction l with
  | nil => rfl
  | cons x l ih =>
    obtain ⟨k', v⟩ := x
    rw [List.filter_cons]
    by_cases h : k = k'
    · subst h
      simp [hp]
    · have hk : (k == k') = false := by simpa using h
      split <;> simp [List.lookup_cons, ih, hk]

theorem merge_lookup (n o : Cfg) (k : String) : (merge n o).lookup k = (n.lookup k).or (o.lookup k) := by
  unfold merge
  rw [lookup_append]
  cases h : n.lookup k with
  | some v => rfl
  | none =>
    rw [lookup_none_iff] at h
    rw [lookup_filter o (fun k => !(n.map Prod.fst).contains k) k (by simpa using h)]

theorem merge_mem (n o : Cfg) (kv : String × Val) (h : kv ∈ merge n o) : kv ∈ n ∨ kv ∈ o := by
  unfold merge at h
  rcases List.mem_append.1 h with h | h
  · exact .inl h
  · exact .inr (List.mem_filter.1 h).1

theorem merge_key (n o : Cfg) (kv : String × Val) (h : kv ∈ n ∨ kv ∈ o) : kv.1 ∈ (merge n o).map Prod.fst := by
  by_contra hc
  rw [← lookup_none_iff, merge_lookup] at hc
  rcases h with h | h
  · cases hn : n.lookup kv.1 with
    | none => exact (lookup_none_iff n kv.1).1 hn (List.mem_map_of_mem h)
    | some v => simp [hn] at hc
  · cases ho : o.lookup kv.1 with
    | none => exact (lookup_none_iff o kv.1).1 ho (List.mem_map_of_mem h)
    | some v => cases n.lookup kv.1 <;> simp [ho] at hc

/-! ### Names -/

theorem splitDots_ne (s : List Char) : splitDots s ≠ [] := by
  induction s with
  | nil => simp [splitDots]
  | cons c s ih =>
    unfold splitDots
    split
    · simp
    · split <;> simp

theorem joinDots_cons (c : Char) (w : List Char) (ws : List (List Char)) : joinDots ((c :: w) :: ws) = c :: joinDots (w :: ws) := by
  cases ws <;> rfl

theorem join_split (s : List Char) : joinDots (splitDots s) = s := by
  induction s with
  | nil => rfl
  | cons c s ih =>
    unfold splitDots
    split
    · rename_i h
      cases hs : splitDots s with
      | nil => exact absurd hs (splitDots_ne s)
      | cons w ws =>
        rw [hs] at ih
        simp [joinDots, ih, h]
    · cases hs : splitDots s with
      | nil => exact absurd hs (splitDots_ne s)
      | cons w ws =>
        rw [hs] at ih
        rw [joinDots_cons, ih]

theorem split_nodot (s : List Char) : ∀ w ∈ splitDots s, '.' ∉ w := by
  induction s with
  | nil => simp [splitDots]
  | cons c s ih =>
    unfold splitDots
    split
    · intro w hw
      rcases List.mem_cons.1 hw with rfl | hw
      · simp
      · exact ih w hw
    · rename_i hc
      cases hs : splitDots s with
      | nil => exact absurd hs (splitDots_ne s)
      | cons w ws =>
        rw [hs] at ih
        intro u hu
        rcases List.mem_cons.1 hu with rfl | hu
        · have := ih w List.mem_cons_self
          simp only [List.mem_cons, not_or]
          exact ⟨fun h => hc h.symm, this⟩
        · exact ih u (List.mem_cons_of_mem _ hu)

theorem joinDots_concat (l : List (List Char)) (w : List Char) (h : l ≠ []) : joinDots (l ++ [w]) = joinDots l ++ '.' :: w := by
  induction l with
  | nil => exact absurd rfl h
  | cons u l ih =>
    cases l with
    | nil => rfl
    | cons v l =>
      have := ih (by simp)
      simp only [List.cons_append] at this ⊢
      change u ++ '.' :: joinDots (v :: (l ++ [w])) = (u ++ '.' :: joinDots (v :: l)) ++ '.' :: w
      rw [this]
      simp

theorem split_last (m n : List Char) (hn : '.' ∉ n) : splitDots (m ++ '.' :: n) = splitDots m ++ [n] := by
  have h0 : splitDots n = [n] := by
    induction n with
    | nil => rfl
    | cons c n ih =>
      simp only [List.mem_cons, not_or] at hn
      unfold splitDots
      rw [if_neg (fun h => hn.1 h.symm), ih hn.2]
  induction m with
  | nil => simp [splitDots, h0]
  | cons c m ih =>
    rw [List.cons_append, splitDots, splitDots, ih]
    split
    · rfl
    · cases hs : splitDots m with
      | nil => exact absurd hs (splitDots_ne m)
      | cons w ws => rfl

theorem importClass_dot (W : World) (path : String) (m n : List Char) (hp : path.toList = m ++ '.' :: n) (hn : '.' ∉ n) (hm : m ≠ []) :
    importClass W path = match W.module (String.ofList m) with
      | .error e => .error (.module e)
      | .ok attrs =>
        match attrs (String.ofList n) with
        | none => .error .attributeError
        | some t => .ok t := by
  unfold importClass
  have h1 : (splitDots path.toList).dropLast = splitDots m := by rw [hp, split_last m n hn, List.dropLast_concat]
  have h2 : (splitDots path.toList).getLastD [] = n := by rw [hp, split_last m n hn]; simp
  simp only [h1, h2, join_split]
  rw [if_pos]
  · rfl
  · intro h
    have := congrArg String.toList h
    simp at this
    exact hm this

theorem importClass_nodot (W : World) (path : String) (hn : '.' ∉ path.toList) :
    importClass W path = match W.globals path with
      | none => .error .keyError
      | some t => .ok t := by
  have h0 : splitDots path.toList = [path.toList] := by
    have := split_last [] path.toList hn
    simp only [List.nil_append, splitDots, if_true] at this
    simpa using this
  unfold importClass
  simp [h0, joinDots]
  rfl

/-- A name with a dot is a path and a name. -/
theorem dots_cases (s : List Char) : '.' ∉ s ∨ ∃ m n, s = m ++ '.' :: n ∧ '.' ∉ n := by
  by_cases h : '.' ∈ s
  · right
    rcases List.eq_nil_or_concat (splitDots s) with he | ⟨l, w, he⟩
    · exact absurd he (splitDots_ne s)
    · have hj := join_split s
      have hw : '.' ∉ w := split_nodot s w (by rw [he]; simp)
      by_cases hl : l = []
      · subst hl
        rw [he] at hj
        simp [joinDots] at hj
        rw [← hj] at h
        exact absurd h hw
      · rw [he, List.concat_eq_append, joinDots_concat l w hl] at hj
        exact ⟨joinDots l, w, hj.symm, hw⟩
  · exact .inl h

theorem importClass_ok (W : World) (hg : ∀ n t, W.globals n = some t → t = .other) (path : String) (name : String) (cs : List Class) (h : importClass W path = .ok (.task name cs)) :
    ∃ m n attrs, path.toList = m ++ '.' :: n ∧ '.' ∉ n ∧ m ≠ [] ∧ W.module (String.ofList m) = .ok attrs ∧ attrs (String.ofList n) = some (.task name cs) := by
  have hglob : ∀ n, (match W.globals n with
      | none => Except.error FindErr.keyError
      | some t => .ok t) ≠ .ok (Thing.task name cs) := by
    intro n
    cases hgn : W.globals n with
    | none => simp
    | some t =>
      have := hg n t hgn
      subst this
      simp
  rcases dots_cases path.toList with hd | ⟨m, n, hp, hn⟩
  · rw [importClass_nodot W path hd] at h
    exact absurd h (hglob path)
  · by_cases hm : m = []
    · exfalso
      have h1 : splitDots path.toList = [[], n] := by rw [hp, split_last m n hn, hm]; rfl
      unfold importClass at h
      simp only [h1, List.dropLast, joinDots] at h
      rw [if_neg (by simp)] at h
      exact hglob _ h
    · rw [importClass_dot W path m n hp hn hm] at h
      cases hmod : W.module (String.ofList m) with
      | error e => rw [hmod] at h; cases h
      | ok attrs =>
        rw [hmod] at h
        simp only at h
        cases ha : attrs (String.ofList n) with
        | none => rw [ha] at h; cases h
        | some t =>
          rw [ha] at h
          cases h
          exact ⟨m, n, attrs, hp, hn, hm, hmod, ha⟩

theorem findClass_named (W : World) (path : String) (t : Thing) (h : Named W path t) : findClass W (.str path) = .ok t := by
  unfold findClass
  rcases h with h | ⟨h, m, n, attrs, hp, hn, hm, h1, h2⟩
  · simp [h]
  · simp [h, importClass_dot W path m n hp hn hm, h1, h2]

theorem findClass_task (W : World) (hg : ∀ n t, W.globals n = some t → t = .other) (v : Val) (name : String) (cs : List Class) (h : findClass W v = .ok (.task name cs)) :
    ∃ path, v = .str path ∧ Named W path (.task name cs) := by
  cases v with
  | str s =>
    refine ⟨s, rfl, ?_⟩
    unfold findClass at h
    simp only at h
    cases hl : W.locals s with
    | some t =>
      rw [hl] at h
      cases h
      exact .inl hl
    | none =>
      rw [hl] at h
      simp only at h
      refine .inr ⟨hl, ?_⟩
      apply importClass_ok W hg
      split at h <;> simp_all
  | _ => cases h

/-! ### Parameters -/

theorem setting_nil (k : String) : setting [] k = none := rfl

theorem setting_cons (g : Cfg) (gs : List Cfg) (k : String) : setting (g :: gs) k = (setting gs k).or (g.lookup k) := by
  unfold setting
  rw [List.reverse_cons, List.findSome?_append]
  cases h : List.findSome? (fun g => List.lookup k g) gs.reverse <;> simp

theorem addGroups_ok (W : World) (doc : Cfg) (l : List Val) (gs : List Cfg) (h : List.Forall₂ (fun v g => ∃ k, v = .str k ∧ doc.lookup k = some (.dict g)) l gs) (acc : Cfg) :
    ∃ ps, addGroups W doc l acc = .ok ps ∧ (∀ k, ps.lookup k = (setting gs k).or (acc.lookup k)) ∧
      (∀ kv ∈ ps, (∃ g ∈ gs, kv ∈ g) ∨ kv ∈ acc) ∧ (∀ g ∈ gs, ∀ kv ∈ g, kv.1 ∈ ps.map Prod.fst) ∧ ∀ kv ∈ acc, kv.1 ∈ ps.map Prod.fst := by
  induction h generalizing acc with
  | nil => exact ⟨acc, rfl, fun k => by simp [setting_nil], fun kv h => .inr h, by simp, fun kv h => List.mem_map_of_mem h⟩
  | @cons v g l gs hv hl ih =>
    obtain ⟨k, rfl, hk⟩ := hv
    obtain ⟨ps, h1, h2, h3, h4, h5⟩ := ih (merge g acc)
    have hm : ∀ kv : String × Val, kv.1 ∈ (merge g acc).map Prod.fst → kv.1 ∈ ps.map Prod.fst := by
      intro kv hkv
      obtain ⟨kv', ha, hb⟩ := List.mem_map.1 hkv
      rw [← hb]
      exact h5 kv' ha
    refine ⟨ps, by simp [addGroups, hk, groupOf, h1], ?_, ?_, ?_, ?_⟩
    · intro q
      rw [h2, merge_lookup, setting_cons, Option.or_assoc]
    · intro kv hkv
      rcases h3 kv hkv with ⟨g', hg', hin⟩ | hin
      · exact .inl ⟨g', List.mem_cons_of_mem _ hg', hin⟩
      · rcases merge_mem g acc kv hin with hin | hin
        · exact .inl ⟨g, List.mem_cons_self, hin⟩
        · exact .inr hin
    · intro g' hg' kv hkv
      rcases List.mem_cons.1 hg' with rfl | hg'
      · exact hm kv (merge_key _ _ kv (.inl hkv))
      · exact h4 g' hg' kv hkv
    · intro kv hkv
      exact hm kv (merge_key _ _ kv (.inr hkv))

theorem paramsOf_ok (W : World) (doc : Cfg) (s : Spec) (gs : List Cfg) (h : Groups doc s gs) :
    ∃ ps, paramsOf W doc s = .ok ps ∧ (∀ k, ps.lookup k = setting gs k) ∧ (∀ kv ∈ ps, ∃ g ∈ gs, kv ∈ g) ∧ ∀ g ∈ gs, ∀ kv ∈ g, kv.1 ∈ ps.map Prod.fst := by
  unfold Groups at h
  unfold paramsOf
  have key : ∀ l, List.Forall₂ (fun v g => ∃ k, v = .str k ∧ doc.lookup k = some (.dict g)) l gs →
      ∃ ps, addGroups W doc l [] = .ok ps ∧ (∀ k, ps.lookup k = setting gs k) ∧ (∀ kv ∈ ps, ∃ g ∈ gs, kv ∈ g) ∧ ∀ g ∈ gs, ∀ kv ∈ g, kv.1 ∈ ps.map Prod.fst := by
    intro l hl
    obtain ⟨ps, h1, h2, h3, h4, _⟩ := addGroups_ok W doc l gs hl []
    exact ⟨ps, h1, fun k => by simp [h2], fun kv hkv => by simpa using h3 kv hkv, h4⟩
  cases hl : s.entries.lookup "params" with
  | none =>
    rw [hl] at h
    simp only at h
    subst h
    exact ⟨[], rfl, fun _ => rfl, by simp, by simp⟩
  | some v =>
    rw [hl] at h
    cases v with
    | dict d =>
      simp only at h
      subst h
      have : merge d [] = d := by simp [merge]
      refine ⟨d, by simp [this], fun k => by simp [setting], fun kv hkv => ⟨d, by simp, hkv⟩, ?_⟩
      intro g hg kv hkv
      rw [List.mem_singleton] at hg
      subst hg
      exact List.mem_map_of_mem hkv
    | str k =>
      obtain ⟨g, hg, rfl⟩ := h
      exact key [.str k] (.cons ⟨k, rfl, hg⟩ .nil)
    | list l => exact key l h
    | _ => exact h.elim

theorem readAll_fine (cfg : Cfg) (xs : List (String × Decl)) (o : Obj) (h : ∀ x ∈ xs, ∀ v, cfg.lookup (x.2.key.getD x.1) = some v → ∃ w, x.2.conv v = .ok w) : (readAll cfg o xs).2 = none := by
  induction xs generalizing o with
  | nil => rfl
  | cons x xs ih =>
    have hx := h x List.mem_cons_self
    rw [readAll]
    unfold Config.fromConfig Config.keyOf
    cases hl : cfg.lookup (x.2.key.getD x.1) with
    | none => exact ih o fun y hy => h y (List.mem_cons_of_mem _ hy)
    | some v =>
      obtain ⟨w, hw⟩ := hx v hl
      simp only [hw]
      exact ih _ fun y hy => h y (List.mem_cons_of_mem _ hy)

theorem specKeys_iff (s : Spec) : s.entries.any (fun kv => !allowedKeys.contains kv.1) = false ↔ SpecKeys s := by
  rw [List.any_eq_false]
  unfold SpecKeys allowedKeys
  constructor
  · intro h kv hkv
    have := h kv hkv
    simp at this
    tauto
  · intro h kv hkv
    have := h kv hkv
    simp
    tauto

theorem buildAll_forall (W : World) (doc base : Cfg) (ss : List Spec) (ts : List Task) (h : buildAll W doc base ss = .ok ts) :
    List.Forall₂ (fun s t => getTask W doc base s = .ok t) ss ts := by
  induction ss generalizing ts with
  | nil =>
    cases h
    exact .nil
  | cons s ss ih =>
    rw [buildAll] at h
    cases hg : getTask W doc base s with
    | error e => rw [hg] at h; cases h
    | ok t =>
      rw [hg] at h
      simp only at h
      split at h
      · cases hb : buildAll W doc base ss with
        | error e => rw [hb] at h; cases h
        | ok ts' =>
          rw [hb] at h
          cases h
          exact .cons hg (ih ts' hb)
      · cases h

theorem buildAll_error (W : World) (doc base : Cfg) (pre post : List Spec) (s : Spec) (e : Err) (ts : List Task) (h : buildAll W doc base pre = .ok ts)
    (hs : getTask W doc base s = .error e) : buildAll W doc base (pre ++ s :: post) = .error (relocate s e) := by
  induction pre generalizing ts with
  | nil => simp [buildAll, hs]
  | cons p pre ih =>
    rw [buildAll] at h
    rw [List.cons_append, buildAll]
    cases hg : getTask W doc base p with
    | error e => rw [hg] at h; cases h
    | ok t =>
      rw [hg] at h
      simp only at h ⊢
      split at h
      · rename_i ha
        rw [if_pos ha]
        cases hb : buildAll W doc base pre with
        | error e => rw [hb] at h; cases h
        | ok ts' => rw [ih ts' hb]
      · cases h

end Verif.Build
