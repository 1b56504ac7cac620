import Verif.Tasks.Select
import Mathlib.Data.List.Nodup

/-!
# C45: axis selections resolve by the documented precedence
-/
namespace Verif.Tasks

/-! ## Specification -/

/-- The key of a selection of type `t` for axis `a`. -/
def keyFor (a : List Char) (t : String) : List Char := a ++ '_' :: t.toList

/-- Two or three integers. -/
def GoodRange (v : SVal) (x : List SItem) : Prop :=
  v = .seq x ∧ (x.length = 2 ∨ x.length = 3) ∧ ∀ e ∈ x, ∃ n, e = .int n

/-- A non-empty list of integers. -/
def GoodIndex (v : SVal) (x : List SItem) : Prop := v = .seq x ∧ x ≠ [] ∧ ∀ e ∈ x, ∃ n, e = .int n

/-- A non-empty list. -/
def GoodMap (v : SVal) (x : List SItem) : Prop := v = .seq x ∧ x ≠ []

/-- A well-formed entry of the mapping. -/
def GoodEntry (allowMap : Bool) (k : List Char) (v : SVal) : Prop :=
  ∃ a x, (k = keyFor a "range" ∧ GoodRange v x) ∨ (k = keyFor a "index" ∧ GoodIndex v x) ∨
    (k = keyFor a "map" ∧ allowMap = true ∧ GoodMap v x)

/-! ## Lemmas on strings -/

theorem splitUnder_ne (k : List Char) : splitUnder k ≠ [] := by
  cases k with
  | nil => simp [splitUnder]
  | cons c cs =>
    unfold splitUnder
    split
    · simp
    · split <;> simp

theorem splitUnder_append (a b : List Char) :
    splitUnder (a ++ '_' :: b) = splitUnder a ++ splitUnder b := by
  induction a with
  | nil => simp [splitUnder]
  | cons c cs ih =>
    simp only [List.cons_append, splitUnder]
    split
    · rw [ih]; simp
    · rw [ih]
      cases h : splitUnder cs with
      | nil => exact absurd h (splitUnder_ne cs)
      | cons w ws => simp

theorem splitUnder_none (t : List Char) (h : '_' ∉ t) : splitUnder t = [t] := by
  induction t with
  | nil => rfl
  | cons c cs ih =>
    simp only [List.mem_cons, not_or] at h
    simp only [splitUnder]
    rw [if_neg (fun e => h.1 e.symm), ih h.2]

theorem splitUnder_words (k : List Char) : ∀ w ∈ splitUnder k, '_' ∉ w := by
  induction k with
  | nil => simp [splitUnder]
  | cons c cs ih =>
    unfold splitUnder
    split
    · intro w hw
      rcases List.mem_cons.1 hw with rfl | hw
      · simp
      · exact ih w hw
    · rename_i hc
      cases h : splitUnder cs with
      | nil => exact absurd h (splitUnder_ne cs)
      | cons v vs =>
        rw [h] at ih
        intro w hw
        rcases List.mem_cons.1 hw with rfl | hw
        · have := ih v (by simp)
          simp only [List.mem_cons, not_or]
          exact ⟨fun e => hc e.symm, this⟩
        · exact ih w (by simp [hw])

theorem joinUnder_cons (w : List Char) (ws : List (List Char)) (h : ws ≠ []) :
    joinUnder (w :: ws) = w ++ '_' :: joinUnder ws := by
  cases ws with
  | nil => exact absurd rfl h
  | cons v vs => simp [joinUnder, List.intersperse_cons_cons]

theorem joinUnder_concat (l : List (List Char)) (t : List Char) (h : l ≠ []) :
    joinUnder (l ++ [t]) = joinUnder l ++ '_' :: t := by
  induction l with
  | nil => exact absurd rfl h
  | cons w ws ih =>
    cases ws with
    | nil => simp [joinUnder]
    | cons v vs =>
      rw [List.cons_append, joinUnder_cons _ _ (by simp), ih (by simp), joinUnder_cons w _ (by simp)]
      simp

theorem joinUnder_splitUnder (k : List Char) : joinUnder (splitUnder k) = k := by
  induction k with
  | nil => simp [splitUnder, joinUnder]
  | cons c cs ih =>
    unfold splitUnder
    split
    · rename_i hc
      rw [joinUnder_cons _ _ (splitUnder_ne cs), ih, hc]
      rfl
    · cases h : splitUnder cs with
      | nil => exact absurd h (splitUnder_ne cs)
      | cons v vs =>
        rw [h] at ih
        cases vs with
        | nil => simp only [joinUnder, List.intersperse_singleton] at ih ⊢; simpa using ih
        | cons u us =>
          rw [joinUnder_cons _ _ (by simp)] at ih ⊢
          rw [List.cons_append, ih]

theorem splitKey_keyFor (a : List Char) (t : String) (ht : '_' ∉ t.toList) :
    splitKey (keyFor a t) = (a, t.toList) := by
  unfold splitKey keyFor
  rw [splitUnder_append, splitUnder_none _ ht, List.dropLast_concat, joinUnder_splitUnder]
  simp

/-- A key is split at its last underscore; without one there is no axis name. -/
theorem splitKey_spec (k : List Char) :
    k = (splitKey k).1 ++ '_' :: (splitKey k).2 ∨ (k = (splitKey k).2 ∧ (splitKey k).1 = []) := by
  have hne := splitUnder_ne k
  have hl : splitUnder k = (splitUnder k).dropLast ++ [(splitUnder k).getLast hne] :=
    (List.dropLast_append_getLast hne).symm
  have h2 : (splitKey k).2 = (splitUnder k).getLast hne := by
    simp [splitKey, List.getLast?_eq_some_getLast hne]
  have hk := joinUnder_splitUnder k
  rw [h2]
  by_cases hd : (splitUnder k).dropLast = []
  · right
    rw [hd] at hl
    refine ⟨?_, ?_⟩
    · have := congrArg joinUnder hl
      rw [hk] at this
      simpa [joinUnder] using this
    · simp [splitKey, hd, joinUnder]
  · left
    have := congrArg joinUnder hl
    rw [hk, joinUnder_concat _ _ hd] at this
    exact this

theorem strLt_append (a x y : List Char) : strLt (a ++ x) (a ++ y) = strLt x y := by
  induction a with
  | nil => rfl
  | cons c cs ih => simp [strLt, ih]

theorem strLt_asymm (a b : List Char) (h : strLt a b = true) : strLt b a = false := by
  induction a generalizing b with
  | nil =>
    cases b with
    | nil => simp [strLt] at h
    | cons _ _ => rfl
  | cons x xs ih =>
    cases b with
    | nil => simp [strLt] at h
    | cons y ys =>
      simp only [strLt, Bool.or_eq_true, decide_eq_true_eq, Bool.and_eq_true] at h
      simp only [strLt, Bool.or_eq_false_iff, decide_eq_false_iff_not, Bool.and_eq_false_iff]
      rcases h with h | ⟨h1, h2⟩
      · exact ⟨by omega, Or.inl (by omega)⟩
      · exact ⟨by omega, Or.inr (ih ys h2)⟩

theorem strLt_neg_trans (a b c : List Char) (h1 : strLt a b = false) (h2 : strLt b c = false) :
    strLt a c = false := by
  induction a generalizing b c with
  | nil =>
    cases b with
    | nil => exact h2
    | cons _ _ => simp [strLt] at h1
  | cons x xs ih =>
    cases c with
    | nil => rfl
    | cons z zs =>
      cases b with
      | nil => simp [strLt] at h2
      | cons y ys =>
        simp only [strLt, Bool.or_eq_false_iff, decide_eq_false_iff_not, Bool.and_eq_false_iff] at h1 h2 ⊢
        obtain ⟨h1a, h1b⟩ := h1
        obtain ⟨h2a, h2b⟩ := h2
        refine ⟨by omega, ?_⟩
        by_cases hxz : x.toNat = z.toNat
        · right
          have hxy : x.toNat = y.toNat := by omega
          have hyz : y.toNat = z.toNat := by omega
          exact ih ys zs (h1b.resolve_left (by simpa using hxy)) (h2b.resolve_left (by simpa using hyz))
        · left; exact hxz

/-! ## Lemmas on sorting -/

theorem insKey_perm (e : List Char × SVal) (l : List (List Char × SVal)) : (insKey e l).Perm (e :: l) := by
  induction l with
  | nil => simp [insKey]
  | cons f fs ih =>
    unfold insKey
    split
    · exact (List.Perm.cons f ih).trans (List.Perm.swap e f fs)
    · exact List.Perm.refl _

theorem sortKeys_perm (l : List (List Char × SVal)) : (sortKeys l).Perm l := by
  induction l with
  | nil => simp [sortKeys]
  | cons e l ih => exact (insKey_perm e _).trans (List.Perm.cons e ih)

theorem insKey_sorted (e : List Char × SVal) (l : List (List Char × SVal))
    (h : l.Pairwise fun x y => strLt y.1 x.1 = false) :
    (insKey e l).Pairwise fun x y => strLt y.1 x.1 = false := by
  induction l with
  | nil => simp [insKey]
  | cons f fs ih =>
    rw [List.pairwise_cons] at h
    unfold insKey
    split
    · rename_i hlt
      rw [List.pairwise_cons]
      refine ⟨?_, ih h.2⟩
      intro y hy
      rcases List.mem_cons.1 ((insKey_perm e fs).mem_iff.1 hy) with rfl | hy
      · exact strLt_asymm _ _ hlt
      · exact h.1 y hy
    · rename_i hlt
      have hlt : strLt f.1 e.1 = false := by simpa using hlt
      rw [List.pairwise_cons]
      refine ⟨?_, List.pairwise_cons.2 h⟩
      intro y hy
      rcases List.mem_cons.1 hy with rfl | hy
      · exact hlt
      · exact strLt_neg_trans _ _ _ (h.1 y hy) hlt

theorem sortKeys_sorted (l : List (List Char × SVal)) :
    (sortKeys l).Pairwise fun x y => strLt y.1 x.1 = false := by
  induction l with
  | nil => simp [sortKeys]
  | cons e l ih => exact insKey_sorted e _ ih

/-! ## The loop -/

/-- What one entry assigns. -/
def entrySel (allowMap : Bool) (e : List Char × SVal) : Option (List Char × SSel) :=
  (parseSel allowMap (splitKey e.1).2 e.2).map fun s => ((splitKey e.1).1, s)

theorem resolveLoop_eq (allowMap : Bool) (d : List (List Char × SSel)) (l : List (List Char × SVal)) :
    resolveLoop allowMap d l = (l.mapM (entrySel allowMap)).map (d ++ ·) := by
  induction l generalizing d with
  | nil => simp [resolveLoop]
  | cons e l ih =>
    obtain ⟨k, v⟩ := e
    unfold resolveLoop
    rw [List.mapM_cons]
    cases h : parseSel allowMap (splitKey k).2 v with
    | none => simp [entrySel, h]
    | some s =>
      simp only [ih]
      cases h2 : l.mapM (entrySel allowMap) <;> simp [entrySel, h]

theorem mapM_some_mem {α β : Type} (f : α → Option β) (l : List α) (r : List β) (h : l.mapM f = some r) :
    (∀ x ∈ l, ∃ y ∈ r, f x = some y) ∧ (∀ y ∈ r, ∃ x ∈ l, f x = some y) := by
  induction l generalizing r with
  | nil => simp at h; subst h; simp
  | cons a l ih =>
    simp only [List.mapM_cons, Option.bind_eq_bind, Option.bind_eq_some_iff] at h
    obtain ⟨b, hb, rs, hrs, h⟩ := h
    simp at h
    subst h
    obtain ⟨h1, h2⟩ := ih rs hrs
    constructor
    · intro x hx
      rcases List.mem_cons.1 hx with rfl | hx
      · exact ⟨b, by simp, hb⟩
      · obtain ⟨y, hy, he⟩ := h1 x hx
        exact ⟨y, by simp [hy], he⟩
    · intro y hy
      rcases List.mem_cons.1 hy with rfl | hy
      · exact ⟨a, by simp, hb⟩
      · obtain ⟨x, hx, he⟩ := h2 y hy
        exact ⟨x, by simp [hx], he⟩

theorem mapM_isSome {α β : Type} (f : α → Option β) (l : List α) :
    (l.mapM f).isSome ↔ ∀ x ∈ l, (f x).isSome := by
  induction l with
  | nil => simp
  | cons a l ih =>
    rw [List.mapM_cons]
    cases h : f a with
    | none => simp [h]
    | some b =>
      cases h2 : l.mapM f with
      | none => rw [h2] at ih; simp at ih ⊢; obtain ⟨x, hx, he⟩ := ih; exact fun _ => ⟨x, hx, he⟩
      | some c => rw [h2] at ih; simp at ih ⊢; exact ⟨by simp [h], ih⟩

/-- The last entry for an axis decides. -/
theorem selGet_last (allowMap : Bool) (l1 l2 : List (List Char × SVal)) (e : List Char × SVal)
    (r : List (List Char × SSel)) (a : List Char) (s : SSel)
    (h : (l1 ++ e :: l2).mapM (entrySel allowMap) = some r) (he : entrySel allowMap e = some (a, s))
    (hno : ∀ f ∈ l2, (splitKey f.1).1 ≠ a) : selGet r a = some s := by
  simp only [List.mapM_append, List.mapM_cons, Option.bind_eq_bind, Option.bind_eq_some_iff] at h
  obtain ⟨r1, hr1, r2, ⟨b, hb, r3, hr3, h2⟩, h⟩ := h
  simp at h h2
  subst h2
  subst h
  rw [he] at hb
  cases hb
  unfold selGet
  rw [List.reverse_append, List.reverse_cons, List.append_assoc, List.find?_append]
  have hnone : r3.reverse.find? (fun x => decide (x.1 = a)) = none := by
    rw [List.find?_eq_none]
    intro y hy
    simp only [List.mem_reverse] at hy
    obtain ⟨f, hf, hfe⟩ := (mapM_some_mem _ _ _ hr3).2 y hy
    unfold entrySel at hfe
    cases hp : parseSel allowMap (splitKey f.1).2 f.2 with
    | none => simp [hp] at hfe
    | some s' =>
      simp [hp] at hfe
      subst hfe
      simpa using hno f hf
  rw [hnone]
  simp

theorem parseSel_range (allowMap : Bool) (v : SVal) (s : SSel)
    (h : parseSel allowMap "range".toList v = some s) : ∃ x, GoodRange v x ∧ s = .range x := by
  unfold parseSel at h
  rw [if_pos rfl] at h
  cases v with
  | other => simp [parseRange] at h
  | seq l =>
    simp only [parseRange] at h
    split at h
    · cases h
    · split at h
      · rename_i h1 h2
        cases h
        refine ⟨l, ⟨rfl, by omega, ?_⟩, rfl⟩
        intro e he
        have := List.all_eq_true.1 h2 e he
        cases e with
        | int n => exact ⟨n, rfl⟩
        | other n => simp [SItem.isInt] at this
      · cases h

theorem parseSel_index (allowMap : Bool) (v : SVal) (s : SSel)
    (h : parseSel allowMap "index".toList v = some s) : ∃ x, GoodIndex v x ∧ s = .index x := by
  unfold parseSel at h
  rw [if_neg (by decide), if_pos rfl] at h
  cases v with
  | other => simp [parseIndex] at h
  | seq l =>
    simp only [parseIndex] at h
    split at h
    · cases h
    · split at h
      · rename_i h1 h2
        cases h
        refine ⟨l, ⟨rfl, fun hn => h1 (by simp [hn]), ?_⟩, rfl⟩
        intro e he
        have := List.all_eq_true.1 h2 e he
        cases e with
        | int n => exact ⟨n, rfl⟩
        | other n => simp [SItem.isInt] at this
      · cases h

theorem parseSel_map (allowMap : Bool) (v : SVal) (s : SSel)
    (h : parseSel allowMap "map".toList v = some s) : allowMap = true ∧ ∃ x, GoodMap v x ∧ s = .index x := by
  unfold parseSel at h
  rw [if_neg (by decide), if_neg (by decide)] at h
  split at h
  · rename_i ha
    refine ⟨ha.2, ?_⟩
    cases v with
    | other => simp [parseIndex] at h
    | seq l =>
      simp only [parseIndex] at h
      split at h
      · cases h
      · split at h
        · rename_i h1 h2
          cases h
          exact ⟨l, ⟨rfl, fun hn => h1 (by simp [hn])⟩, rfl⟩
        · cases h
  · cases h

theorem parseSel_types (allowMap : Bool) (t : List Char) (v : SVal) (s : SSel)
    (h : parseSel allowMap t v = some s) :
    t = "range".toList ∨ t = "index".toList ∨ t = "map".toList := by
  unfold parseSel at h
  split at h
  · left; assumption
  · split at h
    · right; left; assumption
    · split at h
      · rename_i hh; right; right; exact hh.1
      · cases h

theorem entrySel_isSome (allowMap : Bool) (k : List Char) (v : SVal) (hk : '_' ∈ k) :
    (entrySel allowMap (k, v)).isSome ↔ GoodEntry allowMap k v := by
  constructor
  · intro h
    obtain ⟨⟨a, s⟩, hs⟩ := Option.isSome_iff_exists.1 h
    simp only [entrySel, Option.map_eq_some_iff] at hs
    obtain ⟨s', hs', _⟩ := hs
    have hsplit : k = (splitKey k).1 ++ '_' :: (splitKey k).2 := by
      rcases splitKey_spec k with hh | ⟨hh, _⟩
      · exact hh
      · exfalso
        have hw : (splitKey k).2 ∈ splitUnder k := by
          simp only [splitKey, List.getLast?_eq_some_getLast (splitUnder_ne k), Option.getD_some]
          exact List.getLast_mem _
        have := splitUnder_words k _ hw
        rw [← hh] at this
        exact this hk
    rcases parseSel_types _ _ _ _ hs' with ht | ht | ht
    · rw [ht] at hs' hsplit
      obtain ⟨x, hx, _⟩ := parseSel_range _ _ _ hs'
      exact ⟨_, x, Or.inl ⟨hsplit, hx⟩⟩
    · rw [ht] at hs' hsplit
      obtain ⟨x, hx, _⟩ := parseSel_index _ _ _ hs'
      exact ⟨_, x, Or.inr (Or.inl ⟨hsplit, hx⟩)⟩
    · rw [ht] at hs' hsplit
      obtain ⟨ha, x, hx, _⟩ := parseSel_map _ _ _ hs'
      exact ⟨_, x, Or.inr (Or.inr ⟨hsplit, ha, hx⟩)⟩
  · rintro ⟨a, x, (⟨rfl, hv, hl, hi⟩ | ⟨rfl, hv, hl, hi⟩ | ⟨rfl, ha, hv, hl⟩)⟩
    · have hall : x.all SItem.isInt = true := by
        rw [List.all_eq_true]
        intro e he
        obtain ⟨n, rfl⟩ := hi e he
        rfl
      have hn : ¬ (x.length > 3 ∨ x.length < 2) := by omega
      simp only [entrySel, splitKey_keyFor a "range" (by decide), hv, parseSel, if_true, parseRange, hall,
        if_neg hn, Option.map_some, Option.isSome_some]
    · have hall : (x.all fun v => !true || v.isInt) = true := by
        rw [List.all_eq_true]
        intro e he
        obtain ⟨n, rfl⟩ := hi e he
        rfl
      have hn : ¬ x.length = 0 := fun h => hl (List.length_eq_zero_iff.1 h)
      simp only [entrySel, splitKey_keyFor a "index" (by decide), hv, parseSel,
        if_neg (show ¬ "index".toList = "range".toList by decide), if_true, parseIndex, hall,
        if_neg hn, Option.map_some, Option.isSome_some]
    · have hall : (x.all fun v => !false || v.isInt) = true := by
        rw [List.all_eq_true]
        intro e he
        rfl
      have hn : ¬ x.length = 0 := fun h => hl (List.length_eq_zero_iff.1 h)
      simp only [entrySel, splitKey_keyFor a "map" (by decide), hv, parseSel,
        if_neg (show ¬ "map".toList = "range".toList by decide),
        if_neg (show ¬ "map".toList = "index".toList by decide), ha, and_self, if_true, parseIndex, hall,
        if_neg hn, Option.map_some, Option.isSome_some]

/-- In the sorted list, every entry for the axis that comes after the key has a larger key. -/
theorem split_at (sels : List (List Char × SVal)) (k : List Char) (v : SVal) (hm : (k, v) ∈ sels)
    (hd : (sels.map (·.1)).Nodup) :
    ∃ l1 l2, sortKeys sels = l1 ++ (k, v) :: l2 ∧ ∀ f ∈ l2, f ∈ sels ∧ f.1 ≠ k ∧ strLt f.1 k = false := by
  have hp := sortKeys_perm sels
  obtain ⟨l1, l2, he⟩ := List.append_of_mem (hp.mem_iff.2 hm)
  refine ⟨l1, l2, he, ?_⟩
  intro f hf
  have hs := sortKeys_sorted sels
  rw [he, List.pairwise_append] at hs
  have hnd : ((sortKeys sels).map (·.1)).Nodup := (hp.map _).nodup_iff.2 hd
  rw [he, List.map_append, List.map_cons, List.nodup_append] at hnd
  refine ⟨hp.mem_iff.1 (by rw [he]; simp [hf]), ?_, (List.pairwise_cons.1 hs.2.1).1 f hf⟩
  intro hk
  have := (List.nodup_cons.1 hnd.2.1).1
  exact this (hk ▸ List.mem_map.2 ⟨f, hf, rfl⟩)

/-- An entry for an axis with a name is one of three. -/
theorem axis_key (allowMap : Bool) (f : List Char × SVal) (a : List Char) (ha : a ≠ [])
    (hf : (splitKey f.1).1 = a) (hs : (entrySel allowMap f).isSome) :
    f.1 = keyFor a "range" ∨ f.1 = keyFor a "index" ∨ f.1 = keyFor a "map" := by
  have hsplit : f.1 = a ++ '_' :: (splitKey f.1).2 := by
    rcases splitKey_spec f.1 with hh | ⟨_, hh⟩
    · rw [hf] at hh; exact hh
    · rw [hf] at hh; exact absurd hh ha
  obtain ⟨⟨b, s⟩, hs⟩ := Option.isSome_iff_exists.1 hs
  simp only [entrySel, Option.map_eq_some_iff] at hs
  obtain ⟨s', hs', _⟩ := hs
  rcases parseSel_types _ _ _ _ hs' with ht | ht | ht <;> rw [ht] at hsplit
  · exact Or.inl hsplit
  · exact Or.inr (Or.inl hsplit)
  · exact Or.inr (Or.inr hsplit)

/-! ## The property -/

/-- C45. If an axis has a range selection, that one is used, whatever else is given for the axis. -/
theorem C45_range_first_partial (allowMap : Bool) (sels : List (List Char × SVal)) (r : List (List Char × SSel))
    (hd : (sels.map (·.1)).Nodup) (h : resolveSels allowMap sels = some r) (a : List Char) (ha : a ≠ [])
    (v : SVal) (hm : (keyFor a "range", v) ∈ sels) :
    ∃ x, GoodRange v x ∧ selGet r a = some (.range x) := by
  unfold resolveSels at h
  rw [resolveLoop_eq] at h
  simp only [List.nil_append, Option.map_id'] at h
  have hall := (mapM_isSome _ _).1 (show (_ : Option _).isSome = true by rw [h]; rfl)
  obtain ⟨l1, l2, he, hl⟩ := split_at sels _ v hm hd
  rw [he] at h hall
  obtain ⟨⟨b, s⟩, hs⟩ := Option.isSome_iff_exists.1 (hall (keyFor a "range", v) (by simp))
  have hs2 := hs
  simp only [entrySel, splitKey_keyFor a "range" (by decide), Option.map_eq_some_iff] at hs2
  obtain ⟨s', hs', hbs⟩ := hs2
  cases hbs
  obtain ⟨x, hx, rfl⟩ := parseSel_range _ _ _ hs'
  refine ⟨x, hx, selGet_last allowMap l1 l2 _ r a _ h hs ?_⟩
  intro f hf hfa
  obtain ⟨_, hne, hlt⟩ := hl f hf
  rcases axis_key allowMap f a ha hfa (hall f (by simp [hf])) with hk | hk | hk
  · exact hne hk
  · rw [hk, keyFor, keyFor, strLt_append] at hlt
    exact absurd hlt (by decide)
  · rw [hk, keyFor, keyFor, strLt_append] at hlt
    exact absurd hlt (by decide)

/-- C45. If an axis has an index selection and nothing else, that one is used; the same for a map
selection. -/
theorem C45_only_partial (allowMap : Bool) (sels : List (List Char × SVal)) (r : List (List Char × SSel))
    (hd : (sels.map (·.1)).Nodup) (h : resolveSels allowMap sels = some r) (a : List Char) (ha : a ≠ [])
    (t : String) (ht : t = "index" ∨ t = "map") (v : SVal) (hm : (keyFor a t, v) ∈ sels)
    (hother : ∀ w t', t' ∈ ["range", "index", "map"] → (keyFor a t', w) ∈ sels → t' = t) :
    ∃ x, v = .seq x ∧ selGet r a = some (.index x) := by
  unfold resolveSels at h
  rw [resolveLoop_eq] at h
  simp only [List.nil_append, Option.map_id'] at h
  have hall := (mapM_isSome _ _).1 (show (_ : Option _).isSome = true by rw [h]; rfl)
  obtain ⟨l1, l2, he, hl⟩ := split_at sels _ v hm hd
  rw [he] at h hall
  have hno : ∀ f ∈ l2, (splitKey f.1).1 ≠ a := by
    intro f hf hfa
    obtain ⟨hin, hne, hlt⟩ := hl f hf
    have key : ∀ t', t' ∈ ["range", "index", "map"] → f.1 ≠ keyFor a t' := by
      intro t' ht' hk
      have : (keyFor a t', f.2) ∈ sels := by rw [← hk]; exact hin
      have := hother f.2 t' ht' this
      subst this
      exact hne hk
    rcases axis_key allowMap f a ha hfa (hall f (by simp [hf])) with hk | hk | hk
    · exact key "range" (by simp) hk
    · exact key "index" (by simp) hk
    · exact key "map" (by simp) hk
  obtain ⟨⟨b, s⟩, hs⟩ := Option.isSome_iff_exists.1 (hall (keyFor a t, v) (by simp))
  have hs2 := hs
  have htu : '_' ∉ t.toList := by rcases ht with rfl | rfl <;> decide
  simp only [entrySel, splitKey_keyFor a t htu, Option.map_eq_some_iff] at hs2
  obtain ⟨s', hs', hbs⟩ := hs2
  cases hbs
  rcases ht with rfl | rfl
  · obtain ⟨x, hx, rfl⟩ := parseSel_index _ _ _ hs'
    exact ⟨x, hx.1, selGet_last allowMap l1 l2 _ r a _ h hs hno⟩
  · obtain ⟨_, x, hx, rfl⟩ := parseSel_map _ _ _ hs'
    exact ⟨x, hx.1, selGet_last allowMap l1 l2 _ r a _ h hs hno⟩

/-- C45. An axis for which nothing is given has no selection. -/
theorem C45_nothing (allowMap : Bool) (sels : List (List Char × SVal)) (r : List (List Char × SSel))
    (h : resolveSels allowMap sels = some r) (a : List Char) (ha : a ≠ [])
    (hno : ∀ t v, t ∈ ["range", "index", "map"] → (keyFor a t, v) ∉ sels) : selGet r a = none := by
  unfold resolveSels at h
  rw [resolveLoop_eq] at h
  simp only [List.nil_append, Option.map_id'] at h
  have hall := (mapM_isSome _ _).1 (show (_ : Option _).isSome = true by rw [h]; rfl)
  unfold selGet
  have : r.reverse.find? (fun x => decide (x.1 = a)) = none := by
    rw [List.find?_eq_none]
    intro y hy hya
    simp only [List.mem_reverse] at hy
    simp only [decide_eq_true_eq] at hya
    obtain ⟨f, hf, hfe⟩ := (mapM_some_mem _ _ _ h).2 y hy
    have hfa : (splitKey f.1).1 = a := by
      simp only [entrySel, Option.map_eq_some_iff] at hfe
      obtain ⟨s, _, hs⟩ := hfe
      rw [← hya, ← hs]
    have hin := (sortKeys_perm sels).mem_iff.1 hf
    rcases axis_key allowMap f a ha hfa (hall f hf) with hk | hk | hk
    · exact hno "range" f.2 (by simp) (by rw [← hk]; exact hin)
    · exact hno "index" f.2 (by simp) (by rw [← hk]; exact hin)
    · exact hno "map" f.2 (by simp) (by rw [← hk]; exact hin)
  rw [this]
  rfl

/-- C45. If all keys contain an underscore, exactly the mappings with a malformed key or value raise. -/
theorem C45_raises_partial (allowMap : Bool) (sels : List (List Char × SVal)) (hk : ∀ e ∈ sels, '_' ∈ e.1) :
    resolveSels allowMap sels = none ↔ ∃ e ∈ sels, ¬ GoodEntry allowMap e.1 e.2 := by
  have h1 : resolveSels allowMap sels = (sortKeys sels).mapM (entrySel allowMap) := by
    unfold resolveSels
    rw [resolveLoop_eq]
    simp
  have h2 := mapM_isSome (entrySel allowMap) (sortKeys sels)
  rw [h1, ← Option.not_isSome_iff_eq_none, h2]
  constructor
  · intro h
    by_contra hc
    apply h
    intro x hx
    have hin := (sortKeys_perm sels).mem_iff.1 hx
    rw [entrySel_isSome allowMap x.1 x.2 (hk x hin)]
    by_contra hg
    exact hc ⟨x, hin, hg⟩
  · rintro ⟨e, he, hg⟩ hall
    apply hg
    rw [← entrySel_isSome allowMap e.1 e.2 (hk e he)]
    exact hall e ((sortKeys_perm sels).mem_iff.2 he)

/-- C45 fails for an axis with both an index and a map selection: the map selection is used, contrary to the
documentation, for every axis. -/
theorem C45_map_over_index_violated (a : List Char) (x y : List SItem) (hx : x ≠ [])
    (hxi : ∀ e ∈ x, ∃ n, e = .int n) (hy : y ≠ []) :
    ∃ r, resolveSels true [(keyFor a "index", .seq x), (keyFor a "map", .seq y)] = some r ∧
      selGet r a = some (.index y) := by
  have hs : sortKeys [(keyFor a "index", SVal.seq x), (keyFor a "map", SVal.seq y)] =
      [(keyFor a "index", .seq x), (keyFor a "map", .seq y)] := by
    have : strLt (keyFor a "map") (keyFor a "index") = false := by
      rw [keyFor, keyFor, strLt_append]; decide
    simp [sortKeys, insKey, this]
  have hu : ∀ t : String, '_' ∈ keyFor a t := by intro t; simp [keyFor]
  have h1 := (entrySel_isSome true (keyFor a "index") (.seq x) (hu _)).2
    ⟨a, x, Or.inr (Or.inl ⟨rfl, rfl, hx, hxi⟩)⟩
  have h2 := (entrySel_isSome true (keyFor a "map") (.seq y) (hu _)).2
    ⟨a, y, Or.inr (Or.inr ⟨rfl, rfl, rfl, hy⟩)⟩
  obtain ⟨⟨b1, s1⟩, e1⟩ := Option.isSome_iff_exists.1 h1
  obtain ⟨⟨b2, s2⟩, e2⟩ := Option.isSome_iff_exists.1 h2
  have e2' := e2
  simp only [entrySel, splitKey_keyFor a "map" (by decide), Option.map_eq_some_iff] at e2'
  obtain ⟨s', hs', hbs⟩ := e2'
  cases hbs
  obtain ⟨_, z, hz, rfl⟩ := parseSel_map _ _ _ hs'
  cases hz.1
  refine ⟨[(b1, s1), (a, .index y)], ?_, ?_⟩
  · unfold resolveSels
    rw [resolveLoop_eq, hs]
    simp [List.mapM_cons, e1, e2]
  · simp [selGet]

/-- C45 fails for keys without an axis name: they are accepted, for an axis without a name. -/
theorem C45_no_axis_name_violated :
    resolveSels false [("range".toList, .seq [.int 0, .int 1])] = some [([], .range [.int 0, .int 1])] := by
  decide +kernel

example : resolveSels false [("a_b_range".toList, .seq [.int 1, .int 14]), ("a_b_index".toList, .seq [.int 3])] =
    some [("a_b".toList, .index [.int 3]), ("a_b".toList, .range [.int 1, .int 14])] := by decide +kernel

example : (resolveSels false [("a_b_range".toList, .seq [.int 1])]) = none := by decide +kernel

end Verif.Tasks
