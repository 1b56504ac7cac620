import Verif.Cont.TablesLemmas
import Verif.Load.Select

/-!
# C97: the tables of a container

`mro (specH K) c = some l` says that class `c` of the hierarchy `K` exists and has the MRO `l`. A state
`afterAll idx K cs` is what the classes have become after objects of the classes `cs` have been made, in
this order. `Describes idx k t s` says that `s` is the dataset that table `t` named `k` asks for, with the
defaults of the documentation. `firstDeclared` (C37) is the description in the most derived class that has
one.
-/
namespace Verif.Cont

variable {N T U : Type} [LinearOrder N]

theorem get_tableSpec (K : List (TClass N T U)) (l : List Nat)
    (hnext : ∀ pre c post, l = pre ++ c :: post →
      lookup (tabH K) (ownSpec (tabH K)) c = (c :: post).findSome? (ownSpec (tabH K))) (k : N) :
    get (tableSpec K l) k = firstDeclared (tabH K) l k := by
  rw [← C37_override_partial (tabH K) l hnext k, classSpec, get_sortDict]
  rfl

theorem get_tableSpec_none (K : List (TClass N T U)) (D : Nat) (l : List Nat) (h : mro (specH K) D = some l) (k : N)
    (hk : ∀ c ∈ l, ∀ s, ownSpec (tabH K) c = some s → k ∉ s.map (·.1)) : get (tableSpec K l) k = none := by
  by_contra hne
  rw [tableSpec, ← ne_eq, get_fold_mem] at hne
  obtain ⟨c, hc, s, hs, hg⟩ := hne
  obtain ⟨c', hc', e⟩ := lookup_mem (tabH K) _ D l (by rw [mro_tab, h]) c hc s hs
  exact hk c' hc' s e ((get_ne_none s k).1 hg)

theorem held_later (idx : N → N) (K K' : List (TClass N T U)) (g : Grown idx K K') (c : Nat) (l : List Nat)
    (h : mro (specH K) c = some l) (i : Inst N T U) (hc : i.cls = c) (hh : i.held = .shared ∨ ∃ d, i.held = .own d) (k : N) :
    (∀ t s, get (tableSpec K l) k = some t → Describes idx k t s → get (heldDict K i) k = some (.table s) →
      get (heldDict K' i) k = some (.table s)) ∧
    (get (tableSpec K l) k = none → get (heldDict K' i) k = get (heldDict K i) k) := by
  rcases hh with hh | ⟨d, hh⟩
  · unfold heldDict
    rw [hh, hc]
    simp only
    cases hd : ownSpec (specH K) c with
    | none =>
      rw [g.none c hd]
      exact ⟨fun _ _ _ _ h => h, fun _ => rfl⟩
    | some d =>
      obtain ⟨d', hd', hg⟩ := g.some c d hd
      rw [hd']
      simp only [Option.getD_some]
      constructor
      · intro t s ht hs hk
        rcases hg k with e | ⟨l', t', s', hl', ht', hs', hds⟩
        · rw [e, hk]
        · rw [h] at hl'
          cases hl'
          rw [ht] at ht'
          cases ht'
          rw [hs', describes_unique idx k t s' s hds hs]
      · intro ht
        rcases hg k with e | ⟨l', t', s', hl', ht', hs', hds⟩
        · exact e
        · rw [h] at hl'
          cases hl'
          rw [ht] at ht'
          cases ht'
  · unfold heldDict
    rw [hh]
    exact ⟨fun _ _ _ _ h => h, fun _ => rfl⟩

/-- C97 (partial): whatever objects were made before and after, an object that has been constructed has for
every table the dataset that its most derived description asks for, and the axis of the table is among its
axes.

Missing: the condition on the MRO, which is that of C37 (`C37_diamond_violated` is about the same loop);
objects that are loaded (`C97_loaded_violated`). -/
theorem C97_tables_partial (idx : N → N) (K : List (TClass N T U)) (cs cs' : List Nat) (c : Nat) (l : List Nat)
    (h : mro (specH K) c = some l)
    (hnext : ∀ pre c post, l = pre ++ c :: post →
      lookup (tabH K) (ownSpec (tabH K)) c = (c :: post).findSome? (ownSpec (tabH K)))
    (K1 : List (TClass N T U)) (i : Inst N T U) (hi : construct idx (afterAll idx K cs) c = (K1, .ok i))
    (k : N) (t : Table N T) (ht : firstDeclared (tabH K) l k = some t) :
    ∃ s, get (datasetSpec (afterAll idx K1 cs') l i) k = some (.table s) ∧ Describes idx k t s ∧
      ∀ x ∈ s.axes, x ∈ objAxes (afterAll idx K1 cs') l i := by
  have g0 := afterAll_grown idx cs K
  have g1 := construct_grown idx (afterAll idx K cs) c
  have g2 := afterAll_grown idx cs' K1
  have hl0 : mro (specH (afterAll idx K cs)) c = some l := by rw [mro_of_shape _ _ g0.shape, h]
  obtain ⟨hc, h1, _, hh, _⟩ := construct_ok idx (afterAll idx K cs) c l hl0 i (by rw [hi])
  rw [hi] at g1 h1
  simp only at g1 h1
  have hl1 : mro (specH K1) c = some l := by rw [mro_of_shape _ _ g1.shape, hl0]
  rw [← get_tableSpec K l hnext, ← tableSpec_of_shape _ _ g0.shape] at ht
  obtain ⟨s, hs, hds, hax⟩ := h1 k t ht
  refine ⟨s, ?_, hds, ?_⟩
  · rw [datasetSpec, C37_instance,
      (held_later idx K1 _ g2 c l hl1 i hc hh k).1 t s (by rw [tableSpec_of_shape _ _ g1.shape, ht]) hds hs]
    rfl
  · intro x hx
    rw [hds.axes, List.mem_singleton] at hx
    subst hx
    rw [objAxes, mem_sortedSet]
    exact List.mem_append_right _ hax

/-- C97: its other datasets are those of the class as it was defined (C37), whatever objects were made
before and after. -/
theorem C97_others (idx : N → N) (K : List (TClass N T U)) (cs cs' : List Nat) (c : Nat) (l : List Nat)
    (h : mro (specH K) c = some l)
    (K1 : List (TClass N T U)) (i : Inst N T U) (hi : construct idx (afterAll idx K cs) c = (K1, .ok i))
    (k : N) (hk : ∀ c' ∈ l, ∀ s, ownSpec (tabH K) c' = some s → k ∉ s.map (·.1)) :
    get (datasetSpec (afterAll idx K1 cs') l i) k = get (classSpec (specH K) l) k := by
  have g0 := afterAll_grown idx cs K
  have g1 := construct_grown idx (afterAll idx K cs) c
  have g2 := afterAll_grown idx cs' K1
  have hl0 : mro (specH (afterAll idx K cs)) c = some l := by rw [mro_of_shape _ _ g0.shape, h]
  obtain ⟨hc, _, h1, hh, _⟩ := construct_ok idx (afterAll idx K cs) c l hl0 i (by rw [hi])
  rw [hi] at g1 h1
  simp only at g1 h1
  have hl1 : mro (specH K1) c = some l := by rw [mro_of_shape _ _ g1.shape, hl0]
  have hn := get_tableSpec_none K c l h k hk
  have hn0 : get (tableSpec (afterAll idx K cs) l) k = none := by rw [tableSpec_of_shape _ _ g0.shape, hn]
  have hcls : get (classSpec (specH (afterAll idx K1 cs')) l) k = get (classSpec (specH K) l) k := by
    refine classSpec_grown idx K _ (Grown.trans idx _ _ _ (Grown.trans idx _ _ _ g0 g1) g2) c l h k ?_
    intro c' hc' lc d hlc _
    by_contra hne
    exact table_mono K c l h c' hc' lc hlc k hne hn
  rw [datasetSpec, C37_instance, hcls,
    (held_later idx K1 _ g2 c l hl1 i hc hh k).2 (by rw [tableSpec_of_shape _ _ g1.shape, hn0])]
  rcases h1 k hn0 with e | ⟨d, hd, e⟩
  · rw [e]; rfl
  · rw [e]
    cases hk' : get d k with
    | none => rfl
    | some v =>
      simp only [Option.some_or]
      symm
      cases hd0 : ownSpec (specH K) c with
      | none => rw [g0.none c hd0] at hd; cases hd
      | some d0 =>
        obtain ⟨d', hd', hg⟩ := g0.some c d0 hd0
        rw [hd] at hd'
        cases hd'
        have hv : get d0 k = some v := by
          rcases hg k with e' | ⟨l', t', s', hl', ht', _⟩
          · rw [← e', hk']
          · rw [h] at hl'
            cases hl'
            rw [hn] at ht'
            cases ht'
        obtain ⟨m, rfl⟩ := mro_head _ _ _ h
        rw [classSpec, get_sortDict, get_fold, lookup_own _ _ c _ h c (by simp) d0 hd0]
        simp [hv]

/-- C97: an object can be constructed exactly if every column of every table has a name that is a string. -/
theorem C97_columns_partial (idx : N → N) (K : List (TClass N T U)) (cs : List Nat) (c : Nat) (l : List Nat)
    (h : mro (specH K) c = some l)
    (hnext : ∀ pre c post, l = pre ++ c :: post →
      lookup (tabH K) (ownSpec (tabH K)) c = (c :: post).findSome? (ownSpec (tabH K))) :
    (∃ i, (construct idx (afterAll idx K cs) c).2 = .ok i) ↔
      ∀ k t, firstDeclared (tabH K) l k = some t → ∀ x ∈ t.columns, x.1 ≠ none := by
  have g0 := afterAll_grown idx cs K
  have hl0 : mro (specH (afterAll idx K cs)) c = some l := by rw [mro_of_shape _ _ g0.shape, h]
  have key : ∀ (d : Dict N (Entry N T U)) axes, (∃ axes', (tableLoop idx (itemsOf (tableSpec (afterAll idx K cs) l)) d axes).2 = .ok axes') ↔
      ∀ k t, firstDeclared (tabH K) l k = some t → ∀ x ∈ t.columns, x.1 ≠ none := by
    intro d axes
    rw [loop_succeeds]
    simp only [mem_itemsOf, tableSpec_of_shape _ _ g0.shape, get_tableSpec K l hnext]
  unfold construct
  rw [hl0]
  simp only
  cases hd : ownSpec (specH (afterAll idx K cs)) c with
  | some d =>
    simp only
    rw [← key d ((ownAxes (specH (afterAll idx K cs)) c).getD [])]
    cases hr : tableLoop idx (itemsOf (tableSpec (afterAll idx K cs) l)) d ((ownAxes (specH (afterAll idx K cs)) c).getD []) with
    | mk d' r => cases r <;> simp
  | none =>
    simp only
    rw [← key [] ((ownAxes (specH (afterAll idx K cs)) c).getD [])]
    cases hr : tableLoop (U := U) idx (itemsOf (tableSpec (afterAll idx K cs) l)) [] ((ownAxes (specH (afterAll idx K cs)) c).getD []) with
    | mk d' r => cases r <;> simp

/-! ### Objects that are loaded -/

/-- C97 (partial): an object that is loaded has, whatever was made before, the datasets of its class as it
was defined, except for the names of tables of those classes in its MRO that have a `_dataset_spec` of their own.

Missing: see `C97_loaded_violated`. -/
theorem C97_loaded_partial (idx : N → N) (K : List (TClass N T U)) (cs : List Nat) (c : Nat) (l : List Nat)
    (h : mro (specH K) c = some l) (k : N)
    (hk : ∀ c' ∈ l, ownSpec (specH K) c' ≠ none → ∀ lc, mro (specH K) c' = some lc →
      ∀ b ∈ lc, ∀ s, ownSpec (tabH K) b = some s → k ∉ s.map (·.1)) :
    get (datasetSpec (afterAll idx K cs) l (loaded c)) k = get (classSpec (specH K) l) k := by
  rw [datasetSpec, C37_instance]
  show (none : Option (Entry N T U)).or _ = _
  rw [Option.none_or]
  refine classSpec_grown idx K _ (afterAll_grown idx cs K) c l h k ?_
  intro c' hc' lc d hlc hd
  exact get_tableSpec_none K c' lc hlc k (hk c' hc' (by rw [hd]; simp) lc hlc)

/-- C97: making objects never changes the axes of a class. -/
theorem C97_class_axes (idx : N → N) (K : List (TClass N T U)) (cs : List Nat) (l : List Nat) :
    classAxes (specH (afterAll idx K cs)) l = classAxes (specH K) l :=
  classAxes_grown idx K _ (afterAll_grown idx cs K) l

/-- C97 fails for selections: a container cannot be loaded with a selection along the axis of a table,
whatever was made before, unless a class also lists the axis in its `_axes`. (`name` gives the names as
text.) -/
theorem C97_select_violated (idx : N → N) (name : N → Load.Str) (hname : ∀ x y, name x = name y → x = y)
    (K : List (TClass N T U)) (cs : List Nat) (c : Nat) (l : List Nat)
    (h : mro (specH K) c = some l) (ax : N) (hax : ∀ c' ∈ l, ∀ s, ownAxes (specH K) c' = some s → ax ∉ s)
    (spec : List (Load.Str × List (Option Load.Str))) (sel : Slice.FileSel) :
    Load.makeSelections ⟨(classAxes (specH (afterAll idx K cs)) l).map name, spec⟩ [(name ax, sel)] = .error .runtimeError := by
  rw [C97_class_axes]
  have hn : ax ∉ classAxes (specH K) l := by
    rw [(C37_axes (specH K) c l h).1]
    rintro ⟨c', hc', s, hs, hx⟩
    exact hax c' hc' s hs hx
  have : name ax ∉ (classAxes (specH K) l).map name := by
    intro hm
    obtain ⟨x, hx, e⟩ := List.mem_map.1 hm
    exact hn (hname _ _ e ▸ hx)
  unfold Load.makeSelections
  rw [if_neg (by simpa using this)]

/-! ### Cases -/

/-- Class 0 has a dataset 1, an axis 7 and a table 2 with rows along axis 8. Class 1 derives from it and has a table 3, and
describes table 2 again, with rows along axis 9. Class 2 derives from class 0 and declares an ordinary dataset 2. -/
def quasars : List (TClass Nat String String) :=
  [{ bases := [0], spec := some [(2, .plain "mine")] },
   { bases := [0], tables := some [(3, ⟨[(some 5, "f8")], none, none, some true⟩), (2, ⟨[(some 5, "f8")], some 9, some false, none⟩)] },
   { bases := [], spec := some [(1, .plain "d")], axes := some [7], tables := some [(2, ⟨[(some 5, "f8"), (some 6, "i4")], some 8, none, none⟩)] }]

theorem quasars_mro : mro (specH quasars) 1 = some [1, 0] := by decide +kernel

/-- Making objects of classes 0 and 1, then looking at the one of class 1. -/
example : ∃ K1 i, construct (· + 100) (afterAll (· + 100) quasars [0]) 1 = (K1, .ok i) ∧
    datasetSpec (afterAll (· + 100) K1 [2, 0]) [1, 0] i =
      [(1, .plain "d"), (2, .table ⟨[9], [(5, "f8")], false, false, 9⟩), (3, .table ⟨[103], [(5, "f8")], true, true, 103⟩)] ∧
    objAxes (afterAll (· + 100) K1 [2, 0]) [1, 0] i = [7, 9, 103] :=
  ⟨_, _, rfl, by decide +kernel, by decide +kernel⟩

/-- The hypotheses of the theorems about constructed objects hold for it. -/
example : (∀ pre c post, [1, 0] = pre ++ c :: post →
      lookup (tabH quasars) (ownSpec (tabH quasars)) c = (c :: post).findSome? (ownSpec (tabH quasars))) ∧
    (firstDeclared (tabH quasars) [1, 0] 2).map (·.axis) = some (some 9) := by
  refine ⟨?_, rfl⟩
  intro pre c post e
  match pre, e with
  | [], e => cases e; rfl
  | [_], e => cases e; rfl
  | [_, _], e => simp at e
  | _ :: _ :: _ :: _, e => simp at e

example : ∀ c' ∈ [1, 0], ∀ s, ownSpec (tabH quasars) c' = some s → 1 ∉ s.map (·.1) := by decide +kernel

/-- Table 3 of class 1 is one that a loaded object never has, since class 1 has no `_dataset_spec`. -/
example : get (datasetSpec (afterAll (· + 100) quasars [0, 1, 1]) [1, 0] (loaded 1)) 3 = none := by decide +kernel

example : Load.makeSelections ⟨(classAxes (specH (afterAll (· + 100) quasars [0])) [0]).map (List.replicate · 'x'), []⟩ [(List.replicate 8 'x', .list [0])] =
    .error .runtimeError :=
  C97_select_violated (· + 100) (List.replicate · 'x') (fun x y e => by simpa using congrArg List.length e) quasars [0] 0 [0] (by decide +kernel) 8 (by decide +kernel) [] _

/-- C97 fails for objects that are loaded: an object of class 0 has no dataset for its table, until
some object of the class has been constructed. -/
theorem C97_loaded_violated :
    get (datasetSpec quasars [0] (loaded 0)) 2 = none ∧
    get (datasetSpec (afterAll (· + 100) quasars [0]) [0] (loaded 0)) 2 =
      some (.table ⟨[8], [(5, "f8"), (6, "i4")], true, false, 8⟩) := by
  decide +kernel

/-- C97 fails for objects that are loaded: one of class 1, which describes the table again, has the dataset of
class 0, once an object of class 0 has been constructed. -/
theorem C97_base_violated :
    (firstDeclared (tabH quasars) [1, 0] 2).map (fun t => (t.columns.length, t.axis)) = some (1, some 9) ∧
    get (datasetSpec (afterAll (· + 100) quasars [1]) [1, 0] (loaded 1)) 2 = none ∧
    get (datasetSpec (afterAll (· + 100) quasars [0]) [1, 0] (loaded 1)) 2 =
      some (.table ⟨[8], [(5, "f8"), (6, "i4")], true, false, 8⟩) := by
  refine ⟨rfl, ?_, ?_⟩ <;> decide +kernel

/-- C97 fails for a class that declares an ordinary dataset with the name of a table of its base: an object
that is constructed has the table of the base, and from then on so has the class. -/
theorem C97_derived_violated :
    get (classSpec (specH quasars) [2, 0]) 2 = some (.plain "mine") ∧
    ∃ K1 i, construct (· + 100) quasars 2 = (K1, .ok i) ∧
      get (datasetSpec K1 [2, 0] i) 2 = some (.table ⟨[8], [(5, "f8"), (6, "i4")], true, false, 8⟩) ∧
      get (classSpec (specH K1) [2, 0]) 2 = some (.table ⟨[8], [(5, "f8"), (6, "i4")], true, false, 8⟩) :=
  ⟨by decide +kernel, _, _, rfl, by decide +kernel, by decide +kernel⟩

/-- A table with a column that has no name: an object cannot be constructed, yet the class has changed. -/
theorem C97_failed_violated :
    ∃ K1, construct (· + 100) ([{ bases := [], spec := some [], tables := some [(0, ⟨[(some 1, "f8")], none, none, none⟩), (1, ⟨[(some 1, "f8"), (none, "f8")], none, none, none⟩)] }] :
      List (TClass Nat String String)) 0 = (K1, .error (.badColumn 1)) ∧ get (classSpec (specH K1) [0]) 0 ≠ none :=
  ⟨_, rfl, by decide +kernel⟩

end Verif.Cont
