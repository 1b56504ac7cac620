import Verif.Cont.Tables
import Verif.Cont.Props

/-! Lemmas about containers with tables. -/
namespace Verif.Cont

variable {N T U : Type}

/-! ### The MRO depends on the bases only -/

theorem mro_congr {V W : Type} (H : List (ClassDef N V)) (H' : List (ClassDef N W))
    (h : H.map (·.bases) = H'.map (·.bases)) (c : Nat) : mro H c = mro H' c := by
  induction H generalizing H' c with
  | nil =>
    cases H' with
    | nil => rfl
    | cons _ _ => simp at h
  | cons d rest ih =>
    cases H' with
    | nil => simp at h
    | cons d' rest' =>
      simp only [List.map_cons, List.cons.injEq] at h
      have hl : rest.length = rest'.length := by simpa using congrArg List.length h.2
      have hf : mro rest = mro rest' := funext fun c => ih rest' h.2 c
      rw [mro, mro, hl, h.1, hf]

theorem mro_tab (K : List (TClass N T U)) (c : Nat) : mro (tabH K) c = mro (specH K) c :=
  mro_congr _ _ (by simp [tabH, specH]) c

/-- What making objects leaves alone. -/
def shapeOf (x : TClass N T U) : List Nat × Option (List N) × Option (Dict N (Table N T)) :=
  (x.bases, x.axes, x.tables)

theorem bases_of_shape (K K' : List (TClass N T U)) (h : K'.map shapeOf = K.map shapeOf) :
    (specH K').map (·.bases) = (specH K).map (·.bases) := by
  have := congrArg (List.map (fun x : List Nat × Option (List N) × Option (Dict N (Table N T)) => x.1)) h
  simpa [specH, shapeOf, Function.comp_def] using this

theorem mro_of_shape (K K' : List (TClass N T U)) (h : K'.map shapeOf = K.map shapeOf) (c : Nat) :
    mro (specH K') c = mro (specH K) c := mro_congr _ _ (bases_of_shape K K' h) c

theorem tabH_of_shape (K K' : List (TClass N T U)) (h : K'.map shapeOf = K.map shapeOf) : tabH K' = tabH K := by
  have := congrArg (List.map (fun x : List Nat × Option (List N) × Option (Dict N (Table N T)) =>
    (⟨x.1, x.2.2, none⟩ : ClassDef N (Table N T)))) h
  simpa [tabH, shapeOf, Function.comp_def] using this

theorem tableSpec_of_shape (K K' : List (TClass N T U)) (h : K'.map shapeOf = K.map shapeOf) (l : List Nat) :
    tableSpec K' l = tableSpec K l := by
  rw [tableSpec, tableSpec, tabH_of_shape K K' h]

theorem ownAxes_of_shape (K K' : List (TClass N T U)) (h : K'.map shapeOf = K.map shapeOf) (c : Nat) :
    ownAxes (specH K') c = ownAxes (specH K) c := by
  have := congrArg (fun L : List (List Nat × Option (List N) × Option (Dict N (Table N T))) =>
    (L.reverse[c]?).bind (·.2.1)) h
  simp only [← List.map_reverse, List.getElem?_map] at this
  unfold ownAxes classDef specH
  rw [← List.map_reverse, ← List.map_reverse, List.getElem?_map, List.getElem?_map]
  cases h1 : K'.reverse[c]? <;> cases h2 : K.reverse[c]? <;> simp_all [shapeOf]

theorem shape_setOwn (K : List (TClass N T U)) (c : Nat) (d : Dict N (Entry N T U)) :
    (setOwn K c d).map shapeOf = K.map shapeOf := by
  unfold setOwn
  rw [List.map_reverse]
  have : (K.reverse.modify c fun x => { x with spec := some d }).map shapeOf = K.reverse.map shapeOf := by
    apply List.ext_getElem?
    intro i
    rw [List.getElem?_map, List.getElem?_modify, List.getElem?_map]
    cases K.reverse[i]? with
    | none => rfl
    | some x => by_cases h : c = i <;> simp [h, shapeOf]
  rw [this, List.map_reverse, List.reverse_reverse]

theorem ownSpec_eq (K : List (TClass N T U)) (c : Nat) : ownSpec (specH K) c = (K.reverse[c]?).bind (·.spec) := by
  unfold ownSpec classDef specH
  rw [← List.map_reverse, List.getElem?_map]
  cases K.reverse[c]? <;> rfl

theorem ownSpec_setOwn (K : List (TClass N T U)) (c c' : Nat) (d0 d : Dict N (Entry N T U))
    (h : ownSpec (specH K) c = some d0) :
    ownSpec (specH (setOwn K c d)) c' = if c' = c then some d else ownSpec (specH K) c' := by
  rw [ownSpec_eq] at h
  rw [ownSpec_eq, ownSpec_eq, setOwn, List.reverse_reverse, List.getElem?_modify]
  by_cases hc : c' = c
  · subst hc
    cases hk : K.reverse[c']? with
    | none => rw [hk] at h; cases h
    | some x => simp
  · rw [if_neg hc]
    have hc' : ¬ c = c' := fun e => hc e.symm
    simp [hc']

/-! ### Items of a dictionary -/

section
variable [DecidableEq N]

theorem keysOf_go {β : Type} (d : Dict N β) (ks : List N) (hk : ks.Nodup) :
    (d.foldl (fun ks x => if x.1 ∈ ks then ks else ks ++ [x.1]) ks).Nodup ∧
    ∀ k, k ∈ d.foldl (fun ks x => if x.1 ∈ ks then ks else ks ++ [x.1]) ks ↔ k ∈ ks ∨ k ∈ d.map (·.1) := by
  induction d generalizing ks with
  | nil => simp [hk]
  | cons x d ih =>
    rw [List.foldl_cons]
    by_cases h : x.1 ∈ ks
    · rw [if_pos h]
      obtain ⟨h1, h2⟩ := ih ks hk
      refine ⟨h1, fun k => ?_⟩
      rw [h2]
      simp only [List.map_cons, List.mem_cons]
      constructor
      · rintro (h' | h')
        · exact .inl h'
        · exact .inr (.inr h')
      · rintro (h' | rfl | h')
        · exact .inl h'
        · exact .inl h
        · exact .inr h'
    · rw [if_neg h]
      obtain ⟨h1, h2⟩ := ih (ks ++ [x.1]) (by
        rw [List.nodup_append]
        refine ⟨hk, by simp, ?_⟩
        intro a ha b hb e
        rw [List.mem_singleton] at hb
        subst e; subst hb
        exact h ha)
      refine ⟨h1, fun k => ?_⟩
      rw [h2]
      simp only [List.map_cons, List.mem_cons, List.mem_append, List.not_mem_nil, or_false]
      tauto

theorem mem_itemsOf {β : Type} (d : Dict N β) (k : N) (v : β) : (k, v) ∈ itemsOf d ↔ get d k = some v := by
  unfold itemsOf
  rw [List.mem_filterMap]
  constructor
  · rintro ⟨k', _, h⟩
    rw [Option.map_eq_some_iff] at h
    obtain ⟨v', h1, h2⟩ := h
    cases h2
    exact h1
  · intro h
    refine ⟨k, ?_, by rw [h]; rfl⟩
    refine ((keysOf_go d [] List.nodup_nil).2 k).2 (.inr ?_)
    rw [← get_ne_none, h]
    simp

theorem itemsOf_keys {β : Type} (d : Dict N β) : ((itemsOf d).map (·.1)).Nodup := by
  have h := (keysOf_go d [] List.nodup_nil).1
  have : ((itemsOf d).map (·.1)).Sublist (keysOf d) := by
    unfold itemsOf
    generalize keysOf d = ks
    induction ks with
    | nil => simp
    | cons k ks ih =>
      rw [List.filterMap_cons]
      cases get d k with
      | none => exact ih.cons _
      | some v => simpa using ih
  exact h.sublist this

end

/-! ### The loop over the tables -/

/-- The axis of a table: the one it names, or one made from its name. -/
def axisOf (idx : N → N) (k : N) (t : Table N T) : N := match t.axis with
  | some x => x
  | none => idx k

/-- `s` is the dataset that table `t` with the name `k` asks for. -/
structure Describes (idx : N → N) (k : N) (t : Table N T) (s : TableSet N T) : Prop where
  axes : s.axes = [axisOf idx k t]
  distAxis : s.distAxis = axisOf idx k t
  columns : t.columns = s.dtype.map fun x => (some x.1, x.2)
  initialise : s.initialise = true ↔ t.initialise ≠ some false
  distributed : s.distributed = true ↔ t.distributed = some true

theorem describes_unique (idx : N → N) (k : N) (t : Table N T) (s s' : TableSet N T)
    (h : Describes idx k t s) (h' : Describes idx k t s') : s = s' := by
  have hd : s.dtype = s'.dtype := by
    have := h.columns.symm.trans h'.columns
    refine (List.map_inj_right ?_).1 this
    rintro ⟨a, b⟩ ⟨a', b'⟩ e
    simpa using e
  have hi : s.initialise = s'.initialise := by
    rw [Bool.eq_iff_iff, h.initialise, h'.initialise]
  have hs : s.distributed = s'.distributed := by
    rw [Bool.eq_iff_iff, h.distributed, h'.distributed]
  have ha := h.axes.trans h'.axes.symm
  have hx := h.distAxis.trans h'.distAxis.symm
  cases s; cases s'
  simp only at hd hi hs ha hx
  rw [hd, hi, hs, ha, hx]

theorem createDtype_ok (ci : Nat) (cols : List (Option N × T)) (dt : List (N × T))
    (h : createDtype ci cols = .ok dt) : cols = dt.map fun x => (some x.1, x.2) := by
  induction cols generalizing ci dt with
  | nil => cases h; rfl
  | cons c cols ih =>
    obtain ⟨name, t⟩ := c
    unfold createDtype at h
    cases name with
    | none => cases h
    | some name =>
      simp only at h
      cases hr : createDtype (ci + 1) cols with
      | error e => rw [hr] at h; cases h
      | ok dt' =>
        rw [hr] at h
        cases h
        rw [List.map_cons, ← ih _ _ hr]

theorem createDtype_some (ci : Nat) (cols : List (Option N × T)) (h : ∀ x ∈ cols, x.1 ≠ none) :
    ∃ dt, createDtype ci cols = .ok dt := by
  induction cols generalizing ci with
  | nil => exact ⟨[], rfl⟩
  | cons c cols ih =>
    obtain ⟨name, t⟩ := c
    cases name with
    | none => exact absurd rfl (h (none, t) List.mem_cons_self)
    | some name =>
      obtain ⟨dt, hd⟩ := ih (ci + 1) fun x hx => h x (List.mem_cons_of_mem _ hx)
      refine ⟨(name, t) :: dt, ?_⟩
      unfold createDtype
      simp only [hd]

/-- The dataset of a table. -/
def tableEntry (idx : N → N) (k : N) (t : Table N T) (dt : List (N × T)) : TableSet N T :=
  ⟨[t.axis.getD (idx k)], dt, t.initialise.getD true, t.distributed.getD false, t.axis.getD (idx k)⟩

theorem tableEntry_describes (idx : N → N) (k : N) (t : Table N T) (dt : List (N × T))
    (h : createDtype 0 t.columns = .ok dt) : Describes idx k t (tableEntry idx k t dt) := by
  have ha : t.axis.getD (idx k) = axisOf idx k t := by
    unfold axisOf
    cases t.axis <;> rfl
  refine ⟨by rw [← ha]; rfl, by rw [← ha]; rfl, createDtype_ok 0 _ _ h, ?_, ?_⟩
  · show t.initialise.getD true = true ↔ _
    rcases t.initialise with _ | _ | _ <;> simp
  · show t.distributed.getD false = true ↔ _
    rcases t.distributed with _ | _ | _ <;> simp

section
variable [DecidableEq N]

/-- The loop on tables that are all in order. -/
theorem loop_ok (idx : N → N) (items : List (N × Table N T)) (d d' : Dict N (Entry N T U)) (axes axes' : List N)
    (hn : (items.map (·.1)).Nodup) (h : tableLoop idx items d axes = (d', .ok axes')) :
    (∀ k t, (k, t) ∈ items → ∃ s, get d' k = some (.table s) ∧ Describes idx k t s) ∧
    (∀ k, k ∉ items.map (·.1) → get d' k = get d k) ∧
    (∀ x, x ∈ axes' ↔ x ∈ axes ∨ ∃ e ∈ items, x = axisOf idx e.1 e.2) := by
  induction items generalizing d axes with
  | nil =>
    cases h
    simp
  | cons e items ih =>
    obtain ⟨k0, t0⟩ := e
    rw [List.map_cons, List.nodup_cons] at hn
    unfold tableLoop at h
    cases hd : createDtype 0 t0.columns with
    | error e => rw [hd] at h; cases h
    | ok dt =>
      rw [hd] at h
      obtain ⟨h1, h2, h3⟩ := ih _ _ hn.2 h
      have ha : t0.axis.getD (idx k0) = axisOf idx k0 t0 := by
        unfold axisOf
        cases t0.axis <;> rfl
      refine ⟨?_, ?_, ?_⟩
      · intro k t hkt
        rcases List.mem_cons.1 hkt with e | hkt
        · obtain ⟨rfl, rfl⟩ := Prod.mk.inj e
          refine ⟨tableEntry idx k t dt, ?_, tableEntry_describes idx k t dt hd⟩
          rw [h2 k hn.1, update, get_append]
          simp [get, tableEntry]
        · exact h1 k t hkt
      · intro k hk
        simp only [List.map_cons, List.mem_cons, not_or] at hk
        rw [h2 k hk.2, update, get_append]
        have : (k0 == k) = false := by simpa using fun e => hk.1 e.symm
        simp [get, this]
      · intro x
        rw [h3, ha]
        by_cases hx : axisOf idx k0 t0 ∈ axes
        · rw [if_pos hx]
          simp only [List.mem_cons, exists_eq_or_imp]
          constructor
          · rintro (h' | h')
            · exact .inl h'
            · exact .inr (.inr h')
          · rintro (h' | rfl | h')
            · exact .inl h'
            · exact .inl hx
            · exact .inr h'
        · rw [if_neg hx]
          simp only [List.mem_append, List.mem_cons, List.not_mem_nil, or_false, exists_eq_or_imp]
          tauto

/-- The loop, whether or not it ends with an error: an entry is what it was, or that of a table. -/
theorem loop_any (idx : N → N) (items : List (N × Table N T)) (d : Dict N (Entry N T U)) (axes : List N) (k : N) :
    get (tableLoop idx items d axes).1 k = get d k ∨
      ∃ t s, (k, t) ∈ items ∧ get (tableLoop idx items d axes).1 k = some (.table s) ∧ Describes idx k t s := by
  induction items generalizing d axes with
  | nil => exact .inl rfl
  | cons e items ih =>
    obtain ⟨k0, t0⟩ := e
    unfold tableLoop
    cases hd : createDtype 0 t0.columns with
    | error e => exact .inl rfl
    | ok dt =>
      simp only
      rcases ih (update d [(k0, .table ⟨[t0.axis.getD (idx k0)], dt, t0.initialise.getD true,
          t0.distributed.getD false, t0.axis.getD (idx k0)⟩)])
        (if t0.axis.getD (idx k0) ∈ axes then axes else axes ++ [t0.axis.getD (idx k0)]) with h | ⟨t, s, h1, h2, h3⟩
      · rw [h, update, get_append]
        by_cases hk : k0 = k
        · subst hk
          exact .inr ⟨t0, tableEntry idx k0 t0 dt, List.mem_cons_self, by simp [get, tableEntry],
            tableEntry_describes idx k0 t0 dt hd⟩
        · have : (k0 == k) = false := by simpa using hk
          left
          simp [get, this]
      · exact .inr ⟨t, s, List.mem_cons_of_mem _ h1, h2, h3⟩

theorem loop_succeeds (idx : N → N) (items : List (N × Table N T)) (d : Dict N (Entry N T U)) (axes : List N) :
    (∃ axes', (tableLoop idx items d axes).2 = .ok axes') ↔ ∀ k t, (k, t) ∈ items → ∀ x ∈ t.columns, x.1 ≠ none := by
  induction items generalizing d axes with
  | nil => simp [tableLoop]
  | cons e items ih =>
    obtain ⟨k0, t0⟩ := e
    unfold tableLoop
    constructor
    · rintro ⟨axes', h⟩ k t hkt
      cases hd : createDtype 0 t0.columns with
      | error e => rw [hd] at h; cases h
      | ok dt =>
        rw [hd] at h
        rcases List.mem_cons.1 hkt with e | hkt
        · cases e
          rw [createDtype_ok 0 _ _ hd]
          intro x hx
          obtain ⟨y, _, rfl⟩ := List.mem_map.1 hx
          simp
        · exact (ih _ _).1 ⟨axes', h⟩ k t hkt
    · intro h
      obtain ⟨dt, hd⟩ := createDtype_some 0 t0.columns (h k0 t0 List.mem_cons_self)
      rw [hd]
      exact (ih _ _).2 fun k t hkt => h k t (List.mem_cons_of_mem _ hkt)

/-! ### What making objects does to the classes -/

/-- `K'` has come from `K` by making objects. -/
structure Grown (idx : N → N) (K K' : List (TClass N T U)) : Prop where
  shape : K'.map shapeOf = K.map shapeOf
  none : ∀ c, ownSpec (specH K) c = none → ownSpec (specH K') c = none
  some : ∀ c d, ownSpec (specH K) c = some d → ∃ d', ownSpec (specH K') c = some d' ∧
    ∀ k, get d' k = get d k ∨ ∃ l t s, mro (specH K) c = some l ∧ get (tableSpec K l) k = some t ∧
      get d' k = some (.table s) ∧ Describes idx k t s

theorem Grown.refl (idx : N → N) (K : List (TClass N T U)) : Grown idx K K :=
  ⟨rfl, fun _ h => h, fun _ d h => ⟨d, h, fun _ => .inl rfl⟩⟩

theorem Grown.trans (idx : N → N) (K K' K'' : List (TClass N T U)) (h : Grown idx K K') (h' : Grown idx K' K'') :
    Grown idx K K'' := by
  refine ⟨h'.shape.trans h.shape, fun c hc => h'.none c (h.none c hc), fun c d hd => ?_⟩
  obtain ⟨d', hd', h1⟩ := h.some c d hd
  obtain ⟨d'', hd'', h2⟩ := h'.some c d' hd'
  refine ⟨d'', hd'', fun k => ?_⟩
  rcases h2 k with e | ⟨l, t, s, hl, ht, hs, hds⟩
  · rcases h1 k with e' | ⟨l, t, s, hl, ht, hs, hds⟩
    · exact .inl (e.trans e')
    · exact .inr ⟨l, t, s, hl, ht, e.trans hs, hds⟩
  · rw [mro_of_shape K K' h.shape] at hl
    rw [tableSpec_of_shape K K' h.shape] at ht
    exact .inr ⟨l, t, s, hl, ht, hs, hds⟩

theorem grown_setOwn (idx : N → N) (K : List (TClass N T U)) (c : Nat) (l : List Nat) (hl : mro (specH K) c = some l)
    (d : Dict N (Entry N T U)) (hd : ownSpec (specH K) c = some d) (axes : List N) :
    Grown idx K (setOwn K c (tableLoop idx (itemsOf (tableSpec K l)) d axes).1) := by
  refine ⟨shape_setOwn K c _, fun c' hc' => ?_, fun c' d' hd' => ?_⟩
  · rw [ownSpec_setOwn K c c' d _ hd, if_neg, hc']
    rintro rfl
    rw [hd] at hc'
    cases hc'
  · rw [ownSpec_setOwn K c c' d _ hd]
    by_cases e : c' = c
    · subst e
      rw [hd] at hd'
      cases hd'
      refine ⟨_, if_pos rfl, fun k => ?_⟩
      rcases loop_any idx (itemsOf (tableSpec K l)) d axes k with h | ⟨t, s, h1, h2, h3⟩
      · exact .inl h
      · exact .inr ⟨l, t, s, hl, (mem_itemsOf _ _ _).1 h1, h2, h3⟩
    · exact ⟨d', by rw [if_neg e, hd'], fun _ => .inl rfl⟩

theorem construct_grown (idx : N → N) (K : List (TClass N T U)) (c : Nat) : Grown idx K (construct idx K c).1 := by
  unfold construct
  cases hl : mro (specH K) c with
  | none => exact Grown.refl idx K
  | some l =>
    simp only
    cases hd : ownSpec (specH K) c with
    | some d =>
      simp only
      have := grown_setOwn idx K c l hl d hd ((ownAxes (specH K) c).getD [])
      split
      · next d' e hr => rw [hr] at this; exact this
      · next d' axes hr => rw [hr] at this; exact this
    | none =>
      simp only
      split <;> exact Grown.refl idx K

theorem afterAll_grown (idx : N → N) (cs : List Nat) (K : List (TClass N T U)) : Grown idx K (afterAll idx K cs) := by
  induction cs generalizing K with
  | nil => exact Grown.refl idx K
  | cons c cs ih => exact Grown.trans idx _ _ _ (construct_grown idx K c) (ih _)

end

/-! ### The class side -/

section
variable [LinearOrder N]

/-- A table of a class in the MRO is a table of the class. -/
theorem table_mono (K : List (TClass N T U)) (D : Nat) (l : List Nat) (h : mro (specH K) D = some l) (c : Nat) (hc : c ∈ l)
    (lc : List Nat) (hlc : mro (specH K) c = some lc) (k : N) (hk : get (tableSpec K lc) k ≠ none) :
    get (tableSpec K l) k ≠ none := by
  rw [tableSpec, get_fold_mem] at hk ⊢
  obtain ⟨c', hc', s, hs, hks⟩ := hk
  obtain ⟨lc', hlc', hsub⟩ := mro_sublist _ D l h c hc
  rw [hlc] at hlc'
  cases hlc'
  exact ⟨c', hsub.subset hc', s, hs, hks⟩

theorem findSome_own {β : Type} (f g : Nat → Option β) (l : List Nat) (P : β → β → Prop)
    (h : ∀ c ∈ l, (f c = none ∧ g c = none) ∨ ∃ a b, f c = some a ∧ g c = some b ∧ P a b) :
    (l.findSome? f = none ∧ l.findSome? g = none) ∨ ∃ a b, l.findSome? f = some a ∧ l.findSome? g = some b ∧ P a b := by
  induction l with
  | nil => exact .inl ⟨rfl, rfl⟩
  | cons c l ih =>
    rw [List.findSome?_cons, List.findSome?_cons]
    rcases h c List.mem_cons_self with ⟨h1, h2⟩ | ⟨a, b, h1, h2, h3⟩
    · rw [h1, h2]
      exact ih fun c' hc' => h c' (List.mem_cons_of_mem _ hc')
    · rw [h1, h2]
      exact .inr ⟨a, b, rfl, rfl, h3⟩

/-- Names that are not tables of a class with a `_dataset_spec` of its own are not touched. -/
theorem classSpec_grown (idx : N → N) (K K' : List (TClass N T U)) (g : Grown idx K K') (D : Nat) (l : List Nat)
    (h : mro (specH K) D = some l) (k : N)
    (hk : ∀ c ∈ l, ∀ lc d, mro (specH K) c = some lc → ownSpec (specH K) c = some d → get (tableSpec K lc) k = none) :
    get (classSpec (specH K') l) k = get (classSpec (specH K) l) k := by
  rw [classSpec, classSpec, get_sortDict, get_sortDict]
  have key : ∀ c ∈ l, (lookup (specH K') (ownSpec (specH K')) c).bind (fun s => get s k) =
      (lookup (specH K) (ownSpec (specH K)) c).bind (fun s => get s k) := by
    intro c hc
    obtain ⟨lc, hlc, hsub⟩ := mro_sublist _ D l h c hc
    unfold lookup
    rw [mro_of_shape K K' g.shape, hlc]
    simp only [Option.bind_some]
    rcases findSome_own (ownSpec (specH K')) (ownSpec (specH K)) lc (fun a b => get a k = get b k) (by
      intro c' hc'
      cases hd : ownSpec (specH K) c' with
      | none => exact .inl ⟨g.none c' hd, rfl⟩
      | some d =>
        obtain ⟨d', hd', hg⟩ := g.some c' d hd
        refine .inr ⟨d', d, hd', rfl, ?_⟩
        rcases hg k with e | ⟨l', t, s, hl', ht, _⟩
        · exact e
        · rw [hk c' (hsub.subset hc') l' d hl' hd] at ht
          cases ht) with ⟨h1, h2⟩ | ⟨a, b, h1, h2, h3⟩
    · rw [h1, h2]
    · rw [h1, h2]
      exact h3
  clear h hk
  induction l with
  | nil => rfl
  | cons c l ih =>
    rw [get_fold, get_fold, key c List.mem_cons_self, ih fun c' hc' => key c' (List.mem_cons_of_mem _ hc')]

theorem classAxes_grown (idx : N → N) (K K' : List (TClass N T U)) (g : Grown idx K K') (l : List Nat) :
    classAxes (specH K') l = classAxes (specH K) l := by
  have ho : ownAxes (specH K') = ownAxes (specH K) := funext (ownAxes_of_shape K K' g.shape)
  have hl : ∀ c, lookup (specH K') (ownAxes (specH K')) c = lookup (specH K) (ownAxes (specH K)) c := by
    intro c
    unfold lookup
    rw [mro_of_shape K K' g.shape, ho]
  have hf : addAxes (specH K') = addAxes (specH K) := by
    funext axes c
    unfold addAxes
    rw [hl c]
  rw [classAxes, classAxes, hf]

/-- What a successful construction gives. -/
theorem construct_ok (idx : N → N) (K : List (TClass N T U)) (c : Nat) (l : List Nat) (h : mro (specH K) c = some l)
    (i : Inst N T U) (hi : (construct idx K c).2 = .ok i) :
    i.cls = c ∧ (∀ k t, get (tableSpec K l) k = some t → ∃ s, get (heldDict (construct idx K c).1 i) k = some (.table s) ∧
      Describes idx k t s ∧ axisOf idx k t ∈ i.axes) ∧
    (∀ k, get (tableSpec K l) k = none → get (heldDict (construct idx K c).1 i) k = none ∨
      ∃ d, ownSpec (specH K) c = some d ∧ get (heldDict (construct idx K c).1 i) k = get d k) ∧
    (i.held = .shared ∨ ∃ d, i.held = .own d) ∧
    ∀ x, x ∈ i.axes ↔ (∃ s, ownAxes (specH K) c = some s ∧ x ∈ s) ∨ ∃ k t, get (tableSpec K l) k = some t ∧ x = axisOf idx k t := by
  have hkeys : ∀ k, get (tableSpec K l) k = none → k ∉ (itemsOf (tableSpec K l)).map (·.1) := by
    intro k hk hm
    obtain ⟨⟨k', t⟩, he, rfl⟩ := List.mem_map.1 hm
    rw [mem_itemsOf, hk] at he
    cases he
  have hax : ∀ (axes : List N), (∀ x, x ∈ axes ↔ x ∈ (ownAxes (specH K) c).getD [] ∨ ∃ e ∈ itemsOf (tableSpec K l), x = axisOf idx e.1 e.2) →
      ∀ x, x ∈ axes ↔ (∃ s, ownAxes (specH K) c = some s ∧ x ∈ s) ∨ ∃ k t, get (tableSpec K l) k = some t ∧ x = axisOf idx k t := by
    intro axes ha x
    rw [ha]
    constructor
    · rintro (hx | ⟨⟨k, t⟩, he, hx⟩)
      · left
        cases ho : ownAxes (specH K) c with
        | none => rw [ho] at hx; cases hx
        | some s => rw [ho] at hx; exact ⟨s, rfl, hx⟩
      · exact .inr ⟨k, t, (mem_itemsOf _ _ _).1 he, hx⟩
    · rintro (⟨s, hs, hx⟩ | ⟨k, t, he, hx⟩)
      · left
        rw [hs]
        exact hx
      · exact .inr ⟨(k, t), (mem_itemsOf _ _ _).2 he, hx⟩
  unfold construct at hi ⊢
  rw [h] at hi ⊢
  simp only at hi ⊢
  cases hd : ownSpec (specH K) c with
  | some d =>
    rw [hd] at hi
    simp only at hi ⊢
    cases hr : tableLoop idx (itemsOf (tableSpec K l)) d ((ownAxes (specH K) c).getD []) with
    | mk d' r =>
      rw [hr] at hi
      cases r with
      | error e => cases hi
      | ok axes =>
        cases hi
        obtain ⟨h1, h2, h3⟩ := loop_ok idx _ d d' _ axes (itemsOf_keys _) hr
        have hh : heldDict (setOwn K c d') ⟨c, .shared, axes⟩ = d' := by
          simp [heldDict, ownSpec_setOwn K c c d d' hd]
        simp only [hh]
        refine ⟨trivial, fun k t ht => ?_, fun k hk => .inr ⟨d, rfl, h2 k (hkeys k hk)⟩, .inl trivial, hax axes h3⟩
        obtain ⟨s, hs, hds⟩ := h1 k t ((mem_itemsOf _ _ _).2 ht)
        exact ⟨s, hs, hds, (h3 _).2 (.inr ⟨(k, t), (mem_itemsOf _ _ _).2 ht, rfl⟩)⟩
  | none =>
    rw [hd] at hi
    simp only at hi ⊢
    cases hr : tableLoop (U := U) idx (itemsOf (tableSpec K l)) [] ((ownAxes (specH K) c).getD []) with
    | mk d' r =>
      rw [hr] at hi
      cases r with
      | error e => cases hi
      | ok axes =>
        cases hi
        obtain ⟨h1, h2, h3⟩ := loop_ok idx _ [] d' _ axes (itemsOf_keys _) hr
        have hh : heldDict K ⟨c, .own d', axes⟩ = d' := rfl
        simp only [hh]
        refine ⟨trivial, fun k t ht => ?_, fun k hk => .inl (by rw [h2 k (hkeys k hk)]; rfl), .inr ⟨d', rfl⟩, hax axes h3⟩
        obtain ⟨s, hs, hds⟩ := h1 k t ((mem_itemsOf _ _ _).2 ht)
        exact ⟨s, hs, hds, (h3 _).2 (.inr ⟨(k, t), (mem_itemsOf _ _ _).2 ht, rfl⟩)⟩

end

end Verif.Cont
