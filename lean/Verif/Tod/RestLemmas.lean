import Verif.Tod.Rest
import Verif.Tod.Lemmas
import Mathlib.Tactic.Common

/-!
# Specification and lemmas for C98
-/
namespace Verif.Tod
variable {α A : Type}

/-! ## Specification -/

/-- Every array of a container exists. -/
def Exists (cells : Cells α) (l : List (Ds A)) : Prop := ∀ d ∈ l, d.ref < cells.length

/-- `d'` in the memory `cells'` has the name and the contents of `d` in the memory `cells`. -/
def SameArray (cells cells' : Cells α) (d d' : Ds A) : Prop :=
  d'.name = d.name ∧ cells'[d'.ref]? = cells[d.ref]?

/-- The datasets of a container none of whose axes is one of `timeAxes`. -/
def Timeless (timeAxes : List Axis) (l : List (Ds A)) : List (Ds A) :=
  l.filter fun d => d.axes.all fun a => decide (a ∉ timeAxes)

/-! ## Lemmas -/

theorem hasTime_eq (timeAxes : List Axis) (l : List (Ds A)) :
    (l.filter fun d => !hasTime timeAxes d) = Timeless timeAxes l := by
  unfold Timeless hasTime
  congr 1
  funext d
  rw [Bool.eq_iff_iff]
  simp

theorem cell_some {cells : Cells α} {r : Nat} (h : r < cells.length) : cells[r]? = some (cell cells r) := by
  unfold cell
  rw [List.getElem?_eq_getElem h]

/-- What the steps do with an array: nothing is changed, and the new place has the old contents. -/
structure Moves (cells cells' : Cells α) (r r' : Nat) : Prop where
  pre : cells <+: cells'
  here : r' < cells'.length
  same : cells'[r']? = cells[r]?

theorem moves_refl {cells : Cells α} {r : Nat} (h : r < cells.length) : Moves cells cells r r :=
  ⟨List.prefix_rfl, h, rfl⟩

theorem moves_new {cells : Cells α} {r : Nat} (h : r < cells.length) :
    Moves cells (cells ++ [cell cells r]) r cells.length :=
  ⟨List.prefix_append .., by simp, by simp [cell_some h]⟩

theorem Moves.trans {c1 c2 c3 : Cells α} {r1 r2 r3 : Nat} (h : Moves c1 c2 r1 r2) (h' : Moves c2 c3 r2 r3) :
    Moves c1 c3 r1 r3 :=
  ⟨h.pre.trans h'.pre, h'.here, h'.same.trans h.same⟩

theorem readDs_moves {disk : Bool} {cells : Cells α} {r : Nat} (h : r < cells.length) :
    Moves cells (readDs disk cells r).1 r (readDs disk cells r).2 := by
  unfold readDs
  split
  · exact moves_new h
  · exact moves_refl h

theorem unicoded_moves {cells : Cells α} {k : Kind} {r : Nat} (h : r < cells.length) :
    Moves cells (unicoded cells k r).1 r (unicoded cells k r).2.1 := by
  cases k
  · exact moves_new h
  · exact moves_refl h
  · exact moves_refl h

theorem unicoded_kind (cells : Cells α) (k : Kind) (r : Nat) : (unicoded cells k r).2.2 = toText k := by
  cases k <;> rfl

theorem fetched_moves {disk strings : Bool} {cells : Cells α} {d : Ds A} (h : d.ref < cells.length) :
    Moves cells (fetched disk strings cells d).1 d.ref (fetched disk strings cells d).2.1 := by
  unfold fetched
  have m := readDs_moves (disk := disk) h
  cases strings
  · exact m
  · exact m.trans (unicoded_moves m.here)

theorem fetched_kind (disk strings : Bool) (cells : Cells α) (d : Ds A) :
    (fetched disk strings cells d).2.2 = if strings then toText d.kind else d.kind := by
  unfold fetched
  cases strings
  · rfl
  · exact unicoded_kind ..

theorem createDs_moves {disk : Bool} {cells cells' : Cells α} {dtype k : Kind} {r r' : Nat} (h : r < cells.length)
    (e : createDs disk cells dtype k r = .ok (cells', r')) : Moves cells cells' r r' := by
  unfold createDs at e
  split at e
  · split at e
    · cases e
    · obtain ⟨rfl, rfl⟩ := Prod.mk.inj (Except.ok.inj e)
      exact moves_new h
  · split at e
    · obtain ⟨rfl, rfl⟩ := Prod.mk.inj (Except.ok.inj e)
      exact moves_refl h
    · obtain ⟨rfl, rfl⟩ := Prod.mk.inj (Except.ok.inj e)
      exact moves_new h

theorem createDs_ok {disk : Bool} {cells : Cells α} {dtype k : Kind} {r : Nat} :
    (∃ x, createDs disk cells dtype k r = .ok x) ↔ (disk = true → dtype ≠ .text) := by
  unfold createDs
  cases disk <;> cases dtype <;> cases k <;> simp

theorem createDs_disk {cells cells' : Cells α} {dtype k : Kind} {r r' : Nat}
    (e : createDs true cells dtype k r = .ok (cells', r')) : r' = cells.length := by
  unfold createDs at e
  rw [if_pos rfl] at e
  split at e
  · cases e
  · exact (Prod.mk.inj (Except.ok.inj e)).2.symm

theorem createDs_either {disk : Bool} {cells cells' : Cells α} {dtype k : Kind} {r r' : Nat}
    (e : createDs disk cells dtype k r = .ok (cells', r')) : r' = cells.length ∨ r' = r := by
  unfold createDs at e
  split at e
  · split at e
    · cases e
    · exact Or.inl (Prod.mk.inj (Except.ok.inj e)).2.symm
  · split at e
    · exact Or.inr (Prod.mk.inj (Except.ok.inj e)).2.symm
    · exact Or.inl (Prod.mk.inj (Except.ok.inj e)).2.symm

/-- A loop keeps an invariant of memory and relates the entries pairwise, if its step does. -/
theorem eachDs_rel {one : Cells α → Ds A → Except RErr (Cells α × Ds A)} {R : Cells α → Cells α → Ds A → Ds A → Prop}
    (hR : ∀ c1 c2 c3 c4 : Cells α, ∀ d d', c1 <+: c2 → c3 <+: c4 → d.ref < c1.length → R c2 c3 d d' → R c1 c4 d d')
    (h : ∀ c c' d d', d.ref < c.length → one c d = .ok (c', d') → c <+: c' ∧ R c c' d d') :
    ∀ (l : List (Ds A)) (c c' : Cells α) (l' : List (Ds A)), Exists c l → eachDs one c l = .ok (c', l') →
      c <+: c' ∧ List.Forall₂ (R c c') l l' := by
  intro l
  induction l with
  | nil =>
    intro c c' l' _ e
    obtain ⟨rfl, rfl⟩ := Prod.mk.inj (Except.ok.inj e)
    exact ⟨List.prefix_rfl, .nil⟩
  | cons d ds ih =>
    intro c c' l' hx e
    unfold eachDs at e
    split at e
    · cases e
    · rename_i c1 d1 e1
      split at e
      · cases e
      · rename_i c2 ds2 e2
        obtain ⟨rfl, rfl⟩ := Prod.mk.inj (Except.ok.inj e)
        obtain ⟨p1, r1⟩ := h c c1 d d1 (hx d (by simp)) e1
        have hx' : Exists c1 ds := fun d' hd' => Nat.lt_of_lt_of_le (hx d' (by simp [hd'])) p1.length_le
        obtain ⟨p2, r2⟩ := ih c1 _ _ hx' e2
        refine ⟨p1.trans p2, .cons (hR c c c1 _ d d1 List.prefix_rfl p2 (hx d (by simp)) r1) ?_⟩
        have : ∀ {m m' : List (Ds A)}, (∀ x ∈ m, x.ref < c.length) → List.Forall₂ (R c1 c2) m m' →
            List.Forall₂ (R c c2) m m' := by
          intro m m' hm f
          induction f with
          | nil => exact .nil
          | cons a _ ih =>
            exact .cons (hR c c1 c2 c2 _ _ p1 List.prefix_rfl (hm _ (by simp)) a) (ih fun x hx => hm x (by simp [hx]))
        exact this (fun x hx2 => hx x (by simp [hx2])) r2

/-- A loop succeeds exactly if every step does, if that does not depend on the memory. -/
theorem eachDs_ok {one : Cells α → Ds A → Except RErr (Cells α × Ds A)} {P : Ds A → Prop}
    (h : ∀ c d, (∃ x, one c d = .ok x) ↔ P d) :
    ∀ (l : List (Ds A)) (c : Cells α), (∃ x, eachDs one c l = .ok x) ↔ ∀ d ∈ l, P d := by
  intro l
  induction l with
  | nil => intro c; simp [eachDs]
  | cons d ds ih =>
    intro c
    have h1 := h c d
    unfold eachDs
    cases e : one c d with
    | error x =>
      rw [e] at h1
      simp only [reduceCtorEq, exists_false, false_iff] at h1
      simp [h1]
    | ok x =>
      rw [e] at h1
      have hp : P d := h1.mp ⟨_, rfl⟩
      have h2 := ih x.1
      cases e2 : eachDs one x.1 ds with
      | error y =>
        rw [e2] at h2
        simp only [reduceCtorEq, exists_false, false_iff] at h2
        simp only [e2, reduceCtorEq, exists_false, false_iff]
        exact fun h => h2 fun d hd => h d (by simp [hd])
      | ok y =>
        rw [e2] at h2
        have := h2.mp ⟨_, rfl⟩
        simp only [e2, Except.ok.injEq, exists_eq', List.mem_cons, true_iff]
        rintro d' (rfl | hd')
        · exact hp
        · exact this d' hd'

/-- What each entry of an index map of the output is. -/
def IndexRel (plain : A → A) (timeAxes : List Axis) (len : Axis → Int) (strings : Bool) (c c' : Cells α) (d d' : Ds A) :
    Prop :=
  d'.name = d.name ∧ d'.attrs = d.attrs.map (fun x => (x.1, plain x.2)) ∧
    d'.kind = (if strings then toText d.kind else d.kind) ∧
    if d.name ∈ timeAxes then c'[d'.ref]? = some (List.replicate (len d.name).toNat none) ∧ c.length ≤ d'.ref
    else c'[d'.ref]? = c[d.ref]?

theorem prefix_get {c c' : Cells α} (h : c <+: c') {r : Nat} (hr : r < c.length) : c'[r]? = c[r]? := by
  obtain ⟨t, rfl⟩ := h
  rw [List.getElem?_append_left hr]

theorem prefix_get_some {c c' : Cells α} (h : c <+: c') {r : Nat} {v : List (Option α)} (hr : c[r]? = some v) :
    c'[r]? = some v := by
  obtain ⟨hl, _⟩ := List.getElem?_eq_some_iff.mp hr
  rw [prefix_get h hl, hr]

theorem indexOne_rel {plain : A → A} {timeAxes : List Axis} {len : Axis → Int} {inDisk outDisk strings : Bool}
    (c c' : Cells α) (d d' : Ds A) (hd : d.ref < c.length)
    (e : indexOne plain timeAxes len inDisk outDisk strings c d = .ok (c', d')) :
    c <+: c' ∧ IndexRel plain timeAxes len strings c c' d d' := by
  unfold indexOne at e
  split at e
  · rename_i ht
    split at e
    · cases e
    · simp only at e
      split at e
      · cases e
      · rename_i c1 r1 e1
        obtain ⟨rfl, rfl⟩ := Prod.mk.inj (Except.ok.inj e)
        have m := createDs_moves (by simp) e1
        refine ⟨(List.prefix_append c _).trans m.pre, rfl, rfl, rfl, ?_⟩
        rw [if_pos ht]
        refine ⟨by rw [m.same]; simp, ?_⟩
        rcases createDs_either e1 with h | h
        · simp only [h, List.length_append]; omega
        · simp only [h]; omega
  · rename_i ht
    simp only at e
    split at e
    · cases e
    · rename_i c1 r1 e1
      obtain ⟨rfl, rfl⟩ := Prod.mk.inj (Except.ok.inj e)
      have m := (fetched_moves (disk := inDisk) (strings := strings) hd)
      have m' := m.trans (createDs_moves m.here e1)
      refine ⟨m'.pre, rfl, rfl, fetched_kind .., ?_⟩
      rw [if_neg ht]
      exact m'.same

theorem indexRel_mono {plain : A → A} {timeAxes : List Axis} {len : Axis → Int} {strings : Bool}
    (c1 c2 c3 c4 : Cells α) (d d' : Ds A) (p : c1 <+: c2) (p' : c3 <+: c4) (hd : d.ref < c1.length)
    (h : IndexRel plain timeAxes len strings c2 c3 d d') : IndexRel plain timeAxes len strings c1 c4 d d' := by
  obtain ⟨a, b, k, h⟩ := h
  refine ⟨a, b, k, ?_⟩
  split at h
  · rename_i ht
    rw [if_pos ht]
    exact ⟨prefix_get_some p' h.1, Nat.le_trans p.length_le h.2⟩
  · rename_i ht
    rw [if_neg ht]
    rw [prefix_get p hd, List.getElem?_eq_getElem hd] at h
    rw [List.getElem?_eq_getElem hd]
    exact prefix_get_some p' h

/-- What each reverse map of the output is. -/
def ReverseRel (c c' : Cells α) (d d' : Ds A) : Prop := SameArray c c' d d' ∧ d'.kind = d.kind ∧ d'.attrs = []

/-- What each dataset without a time axis is. -/
def DsetRel (conv : A → A) (c c' : Cells α) (d d' : Ds A) : Prop :=
  SameArray c c' d d' ∧ d'.kind = d.kind ∧ d'.axes = d.axes ∧ d'.attrs = d.attrs.map (fun x => (x.1, conv x.2))

theorem sameArray_mono (c1 c2 c3 c4 : Cells α) (d d' : Ds A) (p : c1 <+: c2) (p' : c3 <+: c4) (hd : d.ref < c1.length)
    (h : SameArray c2 c3 d d') : SameArray c1 c4 d d' := by
  obtain ⟨a, h⟩ := h
  rw [prefix_get p hd, List.getElem?_eq_getElem hd] at h
  exact ⟨a, by rw [List.getElem?_eq_getElem hd]; exact prefix_get_some p' h⟩

theorem reverseOne_rel {inDisk outDisk : Bool} (c c' : Cells α) (d d' : Ds A) (hd : d.ref < c.length)
    (e : reverseOne inDisk outDisk c d = .ok (c', d')) : c <+: c' ∧ ReverseRel c c' d d' := by
  unfold reverseOne at e
  simp only at e
  split at e
  · cases e
  · rename_i c1 r1 e1
    obtain ⟨rfl, rfl⟩ := Prod.mk.inj (Except.ok.inj e)
    have m := readDs_moves (disk := inDisk) hd
    have m' := m.trans (createDs_moves m.here e1)
    exact ⟨m'.pre, ⟨rfl, m'.same⟩, rfl, rfl⟩

theorem dsetOne_rel {conv : A → A} {inDisk outDisk strings : Bool} (c c' : Cells α) (d d' : Ds A) (hd : d.ref < c.length)
    (e : dsetOne conv inDisk outDisk strings c d = .ok (c', d')) : c <+: c' ∧ DsetRel conv c c' d d' := by
  unfold dsetOne at e
  simp only at e
  split at e
  · cases e
  · rename_i c1 r1 e1
    obtain ⟨rfl, rfl⟩ := Prod.mk.inj (Except.ok.inj e)
    have m := fetched_moves (disk := inDisk) (strings := strings) hd
    have m' := m.trans (createDs_moves m.here e1)
    exact ⟨m'.pre, ⟨rfl, m'.same⟩, rfl, rfl, rfl⟩

/-- The three loops of a successful concatenation. -/
theorem takeRest_parts {conv plain : A → A} {strings outDisk : Bool} {timeAxes : List Axis} {len : Axis → Int}
    {cells cells' : Cells α} {first out : TCont A}
    (e : takeRest conv plain strings outDisk timeAxes len cells first = .ok (cells', out)) :
    ∃ c1 c2, eachDs (indexOne plain timeAxes len first.disk outDisk strings) cells first.index = .ok (c1, out.index) ∧
      eachDs (reverseOne first.disk outDisk) c1 first.reverse = .ok (c2, out.reverse) ∧
      eachDs (dsetOne conv first.disk outDisk strings) c2 (Timeless timeAxes first.dsets) = .ok (cells', out.dsets) ∧
      out.attrs = first.attrs.map (fun x => (x.1, conv x.2)) ∧ out.history = [] ∧ out.disk = outDisk := by
  unfold takeRest at e
  rw [hasTime_eq] at e
  split at e
  · cases e
  · rename_i c1 i e1
    split at e
    · cases e
    · rename_i c2 r e2
      split at e
      · cases e
      · rename_i c3 ds e3
        obtain ⟨rfl, rfl⟩ := Prod.mk.inj (Except.ok.inj e)
        exact ⟨c1, c2, e1, e2, e3, rfl, rfl, rfl⟩

theorem forall2_mono {R S : Ds A → Ds A → Prop} {l l' : List (Ds A)} (h : List.Forall₂ R l l')
    (hs : ∀ d ∈ l, ∀ d', R d d' → S d d') : List.Forall₂ S l l' := by
  induction h with
  | nil => exact .nil
  | cons a _ ih => exact .cons (hs _ (by simp) _ a) (ih fun d hd => hs d (by simp [hd]))

theorem exists_mono {c c' : Cells α} {l : List (Ds A)} (p : c <+: c') (h : Exists c l) : Exists c' l :=
  fun d hd => Nat.lt_of_lt_of_le (h d hd) p.length_le

theorem timeless_exists {c : Cells α} {timeAxes : List Axis} {l : List (Ds A)} (h : Exists c l) :
    Exists c (Timeless timeAxes l) := fun d hd => h d ((List.mem_filter.mp hd).1)

theorem createDs_memory {cells cells' : Cells α} {k : Kind} {r r' : Nat}
    (e : createDs false cells k k r = .ok (cells', r')) : cells' = cells ∧ r' = r := by
  unfold createDs at e
  simp only [Bool.false_eq_true, if_false, if_true] at e
  obtain ⟨rfl, rfl⟩ := Prod.mk.inj (Except.ok.inj e)
  exact ⟨rfl, rfl⟩

theorem indexOne_ok {plain : A → A} {timeAxes : List Axis} {len : Axis → Int} {inDisk outDisk strings : Bool}
    (c : Cells α) (d : Ds A) :
    (∃ x, indexOne plain timeAxes len inDisk outDisk strings c d = .ok x) ↔
      (d.name ∈ timeAxes → 0 ≤ len d.name) ∧
        (outDisk = true → d.kind ≠ .text ∧ (strings = true → d.kind ≠ .bytes)) := by
  have hk : ((if strings = true then toText d.kind else d.kind) ≠ .text) ↔
      (d.kind ≠ .text ∧ (strings = true → d.kind ≠ .bytes)) := by
    cases strings <;> cases d.kind <;> simp [toText]
  unfold indexOne
  by_cases ht : d.name ∈ timeAxes
  · rw [if_pos ht]
    by_cases hl : len d.name < 0
    · rw [if_pos hl]
      simp only [reduceCtorEq, exists_false, false_iff]
      intro h
      have := h.1 ht
      omega
    · rw [if_neg hl]
      simp only
      rw [← hk, ← createDs_ok (disk := outDisk) (cells := c ++ [List.replicate (len d.name).toNat none])
        (dtype := if strings = true then toText d.kind else d.kind)
        (k := if strings = true then toText d.kind else d.kind) (r := c.length)]
      have : 0 ≤ len d.name := by omega
      split
      · rename_i e he
        simp [he]
      · rename_i he
        simp [he, this]
  · rw [if_neg ht]
    simp only
    rw [← hk, ← fetched_kind inDisk strings c d, ← createDs_ok (disk := outDisk) (cells := (fetched inDisk strings c d).1)
      (k := (fetched inDisk strings c d).2.2) (r := (fetched inDisk strings c d).2.1)]
    split
    · rename_i e he
      simp [he]
    · rename_i he
      simp [he, ht]

theorem reverseOne_ok {inDisk outDisk : Bool} (c : Cells α) (d : Ds A) :
    (∃ x, reverseOne inDisk outDisk c d = .ok x) ↔ (outDisk = true → d.kind ≠ .text) := by
  unfold reverseOne
  simp only
  rw [← createDs_ok (disk := outDisk) (cells := (readDs inDisk c d.ref).1) (k := d.kind) (r := (readDs inDisk c d.ref).2)]
  split
  · rename_i e he
    simp [he]
  · rename_i he
    simp [he]

theorem dsetOne_ok {conv : A → A} {inDisk outDisk strings : Bool} (c : Cells α) (d : Ds A) :
    (∃ x, dsetOne conv inDisk outDisk strings c d = .ok x) ↔ (outDisk = true → d.kind ≠ .text) := by
  unfold dsetOne
  simp only
  rw [← createDs_ok (disk := outDisk) (cells := (fetched inDisk strings c d).1)
      (k := (fetched inDisk strings c d).2.2) (r := (fetched inDisk strings c d).2.1)]
  split
  · rename_i e he
    simp [he]
  · rename_i he
    simp [he]

theorem readDs_new (cells : Cells α) (r : Nat) : (readDs true cells r).2 = cells.length ∧
    (readDs true cells r).1.length = cells.length + 1 := by
  simp [readDs]

theorem fetched_new (strings : Bool) (cells : Cells α) (d : Ds A) : cells.length ≤ (fetched true strings cells d).2.1 ∧
    cells.length ≤ (fetched true strings cells d).1.length := by
  unfold fetched
  cases strings
  · simp [readDs]
  · cases h : d.kind <;> simp [readDs, unicoded]

/-- Where an entry is if the output or the input is on disk. -/
def FreshRel (c _ : Cells α) (_ d' : Ds A) : Prop := c.length ≤ d'.ref

theorem freshRel_mono (c1 c2 c3 c4 : Cells α) (d d' : Ds A) (p : c1 <+: c2) (_ : c3 <+: c4) (_ : d.ref < c1.length)
    (h : FreshRel c2 c3 d d') : FreshRel c1 c4 d d' := Nat.le_trans p.length_le h

theorem created_fresh {inDisk outDisk : Bool} (hdisk : inDisk = true ∨ outDisk = true) {c c1 c' : Cells α} {k k' : Kind}
    {r r' : Nat} (p : c.length ≤ c1.length) (hr : inDisk = true → c.length ≤ r)
    (e : createDs outDisk c1 k k' r = .ok (c', r')) : c.length ≤ r' := by
  rcases hdisk with h | h
  · rcases createDs_either e with h' | h'
    · omega
    · have := hr h
      omega
  · subst h
    have := createDs_disk e
    omega

theorem indexOne_fresh {plain : A → A} {timeAxes : List Axis} {len : Axis → Int} {inDisk outDisk strings : Bool}
    (hdisk : inDisk = true ∨ outDisk = true) (c c' : Cells α) (d d' : Ds A) (hd : d.ref < c.length)
    (e : indexOne plain timeAxes len inDisk outDisk strings c d = .ok (c', d')) : c <+: c' ∧ FreshRel c c' d d' := by
  refine ⟨(indexOne_rel c c' d d' hd e).1, ?_⟩
  by_cases ht : d.name ∈ timeAxes
  · have h := (indexOne_rel c c' d d' hd e).2.2.2.2
    rw [if_pos ht] at h
    exact h.2
  · unfold indexOne at e
    rw [if_neg ht] at e
    simp only at e
    split at e
    · cases e
    · rename_i c1 r1 e1
      obtain ⟨rfl, rfl⟩ := Prod.mk.inj (Except.ok.inj e)
      exact created_fresh hdisk (fetched_moves hd).pre.length_le (by rintro rfl; exact (fetched_new ..).1) e1

theorem reverseOne_fresh {inDisk outDisk : Bool} (hdisk : inDisk = true ∨ outDisk = true) (c c' : Cells α) (d d' : Ds A)
    (hd : d.ref < c.length) (e : reverseOne inDisk outDisk c d = .ok (c', d')) : c <+: c' ∧ FreshRel c c' d d' := by
  refine ⟨(reverseOne_rel c c' d d' hd e).1, ?_⟩
  unfold reverseOne at e
  simp only at e
  split at e
  · cases e
  · rename_i c1 r1 e1
    obtain ⟨rfl, rfl⟩ := Prod.mk.inj (Except.ok.inj e)
    exact created_fresh hdisk (readDs_moves hd).pre.length_le (by rintro rfl; simp [readDs]) e1

theorem dsetOne_fresh {conv : A → A} {inDisk outDisk strings : Bool} (hdisk : inDisk = true ∨ outDisk = true)
    (c c' : Cells α) (d d' : Ds A) (hd : d.ref < c.length)
    (e : dsetOne conv inDisk outDisk strings c d = .ok (c', d')) : c <+: c' ∧ FreshRel c c' d d' := by
  refine ⟨(dsetOne_rel c c' d d' hd e).1, ?_⟩
  unfold dsetOne at e
  simp only at e
  split at e
  · cases e
  · rename_i c1 r1 e1
    obtain ⟨rfl, rfl⟩ := Prod.mk.inj (Except.ok.inj e)
    exact created_fresh hdisk (fetched_moves hd).pre.length_le (by rintro rfl; exact (fetched_new ..).1) e1

/-- Where an entry is if everything is in memory and no strings are converted. -/
def SharedRel (keep : Ds A → Prop) (_ _ : Cells α) (d d' : Ds A) : Prop := keep d → d'.ref = d.ref

theorem sharedRel_mono {keep : Ds A → Prop} (c1 c2 c3 c4 : Cells α) (d d' : Ds A) (_ : c1 <+: c2) (_ : c3 <+: c4)
    (_ : d.ref < c1.length) (h : SharedRel keep c2 c3 d d') : SharedRel keep c1 c4 d d' := h

theorem fetched_keep {strings : Bool} {c : Cells α} {d : Ds A} (h : strings = true → d.kind ≠ .bytes) :
    fetched false strings c d = (c, d.ref, d.kind) := by
  unfold fetched readDs
  cases strings
  · rfl
  · cases e : d.kind with
    | bytes => exact absurd e (h rfl)
    | text => rfl
    | other => rfl

theorem indexOne_shared {plain : A → A} {timeAxes : List Axis} {len : Axis → Int} {strings : Bool}
    (c c' : Cells α) (d d' : Ds A) (hd : d.ref < c.length)
    (e : indexOne plain timeAxes len false false strings c d = .ok (c', d')) :
    c <+: c' ∧ SharedRel (fun d => d.name ∉ timeAxes ∧ (strings = true → d.kind ≠ .bytes)) c c' d d' := by
  refine ⟨(indexOne_rel c c' d d' hd e).1, fun ⟨ht, hk⟩ => ?_⟩
  unfold indexOne at e
  rw [if_neg ht, fetched_keep hk] at e
  simp only at e
  split at e
  · cases e
  · rename_i c1 r1 e1
    obtain ⟨rfl, rfl⟩ := Prod.mk.inj (Except.ok.inj e)
    exact (createDs_memory e1).2

theorem reverseOne_shared (c c' : Cells α) (d d' : Ds A) (hd : d.ref < c.length)
    (e : reverseOne false false c d = .ok (c', d')) : c <+: c' ∧ SharedRel (fun _ => True) c c' d d' := by
  refine ⟨(reverseOne_rel c c' d d' hd e).1, fun _ => ?_⟩
  unfold reverseOne at e
  simp only at e
  split at e
  · cases e
  · rename_i c1 r1 e1
    obtain ⟨rfl, rfl⟩ := Prod.mk.inj (Except.ok.inj e)
    exact (createDs_memory e1).2

theorem dsetOne_shared {conv : A → A} {strings : Bool} (c c' : Cells α) (d d' : Ds A) (hd : d.ref < c.length)
    (e : dsetOne conv false false strings c d = .ok (c', d')) :
    c <+: c' ∧ SharedRel (fun d => strings = true → d.kind ≠ .bytes) c c' d d' := by
  refine ⟨(dsetOne_rel c c' d d' hd e).1, fun hk => ?_⟩
  unfold dsetOne at e
  rw [fetched_keep hk] at e
  simp only at e
  split at e
  · cases e
  · rename_i c1 r1 e1
    obtain ⟨rfl, rfl⟩ := Prod.mk.inj (Except.ok.inj e)
    exact (createDs_memory e1).2

theorem forall2_right {R : Ds A → Ds A → Prop} {P : Ds A → Prop} {l l' : List (Ds A)} (h : List.Forall₂ R l l')
    (hp : ∀ d d', R d d' → P d') : ∀ d' ∈ l', P d' := by
  induction h with
  | nil => simp
  | cons a _ ih =>
    intro d' hd'
    rcases List.mem_cons.mp hd' with rfl | h
    · exact hp _ _ a
    · exact ih d' h

/-- Whether an assignment succeeds depends only on the length. -/
theorem setSlice_any (o o2 : List (Option α)) (hl : o.length = o2.length) (s : Int × Int) (v : List α)
    (h : ∃ x, setSlice o2 s v = .ok x) : ∃ x, setSlice o s v = .ok x := by
  unfold setSlice setAt at h ⊢
  rw [hl]
  split
  · exact ⟨_, rfl⟩
  · rename_i hn
    rw [if_neg hn] at h
    split at h
    · exact ⟨_, rfl⟩
    · simp at h

/-- In memory, an index map is filled with what is wanted of the inputs end to end. -/
theorem fillAxis_memory (S E : Int) (hSE : S ≤ E) : ∀ (ls : List (List α)) (pre : List α),
    fillAxis false S E pre.length ls (view S E pre) = .ok (view S E (pre ++ ls.flatten)) := by
  intro ls
  induction ls with
  | nil => intro pre; simp [fillAxis]
  | cons l ls ih =>
    intro pre
    have h := ih (pre ++ l)
    rw [List.length_append, Int.natCast_add] at h
    rw [fillAxis]
    by_cases hs : skipped S E pre.length l.length = true
    · rw [if_pos hs, ← view_skip S E pre l hs, h]
      simp
    · rw [if_neg hs]
      simp only
      rw [view_set S E pre l l.length rfl (by simpa using hs) hSE]
      simp only [Bool.false_eq_true, if_false]
      rw [h]
      simp

/-- On disk, an index map stays as it is. -/
theorem fillAxis_disk (S E : Int) (hSE : S ≤ E) : ∀ (ls : List (List α)) (pre : List α) (o : List (Option α)),
    o.length = (E - S).toNat → fillAxis true S E pre.length ls o = .ok o := by
  intro ls
  induction ls with
  | nil => intro pre o _; simp [fillAxis]
  | cons l ls ih =>
    intro pre o ho
    have h := ih (pre ++ l) o ho
    rw [List.length_append, Int.natCast_add] at h
    rw [fillAxis]
    by_cases hs : skipped S E pre.length l.length = true
    · rw [if_pos hs, h]
    · rw [if_neg hs]
      simp only
      obtain ⟨x, hx⟩ := setSlice_any o (view S E pre) (by rw [ho, view_length]) _ _
        ⟨_, view_set S E pre l l.length rfl (by simpa using hs) hSE⟩
      rw [hx]
      simpa using h

end Verif.Tod
