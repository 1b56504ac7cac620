import Verif.Look.Lemmas
import Verif.Mem.NamesProps

/-!
# C117: what a container shows of its axes and datasets
-/
namespace Verif.Look

variable {ε : Type}

/-- What a mapping shows. -/
def shown (mem : Nat → List ε) (d : RoDict) : List (String × List ε) := d.map fun p => (p.1, mem p.2.cell)

/-- The axes of the container with their values. -/
def axesOf (w : World ε) : List (String × List ε) := w.axes.map fun p => (p.1, w.mem p.2)

/-! ### Looking -/

/-- C117: the mapping has the names and the values of the axes, in their order, and looking changes nothing in the container. -/
theorem C117_shown (w : World ε) (h : Ok w) :
    shown (indexMap w).2.mem (indexMap w).1 = axesOf w ∧ axesOf (indexMap w).2 = axesOf w ∧ Ok (indexMap w).2 := by
  obtain ⟨h1, -, h3, h4, -, h6, -⟩ := takeAll_spec w.axes w h
  refine ⟨h6, ?_, (step_ok w h .look).1⟩
  unfold axesOf indexMap
  rw [h1]
  apply List.map_congr_left
  intro p hp
  rw [h4 p.2 (h p hp)]

/-- C117: axes that are created, replaced or deleted later, and further looks, do not change a mapping. Only writing into memory that it shows does. -/
theorem C117_kept (w : World ε) (h : Ok w) (ops : List (Op ε))
    (ho : ∀ c i x, Op.write c i x ∈ ops → ∀ p ∈ (indexMap w).1, p.2.cell ≠ c) :
    shown (steps (indexMap w).2 ops).mem (indexMap w).1 = axesOf w := by
  rw [← (C117_shown w h).1]
  unfold shown
  apply List.map_congr_left
  intro p hp
  have hc : p.2.cell < (indexMap w).2.next := ((takeAll_spec w.axes w h).2.2.2.2.1 p hp).2.2
  rw [steps_mem ops (indexMap w).2 (C117_shown w h).2.2 p.2.cell hc (fun i x hm => ho _ i x hm p hp rfl)]

/-- C117: in memory, writing into an array of the mapping changes the axis of the container. -/
theorem C117_write_memory (w : World ε) (hd : w.ondisk = false) (hn : w.axes.Pairwise fun p q => p.2 ≠ q.2) (h : Ok w)
    (j : Nat) (k : String) (a : Arr) (hj : (indexMap w).1[j]? = some (k, a)) (i : Nat) (x : ε) :
    axesOf (step (indexMap w).2 (.write a.cell i x)).1 = (axesOf w).modify j fun p => (p.1, p.2.set i x) := by
  obtain ⟨h1, -, h3, h4, -, h6, h7, -⟩ := takeAll_spec w.axes w h
  obtain ⟨h7, h8⟩ := h7 hd
  have hj' : w.axes[j]? = some (k, a.cell) := by
    have : ((takeAll w.axes w).1.map fun p => (p.1, p.2.cell))[j]? = some (k, a.cell) := by
      rw [List.getElem?_map]
      rw [show (takeAll w.axes w).1[j]? = some (k, a) from hj]
      rfl
    rw [h7] at this
    exact this
  unfold axesOf step
  simp only
  rw [show (indexMap w).2.axes = w.axes from h1, show (indexMap w).2.mem = w.mem from h8]
  apply List.ext_getElem?
  intro m
  rw [List.getElem?_map, List.getElem?_modify, List.getElem?_map]
  cases hm : w.axes[m]? with
  | none => rfl
  | some q =>
    simp only [Option.map_some]
    by_cases hmj : j = m
    · subst hmj
      rw [hj'] at hm
      obtain rfl := Option.some.inj hm
      simp [upd_self]
    · simp only [if_neg hmj, Option.map_eq_map, Option.map_some]
      have hne : q.2 ≠ a.cell := by
        rw [List.pairwise_iff_getElem] at hn
        obtain ⟨hjl, e1⟩ := List.getElem?_eq_some_iff.1 hj'
        obtain ⟨hml, e2⟩ := List.getElem?_eq_some_iff.1 hm
        rcases Nat.lt_or_gt_of_ne hmj with hlt | hlt
        · have := hn j m hjl hml hlt
          rw [e1, e2] at this
          exact fun e => this e.symm
        · have := hn m j hml hjl hlt
          rw [e1, e2] at this
          exact this
      rw [upd_ne _ _ hne]

/-- C117 fails for containers on disk: what is written into an array of the mapping does not reach the container. -/
theorem C117_write_disk_violated (w : World ε) (hd : w.ondisk = true) (h : Ok w) (k : String) (a : Arr) (ha : (k, a) ∈ (indexMap w).1)
    (i : Nat) (x : ε) : axesOf (step (indexMap w).2 (.write a.cell i x)).1 = axesOf w := by
  obtain ⟨h1, -, h3, h4, -, h6, -, h8⟩ := takeAll_spec w.axes w h
  have hc := h8 hd _ ha
  unfold axesOf step
  simp only
  rw [show (indexMap w).2.axes = w.axes from h1]
  apply List.map_congr_left
  intro p hp
  have hp' := h p hp
  rw [upd_ne _ _ (by simp only at hc; omega), show (indexMap w).2.mem p.2 = w.mem p.2 from h4 p.2 hp']

/-! ### Comparing -/

/-- Same names with the same values, in whatever order. -/
def Same (same : ε → ε → Bool) (l r : List (String × List ε)) : Prop :=
  l.length = r.length ∧ ∀ k x, (k, x) ∈ l → ∃ y, (k, y) ∈ r ∧ x.length = y.length ∧
    ∀ (i : Nat) a b, x[i]? = some a → y[i]? = some b → same a b = true

theorem allequal_iff (np : Numpy ε) (mem : Nat → List ε) (l r : RoDict) (hr : (r.map (·.1)).Nodup) :
    allequal np mem l r = true ↔ Same np.same (shown mem l) (shown mem r) := by
  unfold allequal Same shown
  simp only [Bool.and_eq_true, beq_iff_eq, List.all_eq_true, List.length_map, List.mem_map, Prod.mk.injEq]
  refine and_congr_right fun _ => ⟨?_, ?_⟩
  · rintro h k x ⟨p, hp, rfl, rfl⟩
    have := h p hp
    cases hb : r.lookup p.1 with
    | none => rw [hb] at this; cases this
    | some b =>
      rw [hb] at this
      obtain ⟨e1, e2⟩ := (sameArrays_iff np _ _).1 this
      exact ⟨_, ⟨(p.1, b), lookup_mem _ _ _ hb, rfl, rfl⟩, e1, e2⟩
  · intro h p hp
    obtain ⟨y, ⟨q, hq, hq1, rfl⟩, e1, e2⟩ := h p.1 (mem p.2.cell) ⟨p, hp, rfl, rfl⟩
    have : r.lookup p.1 = some q.2 := lookup_of_mem _ hr _ _ (by rw [← hq1]; exact hq)
    rw [this]
    exact (sameArrays_iff np _ _).2 ⟨e1, e2⟩

/-- C117: if two mappings are said to be equal, they have the same names with the same values. -/
theorem C117_sound (np : Numpy ε) (mem : Nat → List ε) (l r : RoDict) (hr : (r.map (·.1)).Nodup) (h : roEq np mem l r = .ok true) :
    Same np.same (shown mem l) (shown mem r) := by
  unfold roEq at h
  cases hm : mappingEq np mem l r with
  | error e => rw [hm] at h; cases h
  | ok v =>
    rw [hm] at h
    cases v with
    | false => cases h
    | true => exact (allequal_iff np mem l r hr).1 (Except.ok.inj h)

/-- C117: a mapping is equal to itself. -/
theorem C117_itself (np : Numpy ε) (hs : ∀ a, np.same a a = true) (mem : Nat → List ε) (d : RoDict) (hd : (d.map (·.1)).Nodup) :
    roEq np mem d d = .ok true := by
  have h1 : mappingEq np mem d d = .ok true := by
    unfold mappingEq
    rw [if_neg (by simp)]
    rw [itemsEq_true]
    intro p hp
    exact ⟨p.2, lookup_of_mem _ hd _ _ hp, by unfold valueEq; rw [if_pos rfl]⟩
  unfold roEq
  rw [h1]
  simp only [Except.ok.injEq]
  rw [allequal_iff np mem d d hd]
  refine ⟨rfl, fun k x hx => ⟨x, hx, rfl, fun i a b ha hb => ?_⟩⟩
  rw [ha] at hb
  obtain rfl := Option.some.inj hb
  exact hs _

theorem truth_one (np : Numpy ε) (x y : List ε) (hx : x.length = 1) (hy : y.length = 1) :
    ∃ a b, x = [a] ∧ y = [b] ∧ truth np x y = .ok (np.eqv a b) := by
  obtain ⟨a, rfl⟩ := List.length_eq_one_iff.1 hx
  obtain ⟨b, rfl⟩ := List.length_eq_one_iff.1 hy
  exact ⟨a, b, rfl, rfl, rfl⟩

/-- C117 (for axes that have one entry each). The comparison has an answer, and it is right: same names with the same values, in whatever order. Here the
values are such that numpy's two comparisons agree (no NaN). -/
theorem C117_single_partial (np : Numpy ε) (hne : ∀ a b, np.eqv a b = np.same a b) (hs : ∀ a, np.same a a = true) (mem : Nat → List ε)
    (l r : RoDict) (hr : (r.map (·.1)).Nodup)
    (h1 : ∀ p ∈ l, (mem p.2.cell).length = 1) (h2 : ∀ p ∈ r, (mem p.2.cell).length = 1)
    (hobj : ∀ p ∈ l, ∀ q ∈ r, p.2.obj = q.2.obj → p.2.cell = q.2.cell) :
    ∃ v, roEq np mem l r = .ok v ∧ (v = true ↔ Same np.same (shown mem l) (shown mem r)) := by
  have hval : ∀ p ∈ l, ∀ b, r.lookup p.1 = some b →
      valueEq np mem p.2 b = .ok (sameArrays np (mem p.2.cell) (mem b.cell)) := by
    intro p hp b hb
    obtain ⟨x, y, e1, e2, e3⟩ := truth_one np _ _ (h1 p hp) (h2 _ (lookup_mem _ _ _ hb))
    unfold valueEq
    split
    · next ho =>
      have hcell := hobj p hp _ (lookup_mem _ _ _ hb) ho
      rw [show b.cell = p.2.cell from hcell.symm, e1]
      simp [sameArrays, hs]
    · rw [e3, e1, e2]
      simp [sameArrays, hne]
  have hitems : ∃ v, itemsEq np mem l r = .ok v ∧
      (v = true ↔ ∀ p ∈ l, ∃ b, r.lookup p.1 = some b ∧ sameArrays np (mem p.2.cell) (mem b.cell) = true) := by
    clear h1 hobj
    induction l with
    | nil => exact ⟨true, rfl, by simp⟩
    | cons p l ih =>
      obtain ⟨k, a⟩ := p
      obtain ⟨v, v1, v2⟩ := ih (fun p hp => hval p (List.mem_cons_of_mem _ hp))
      rw [itemsEq]
      cases hb : r.lookup k with
      | none =>
        refine ⟨false, rfl, ?_⟩
        simp only [Bool.false_eq_true, false_iff]
        intro h
        obtain ⟨b, h', -⟩ := h _ List.mem_cons_self
        rw [hb] at h'
        cases h'
      | some b =>
        simp only
        have hv := hval (k, a) List.mem_cons_self b hb
        simp only at hv
        rw [hv]
        cases ht : sameArrays np (mem a.cell) (mem b.cell) with
        | false =>
          refine ⟨false, rfl, ?_⟩
          simp only [Bool.false_eq_true, false_iff]
          intro h
          obtain ⟨b', h', h''⟩ := h _ List.mem_cons_self
          rw [hb] at h'
          obtain rfl := Option.some.inj h'
          rw [ht] at h''
          cases h''
        | true =>
          refine ⟨v, v1, ?_⟩
          rw [v2, List.forall_mem_cons]
          exact ⟨fun h => ⟨⟨b, hb, ht⟩, h⟩, fun h => h.2⟩
  obtain ⟨v, v1, v2⟩ := hitems
  have hall : (∀ p ∈ l, ∃ b, r.lookup p.1 = some b ∧ sameArrays np (mem p.2.cell) (mem b.cell) = true) → l.length = r.length →
      allequal np mem l r = true := by
    intro h hlen
    unfold allequal
    simp only [Bool.and_eq_true, beq_iff_eq, List.all_eq_true]
    refine ⟨hlen, fun p hp => ?_⟩
    obtain ⟨b, h1, h2⟩ := h p hp
    rw [h1]
    exact h2
  unfold roEq mappingEq
  by_cases hlen : l.length = r.length
  · rw [if_neg (by simpa using hlen), v1]
    cases v with
    | true =>
      have ha := hall (v2.1 rfl) hlen
      exact ⟨true, by simp [ha], by rw [← allequal_iff np mem l r hr, ha]⟩
    | false =>
      refine ⟨false, rfl, ?_⟩
      simp only [Bool.false_eq_true, false_iff]
      intro hS
      have ha := (allequal_iff np mem l r hr).2 hS
      unfold allequal at ha
      simp only [Bool.and_eq_true, beq_iff_eq, List.all_eq_true] at ha
      have : false = true := v2.2 (fun p hp => by
        have := ha.2 p hp
        cases hb : r.lookup p.1 with
        | none => rw [hb] at this; cases this
        | some b => rw [hb] at this; exact ⟨b, rfl, this⟩)
      cases this
  · rw [if_pos (by simpa using hlen)]
    refine ⟨false, rfl, ?_⟩
    simp only [Bool.false_eq_true, false_iff]
    intro hS
    have := hS.1
    unfold shown at this
    rw [List.length_map, List.length_map] at this
    exact hlen this

theorem truth_many (np : Numpy ε) (x : List ε) (hx : 2 ≤ x.length) : truth np x x = .error .valueError := by
  match x, hx with
  | _ :: _ :: _, _ => simp [truth]

/-- C117 fails as soon as an axis has two entries: the comparison of the index map of a container with itself (it is made anew for every look) raises a
`ValueError`. This is so for every container whose first axis has two entries or more, and for every version of numpy. -/
theorem C117_compare_violated (np : Numpy ε) (w : World ε) (h : Ok w) (k : String) (c : Nat) (l : List (String × Nat)) (hw : w.axes = (k, c) :: l)
    (hc : 2 ≤ (w.mem c).length) :
    let m := (indexMap w).1
    let w' := (indexMap w).2
    let m' := (indexMap w').1
    let mem := (indexMap w').2.mem
    shown mem m = axesOf w ∧ shown mem m' = axesOf w ∧ roEq np mem m m' = .error .valueError := by
  have s1 := C117_shown w h
  have s2 := C117_shown (indexMap w).2 s1.2.2
  have hk := C117_kept w h [.look] (fun c i x hm => by simp at hm)
  have t1 := takeAll_spec w.axes w h
  have t2 := takeAll_spec (indexMap w).2.axes (indexMap w).2 s1.2.2
  refine ⟨hk, s2.1.trans s1.2.1, ?_⟩
  have hcons : ∀ u : World ε, u.axes = (k, c) :: l → ∃ a m, (indexMap u).1 = (k, a) :: m := by
    intro u hu
    unfold indexMap
    rw [hu]
    exact ⟨_, _, rfl⟩
  obtain ⟨a, m, e1⟩ := hcons w hw
  obtain ⟨b, m', e2⟩ := hcons (indexMap w).2 (t1.1.trans hw)
  have hlen : (indexMap w).1.length = (indexMap (indexMap w).2).1.length := by
    have := congrArg List.length s1.1
    have h' := congrArg List.length s2.1
    unfold shown axesOf at this h'
    simp only [List.length_map] at this h'
    rw [this, h', show (indexMap w).2.axes = w.axes from t1.1]
  have hobj : a.obj ≠ b.obj := by
    have u1 := (t1.2.2.2.2.1 (k, a) (by rw [show (takeAll w.axes w).1 = _ from e1]; exact List.mem_cons_self)).2.1
    have u2 := (t2.2.2.2.2.1 (k, b) (by rw [show (takeAll (indexMap w).2.axes (indexMap w).2).1 = _ from e2]; exact List.mem_cons_self)).1
    simp only at u1 u2
    have : (indexMap w).2.next = (takeAll w.axes w).2.next := rfl
    omega
  have hsh1 : (indexMap (indexMap w).2).2.mem a.cell = w.mem c := by
    have := hk
    unfold shown axesOf at this
    rw [e1, hw] at this
    exact (Prod.mk.inj (List.cons.inj this).1).2
  have hsh2 : (indexMap (indexMap w).2).2.mem b.cell = w.mem c := by
    have := s2.1.trans s1.2.1
    unfold shown axesOf at this
    rw [e2, hw] at this
    exact (Prod.mk.inj (List.cons.inj this).1).2
  unfold roEq mappingEq
  rw [if_neg (by simpa using hlen)]
  rw [e1, e2, itemsEq]
  simp only [List.lookup_cons, beq_self_eq_true]
  have hv : valueEq np (indexMap (indexMap w).2).2.mem a b = .error .valueError := by
    unfold valueEq
    rw [if_neg hobj, hsh1, hsh2, truth_many np _ hc]
  simp only [hv]

/-- C117: when the comparison of two mappings raises. They have the same number of names; one name has arrays that numpy will not compare, and all names before
it, in the order of the left mapping, have values that compare true. -/
theorem C117_raises (np : Numpy ε) (mem : Nat → List ε) (l r : RoDict) (e : Err) :
    roEq np mem l r = .error e ↔ l.length = r.length ∧ ∃ l₁ k a l₂ b, l = l₁ ++ (k, a) :: l₂ ∧
      (∀ p ∈ l₁, ∃ b, r.lookup p.1 = some b ∧ (p.2.obj = b.obj ∨ truth np (mem p.2.cell) (mem b.cell) = .ok true)) ∧
      r.lookup k = some b ∧ a.obj ≠ b.obj ∧ truth np (mem a.cell) (mem b.cell) = .error e := by
  have hve : ∀ a b, valueEq np mem a b = .error e ↔ a.obj ≠ b.obj ∧ truth np (mem a.cell) (mem b.cell) = .error e := by
    intro a b
    unfold valueEq
    split
    · next h => simp [h]
    · next h => simp [h]
  have hvt : ∀ a b, valueEq np mem a b = .ok true ↔ a.obj = b.obj ∨ truth np (mem a.cell) (mem b.cell) = .ok true := by
    intro a b
    unfold valueEq
    split
    · next h => simp [h]
    · next h => simp [h]
  have hro : roEq np mem l r = .error e ↔ l.length = r.length ∧ itemsEq np mem l r = .error e := by
    unfold roEq mappingEq
    by_cases hlen : l.length = r.length
    · rw [if_neg (by simpa using hlen)]
      cases hi : itemsEq np mem l r with
      | error e' => simp [hlen]
      | ok v => cases v <;> simp
    · rw [if_pos (by simpa using hlen)]
      simp [hlen]
  rw [hro, itemsEq_stop np mem l r (.error e) (by simp)]
  refine and_congr_right fun _ => ⟨?_, ?_⟩
  · rintro ⟨l₁, k, a, l₂, h1, h2, h3⟩
    rcases h3 with ⟨-, h3⟩ | ⟨b, h3, h4⟩
    · cases h3
    · refine ⟨l₁, k, a, l₂, b, h1, fun p hp => ?_, h3, (hve a b).1 h4⟩
      obtain ⟨b', q1, q2⟩ := h2 p hp
      exact ⟨b', q1, (hvt _ _).1 q2⟩
  · rintro ⟨l₁, k, a, l₂, b, h1, h2, h3, h4⟩
    refine ⟨l₁, k, a, l₂, h1, fun p hp => ?_, .inr ⟨b, h3, (hve a b).2 h4⟩⟩
    obtain ⟨b', q1, q2⟩ := h2 p hp
    exact ⟨b', q1, (hvt _ _).2 q2⟩

/-- Integers. -/
def ints (empty mismatch : Except Err Bool) : Numpy Int := ⟨fun a b => a == b, fun a b => a == b, empty, mismatch⟩

/-- C117 fails: whether the comparison has an answer depends on the order of the names, and on which mapping is on the left. -/
theorem C117_order_violated (empty mismatch : Except Err Bool) :
    let mem : Nat → List Int := fun c => match c with | 0 => [1] | 1 => [2] | _ => [7, 8]
    let l : RoDict := [("freq", ⟨10, 0⟩), ("time", ⟨11, 2⟩)]
    let r : RoDict := [("time", ⟨12, 2⟩), ("freq", ⟨13, 1⟩)]
    roEq (ints empty mismatch) mem l r = .ok false ∧ roEq (ints empty mismatch) mem r l = .error .valueError := by
  refine ⟨rfl, rfl⟩

/-! ### Datasets -/

open Verif.Mem (Node Str Obj FieldErr Rules containerRules components getItem_eq crawl index Part rootGet)

variable {V δ : Type} (fields : δ → List Str → Option FieldErr)

theorem components_part (k : Str) (hk : Part k) : components ['/'] k = [k] := by
  have h0 : k.head? ≠ some '/' := by
    intro h
    cases k with
    | nil => cases h
    | cons a t =>
      obtain rfl := Option.some.inj h
      exact hk.2 List.mem_cons_self
  unfold components
  rw [if_neg h0]
  have : Verif.Mem.parts ['/'] = [] := by decide
  rw [this, List.nil_append]
  have := Verif.Mem.parts_render [k] (by simpa using hk)
  rw [show Verif.Mem.render [k] = '/' :: k by simp [Verif.Mem.render]] at this
  unfold Verif.Mem.parts at this ⊢
  rw [show Verif.Mem.splitSlash ('/' :: k) = [] :: Verif.Mem.splitSlash k by rw [Verif.Mem.splitSlash]; simp] at this
  simpa using this

theorem get_child (a : List (Str × V)) (kids : List (Str × Node V δ)) (k : Str) (hk : Part k) :
    (∃ o, containerRules.get fields (.group a kids) ['/'] k = .ok o) ↔ ∃ d, kids.lookup k = some (.dset d) := by
  have hc := Verif.Mem.C93_container fields (.group a kids) ⟨a, kids, rfl⟩ k
  have hget : Verif.Mem.getItem fields (.group a kids) ['/'] k =
      match kids.lookup k with
      | some n => .ok (.node n)
      | none => .error .keyError := by
    rw [getItem_eq fields _ _ _ rfl, components_part k hk]
    simp only [crawl, index]
    cases kids.lookup k <;> rfl
  constructor
  · rintro ⟨o, ho⟩
    obtain ⟨k', d, e1, rfl, e3⟩ := (hc o).1 ho
    rw [components_part k hk] at e1
    obtain rfl := (List.cons.inj e1).1
    rw [hget] at e3
    cases hl : kids.lookup k with
    | none => rw [hl] at e3; cases e3
    | some n =>
      rw [hl] at e3
      have := Except.ok.inj e3
      exact ⟨d, by rw [Obj.node.inj this]⟩
  · rintro ⟨d, hd⟩
    exact ⟨.node (.dset d), (hc _).2 ⟨k, d, components_part k hk, rfl, by rw [hget, hd]⟩⟩

theorem kid_lookup (kids : List (Str × Node V δ)) (hn : (kids.map Prod.fst).Nodup) (p : Str × Node V δ) (hp : p ∈ kids) :
    kids.lookup p.1 = some p.2 := by
  induction kids with
  | nil => cases hp
  | cons q kids ih =>
    obtain ⟨k, n⟩ := q
    rw [List.map_cons, List.nodup_cons] at hn
    rw [List.lookup_cons]
    rcases List.mem_cons.1 hp with rfl | hp
    · simp
    · have hne : p.1 ≠ k := fun he => hn.1 (List.mem_map.2 ⟨p, hp, he⟩)
      rw [show (p.1 == k) = false by simpa using hne]
      exact ih hn.2 hp

/-- C117: `datasets` has the datasets that the container lists, in the same order. -/
theorem C117_datasets (a : List (Str × V)) (kids : List (Str × Node V δ)) (hn : (kids.map Prod.fst).Nodup) (hk : ∀ p ∈ kids, Part p.1) :
    (datasets (.group a kids)).map Prod.fst = containerRules.list fields (.group a kids) ['/'] ∧
    ∀ k d, (k, d) ∈ datasets (.group a kids) → containerRules.get fields (.group a kids) ['/'] k = .ok (.node (.dset d)) := by
  constructor
  · have hkeys : Verif.Mem.keysAt fields (.group a kids : Node V δ) ['/'] = kids.map Prod.fst := rfl
    unfold Rules.list
    rw [hkeys]
    have hgo : ∀ l : List (Str × Node V δ), (∀ p ∈ l, p ∈ kids) →
        (l.filterMap fun p => match p.2 with | .dset d => some (p.1, d) | .group _ _ => none).map Prod.fst =
        (l.map Prod.fst).filter fun k => match containerRules.get fields (.group a kids) ['/'] k with | .ok _ => true | .error _ => false := by
      intro l
      induction l with
      | nil => intro _; rfl
      | cons p l ih =>
        intro hl
        have ih' := ih (fun q hq => hl q (List.mem_cons_of_mem _ hq))
        have hp := hl p List.mem_cons_self
        have hgc := get_child fields a kids p.1 (hk p hp)
        rw [kid_lookup kids hn p hp] at hgc
        rw [List.map_cons, List.filter_cons]
        obtain ⟨k, n⟩ := p
        cases n with
        | dset d =>
          obtain ⟨o, ho⟩ := hgc.2 ⟨d, rfl⟩
          simp only at ho
          simp only [ho, if_true]
          rw [List.filterMap_cons]
          simp only [List.map_cons]
          rw [ih']
        | group b ks =>
          have : ∃ e, containerRules.get fields (.group a kids) ['/'] k = .error e := by
            cases hg : containerRules.get fields (.group a kids) ['/'] k with
            | error e => exact ⟨e, rfl⟩
            | ok o =>
              obtain ⟨d, hd⟩ := hgc.1 ⟨o, hg⟩
              cases hd
          obtain ⟨e, he⟩ := this
          simp only [he, Bool.false_eq_true, if_false]
          rw [List.filterMap_cons]
          simp only
          exact ih'
    exact hgo kids (fun p hp => hp)
  · intro k d h
    unfold datasets at h
    rw [List.mem_filterMap] at h
    obtain ⟨p, hp, he⟩ := h
    obtain ⟨k', n⟩ := p
    cases n with
    | group b ks => cases he
    | dset d' =>
      simp only [Option.some.injEq, Prod.mk.injEq] at he
      obtain ⟨rfl, rfl⟩ := he
      have hl := kid_lookup kids hn _ hp
      have hP := hk _ hp
      refine (Verif.Mem.C93_container fields (.group a kids) ⟨a, kids, rfl⟩ k' _).2 ⟨k', d', components_part _ hP, rfl, ?_⟩
      rw [getItem_eq fields _ _ _ rfl, components_part _ hP]
      simp only [crawl, index]
      simp only at hl
      rw [hl]

/-- C117: of a container in memory, `data` and `weight` give the dataset that the class names. If the class names none, there is a `RuntimeError`, and a `KeyError`
if there is no such dataset. -/
theorem C117_data (a : List (Str × V)) (kids : List (Str × Node V δ)) :
    dataOf fields false (.group a kids) none = .error .runtimeError ∧ weightOf fields false (.group a kids) none = .error .runtimeError ∧
    ∀ k, Part k →
      (∀ d, kids.lookup k = some (.dset d) →
        dataOf fields false (.group a kids) (some k) = .ok d ∧ weightOf fields false (.group a kids) (some k) = .ok d) ∧
      ((∀ d, kids.lookup k ≠ some (.dset d)) →
        dataOf fields false (.group a kids) (some k) = .error .keyError ∧ weightOf fields false (.group a kids) (some k) = .error .keyError) := by
  refine ⟨rfl, rfl, fun k hk => ?_⟩
  have hget : Verif.Mem.getItem fields (.group a kids) ['/'] k =
      match kids.lookup k with
      | some n => .ok (.node n)
      | none => .error .keyError := by
    rw [getItem_eq fields _ _ _ rfl, components_part k hk]
    simp only [crawl, index]
    cases kids.lookup k <;> rfl
  constructor
  · intro d hd
    have : containerRules.get fields (.group a kids) ['/'] k = .ok (.node (.dset d)) :=
      (Verif.Mem.C93_container fields (.group a kids) ⟨a, kids, rfl⟩ k _).2 ⟨k, d, components_part _ hk, rfl, by rw [hget, hd]⟩
    refine ⟨?_, ?_⟩
    · simp [dataOf, fetch, this]
    · simp [weightOf, fetch, this, hk.1]
  · intro hd
    have : containerRules.get fields (.group a kids) ['/'] k = .error .keyError := by
      rw [Verif.Mem.rules_get_eq fields _ _ _ _ rfl, hget]
      cases hl : kids.lookup k with
      | none => rfl
      | some n =>
        cases n with
        | dset d => exact absurd hl (hd d)
        | group b ks => simp [Verif.Mem.Visible, containerRules]
    refine ⟨?_, ?_⟩
    · simp [dataOf, fetch, this, ofMem]
    · simp [weightOf, fetch, this, hk.1, ofMem]

/-- C117: an empty name of the weights counts as none, in memory and on disk: there is a `RuntimeError` whatever the container holds. -/
theorem C117_empty_name (ondisk : Bool) (root : Node V δ) :
    weightOf fields ondisk root (some []) = .error .runtimeError ∧
    weightOf fields ondisk root (some []) = weightOf fields ondisk root none := ⟨rfl, rfl⟩

/-- C117 fails on disk: `data` and `weight` never give a dataset; the one that is there is refused with a `TypeError`. -/
theorem C117_disk_violated (root : Node V δ) (name : Option Str) :
    (∀ d, dataOf fields true root name ≠ .ok d ∧ weightOf fields true root name ≠ .ok d) ∧
    ∀ a kids k d, root = .group a kids → Part k → kids.lookup k = some (.dset d) → dataOf fields true root (some k) = .error .typeError := by
  have hf : ∀ n d, fetch fields true root n ≠ .ok d := by
    intro n d h
    unfold fetch at h
    split at h
    · cases h
    · cases h
    · cases h
  refine ⟨fun d => ⟨?_, ?_⟩, ?_⟩
  · cases name with
    | none => intro h; cases h
    | some n => exact hf n d
  · cases name with
    | none => intro h; cases h
    | some n =>
      intro h
      unfold weightOf at h
      simp only at h
      split at h
      · cases h
      · exact hf n d h
  · rintro a kids k d rfl hk hd
    obtain ⟨o, ho⟩ := (get_child fields a kids k hk).2 ⟨d, hd⟩
    obtain ⟨k', d', -, rfl, -⟩ := (Verif.Mem.C93_container fields (.group a kids) ⟨a, kids, rfl⟩ k o).1 ho
    simp [dataOf, fetch, ho]

/-! ### Cases -/

/-- Two axes, of two entries and one. -/
def two (ondisk : Bool) : World Int := ⟨ondisk, [("freq", 0), ("time", 1)], fun c => if c = 0 then [400, 800] else if c = 1 then [5] else [], 2⟩

theorem two_ok (b : Bool) : Ok (two b) := by
  intro p hp
  simp only [two, List.mem_cons, List.not_mem_nil, or_false] at hp
  rcases hp with rfl | rfl <;> simp [two]

example : axesOf (two true) = [("freq", [400, 800]), ("time", [5])] := by decide
-- the axis is replaced, another is made, one is deleted: the old mapping is as before, the container is not
example : shown (steps (indexMap (two false)).2 [.create "freq" [1], .create "pol" [3, 4], .delete "time"]).mem (indexMap (two false)).1 = axesOf (two false) ∧
    axesOf (steps (indexMap (two false)).2 [.create "freq" [1], .create "pol" [3, 4], .delete "time"]) = [("freq", [1]), ("pol", [3, 4])] :=
  ⟨C117_kept _ (two_ok _) _ (fun c i x h => by simp at h), by decide⟩
example : axesOf (step (indexMap (two false)).2 (.write 0 1 9)).1 = [("freq", [400, 9]), ("time", [5])] :=
  C117_write_memory (two false) rfl (by decide) (two_ok _) 0 "freq" ⟨2, 0⟩ rfl 1 9
example : axesOf (step (indexMap (two true)).2 (.write 2 1 9)).1 = [("freq", [400, 800]), ("time", [5])] :=
  C117_write_disk_violated (two true) rfl (two_ok _) "freq" ⟨2, 2⟩ (by decide) 1 9
example (e m : Except Err Bool) : roEq (ints e m) (indexMap (indexMap (two true)).2).2.mem (indexMap (two true)).1 (indexMap (indexMap (two true)).2).1 =
    .error .valueError := (C117_compare_violated (ints e m) (two true) (two_ok _) "freq" 0 [("time", 1)] rfl (by decide)).2.2
example (e m : Except Err Bool) : roEq (ints e m) (indexMap (two true)).2.mem (indexMap (two true)).1 (indexMap (two true)).1 = .ok true :=
  C117_itself _ (by simp [ints]) _ _ (by decide)
-- one entry each, in another order
example (e m : Except Err Bool) : roEq (ints e m) (fun c => [if c < 3 then (c : Int) else c - 3]) [("a", ⟨0, 1⟩), ("b", ⟨1, 2⟩)] [("b", ⟨2, 5⟩), ("a", ⟨3, 4⟩)] =
    .ok true := by
  obtain ⟨v, h1, h2⟩ := C117_single_partial (ints e m) (fun _ _ => rfl) (by simp [ints]) (fun c => [if c < 3 then (c : Int) else c - 3])
    [("a", ⟨0, 1⟩), ("b", ⟨1, 2⟩)] [("b", ⟨2, 5⟩), ("a", ⟨3, 4⟩)] (by decide) (by simp) (by simp) (by simp)
  rw [h1, h2.2]
  refine ⟨rfl, ?_⟩
  intro k x hx
  simp only [shown, List.map_cons, List.map_nil, List.mem_cons, List.not_mem_nil, or_false, Prod.mk.injEq] at hx
  rcases hx with ⟨rfl, rfl⟩ | ⟨rfl, rfl⟩
  · refine ⟨[1], by simp [shown], rfl, ?_⟩
    intro i a b ha hb
    match i with
    | 0 => simp at ha hb; subst ha hb; rfl
    | i + 1 => simp at ha
  · refine ⟨[2], by simp [shown], rfl, ?_⟩
    intro i a b ha hb
    match i with
    | 0 => simp at ha hb; subst ha hb; rfl
    | i + 1 => simp at ha
-- the second axis is refused
example (e m : Except Err Bool) : roEq (ints e m) (fun c => if c = 0 then [1] else [7, 8]) [("freq", ⟨0, 0⟩), ("time", ⟨1, 1⟩)] [("time", ⟨2, 1⟩), ("freq", ⟨3, 0⟩)] =
    .error .valueError :=
  (C117_raises (ints e m) (fun c => if c = 0 then [1] else [7, 8]) _ _ _).2
    ⟨rfl, [("freq", ⟨0, 0⟩)], "time", ⟨1, 1⟩, [], ⟨2, 1⟩, rfl, by intro p hp; simp only [List.mem_singleton] at hp; subst hp; exact ⟨⟨3, 0⟩, rfl, .inr rfl⟩, rfl, by decide, rfl⟩

/-- A container as `Container.__init__` makes it, with two datasets. -/
def box : Node Nat Nat :=
  .group [] [("history".toList, .group [] []), ("vis".toList, .dset 5), ("index_map".toList, .group [] [("time".toList, .dset 7)]), ("weight".toList, .dset 6)]

theorem box_datasets (fields : Nat → List Str → Option FieldErr) :
    (datasets box).map Prod.fst = ["vis".toList, "weight".toList] ∧ containerRules.list fields box ['/'] = ["vis".toList, "weight".toList] := by
  have h := (C117_datasets fields (V := Nat) (δ := Nat) [] _ (by decide) (by intro p hp; simp at hp; rcases hp with rfl | rfl | rfl | rfl <;> exact ⟨by decide, by decide⟩ : ∀ p ∈
    [("history".toList, (.group [] [] : Node Nat Nat)), ("vis".toList, .dset 5), ("index_map".toList, .group [] [("time".toList, .dset 7)]), ("weight".toList, .dset 6)], Part p.1)).1
  exact ⟨rfl, h.symm⟩

example (fields : Nat → List Str → Option FieldErr) : dataOf fields false box (some "vis".toList) = .ok 5 :=
  (((C117_data fields [] _).2.2 "vis".toList ⟨by decide, by decide⟩).1 5 rfl).1
example (fields : Nat → List Str → Option FieldErr) : weightOf fields false box (some "index_map".toList) = .error .keyError :=
  (((C117_data fields [] _).2.2 "index_map".toList ⟨by decide, by decide⟩).2 (by intro d h; simp [List.lookup] at h)).2
example (fields : Nat → List Str → Option FieldErr) : dataOf fields true box (some "vis".toList) = .error .typeError :=
  (C117_disk_violated fields box none).2 _ _ _ 5 rfl ⟨by decide, by decide⟩ rfl

end Verif.Look
