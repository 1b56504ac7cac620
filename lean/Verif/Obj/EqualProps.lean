import Verif.Obj.Equal
import Mathlib.Data.List.Perm.Subperm
import Mathlib.Data.List.Forall2

/-! # C49: `allequal` -/
namespace Verif.Obj

/-! ## Specification -/

/-- The elements. -/
def PyL.toList : PyL → List Py
  | .nil => []
  | .cons x l => x :: l.toList

/-- The items. -/
def PyD.items : PyD → List (String × Py)
  | .nil => []
  | .cons k v d => (k, v) :: d.items

mutual
/-- The keys of each dictionary are different. -/
def Py.WF : Py → Prop
  | .seq _ l => l.WF
  | .dict d => d.keys.Nodup ∧ d.WF
  | _ => True
/-- The same for all elements. -/
def PyL.WF : PyL → Prop
  | .nil => True
  | .cons x l => x.WF ∧ l.WF
/-- The same for all values. -/
def PyD.WF : PyD → Prop
  | .nil => True
  | .cons _ v d => v.WF ∧ d.WF
end

mutual
/-- There are no arrays inside. -/
def Py.NoArr : Py → Prop
  | .arr _ _ => False
  | .seq _ l => l.NoArr
  | .dict d => d.NoArr
  | _ => True
/-- There are no arrays inside. -/
def PyL.NoArr : PyL → Prop
  | .nil => True
  | .cons x l => x.NoArr ∧ l.NoArr
/-- There are no arrays inside. -/
def PyD.NoArr : PyD → Prop
  | .nil => True
  | .cons _ v d => v.NoArr ∧ d.NoArr
end

/-! ## Lemmas on numbers and arrays -/

theorem Num.pyEq_iff (a b : Num) :
    a.pyEq b = true ↔ (a = b ∧ a ≠ .nan) ∨ (a = .negZero ∧ b = .val 0) ∨ (a = .val 0 ∧ b = .negZero) := by
  cases a <;> cases b <;> simp [Num.pyEq]

theorem Num.assertEq_iff (a b : Num) : a.assertEq b = true ↔ a = b := by
  cases a <;> cases b <;> simp [Num.assertEq, Num.isZero, Num.pyEq, Num.signbit]
  · exact eq_comm
  · rintro (h | h)
    · exact h
    · rintro rfl; exact absurd h (by decide)
  · rintro (h | h)
    · exact h
    · rintro rfl; exact absurd h (by decide)
  · constructor
    · rintro ⟨_, h⟩; exact h.symm
    · rintro rfl; exact ⟨Or.inr Iff.rfl, rfl⟩

theorem Num.arrEq_symm (a b : Num) : a.arrEq b = b.arrEq a := by
  cases a <;> cases b <;> simp [Num.arrEq, Num.pyEq, eq_comm]

theorem Num.arrEq_refl (a : Num) : a.arrEq a = true := by
  cases a <;> simp [Num.arrEq, Num.pyEq]

theorem arraysEq_refl (l : List Num) : arraysEq l l = true := by
  induction l with
  | nil => rfl
  | cons a l ih => simp [arraysEq, Num.arrEq_refl, ih]

theorem arraysEq_symm (l m : List Num) : arraysEq l m = arraysEq m l := by
  induction l generalizing m with
  | nil => cases m <;> rfl
  | cons a l ih => cases m with
    | nil => rfl
    | cons b m => simp only [arraysEq]; rw [Num.arrEq_symm, ih]

theorem leafEq_symm (x y : Py) : leafEq x y = leafEq y x := by
  cases x <;> cases y <;> simp only [leafEq]
  · simp only [eq_comm]
  · rename_i a b
    rw [Bool.eq_iff_iff, Num.assertEq_iff, Num.assertEq_iff, eq_comm]
  · simp only [Num.arrEq_symm]
  · simp only [Num.arrEq_symm]
  · rw [arraysEq_symm]; simp only [eq_comm]
  · split <;> [rw [arraysEq_symm]; rfl]
  · split <;> [rw [arraysEq_symm]; rfl]

/-! ## Lemmas on lists and dictionaries -/

theorem PyL.length_toList (l : PyL) : l.toList.length = l.length := by
  match l with
  | .nil => rfl
  | .cons x l => simp [PyL.toList, PyL.length, PyL.length_toList l]

theorem PyD.length_keys (d : PyD) : d.keys.length = d.length := by
  match d with
  | .nil => rfl
  | .cons k v d => simp [PyD.keys, PyD.length, PyD.length_keys d]

theorem PyD.keys_items (d : PyD) : d.items.map (·.1) = d.keys := by
  match d with
  | .nil => rfl
  | .cons k v d => simp [PyD.keys, PyD.items, PyD.keys_items d]

theorem PyD.get_isSome (d : PyD) (k : String) : (d.get k).isSome ↔ k ∈ d.keys := by
  match d with
  | .nil => simp [PyD.get, PyD.keys]
  | .cons k' v d =>
    simp only [PyD.get, PyD.keys, List.mem_cons]
    split
    · rename_i h; simp [h]
    · rename_i h
      rw [PyD.get_isSome d k]
      simp [Ne.symm h]

theorem PyD.get_iff (d : PyD) (h : d.keys.Nodup) (k : String) (v : Py) :
    d.get k = some v ↔ (k, v) ∈ d.items := by
  match d with
  | .nil => simp [PyD.get, PyD.items]
  | .cons k' v' d =>
    simp only [PyD.keys, List.nodup_cons] at h
    simp only [PyD.get, PyD.items, List.mem_cons, Prod.mk.injEq]
    split
    · rename_i hk
      subst hk
      have hn : (k', v) ∉ d.items := by
        intro hm
        apply h.1
        rw [← PyD.keys_items]
        exact List.mem_map.2 ⟨_, hm, rfl⟩
      simp [hn, eq_comm]
    · rename_i hk
      rw [PyD.get_iff d h.2]
      simp [Ne.symm hk]

theorem seqsEq_iff (l m : PyL) (h : l.length = m.length) :
    seqsEq l m = true ↔ List.Forall₂ (fun x y => allequal x y = true) l.toList m.toList := by
  match l, m with
  | .nil, .nil => simp [seqsEq, PyL.toList]
  | .nil, .cons _ _ => simp [PyL.length] at h
  | .cons _ _, .nil => simp [PyL.length] at h
  | .cons x l, .cons y m =>
    simp only [PyL.length, Nat.add_right_cancel_iff] at h
    simp [seqsEq, PyL.toList, seqsEq_iff l m h]

theorem dictsEq_iff (d e : PyD) :
    dictsEq d e = true ↔ ∀ k v, (k, v) ∈ d.items → ∃ w, e.get k = some w ∧ allequal v w = true := by
  match d with
  | .nil => simp [dictsEq, PyD.items]
  | .cons k v d =>
    simp only [dictsEq, PyD.items, List.mem_cons, Prod.mk.injEq]
    cases h : e.get k with
    | none =>
      simp only [Bool.false_eq_true, false_iff]
      intro hc
      obtain ⟨w, hw, _⟩ := hc k v (Or.inl ⟨rfl, rfl⟩)
      rw [h] at hw
      cases hw
    | some w =>
      simp only [Bool.and_eq_true, dictsEq_iff d e]
      constructor
      · rintro ⟨h1, h2⟩ k' v' (⟨rfl, rfl⟩ | hm)
        · exact ⟨w, h, h1⟩
        · exact h2 k' v' hm
      · intro hc
        refine ⟨?_, fun k' v' hm => hc k' v' (Or.inr hm)⟩
        obtain ⟨w', hw', hv⟩ := hc k v (Or.inl ⟨rfl, rfl⟩)
        rw [h] at hw'
        cases hw'
        exact hv

/-! ## The property: what is equal -/

/-- C49. Two dictionaries are equal exactly if they have the same keys with equal values. -/
theorem C49_dicts (d e : PyD) (hd : d.keys.Nodup) (he : e.keys.Nodup) :
    allequal (.dict d) (.dict e) = true ↔
      (∀ k, k ∈ d.keys ↔ k ∈ e.keys) ∧
      ∀ k v w, (k, v) ∈ d.items → (k, w) ∈ e.items → allequal v w = true := by
  simp only [allequal, Bool.and_eq_true, decide_eq_true_eq, dictsEq_iff]
  constructor
  · rintro ⟨hl, h⟩
    have hsub : d.keys ⊆ e.keys := by
      intro k hk
      rw [← PyD.keys_items] at hk
      obtain ⟨⟨k', v⟩, hm, rfl⟩ := List.mem_map.1 hk
      obtain ⟨w, hw, _⟩ := h k' v hm
      rw [← PyD.get_isSome, hw]
      rfl
    have hperm : d.keys.Perm e.keys := by
      apply (List.subperm_of_subset hd hsub).perm_of_length_le
      rw [PyD.length_keys, PyD.length_keys, hl]
    refine ⟨fun k => hperm.mem_iff, ?_⟩
    intro k v w hv hw
    obtain ⟨w', hw', hvw⟩ := h k v hv
    rw [← PyD.get_iff e he] at hw
    rw [hw] at hw'
    cases hw'
    exact hvw
  · rintro ⟨hk, h⟩
    have hperm : d.keys.Perm e.keys := (List.perm_ext_iff_of_nodup hd he).2 hk
    refine ⟨by rw [← PyD.length_keys, ← PyD.length_keys, hperm.length_eq], ?_⟩
    intro k v hv
    have hin : k ∈ d.keys := by
      rw [← PyD.keys_items]
      exact List.mem_map.2 ⟨_, hv, rfl⟩
    obtain ⟨w, hw⟩ := Option.isSome_iff_exists.1 ((PyD.get_isSome e k).2 ((hk k).1 hin))
    exact ⟨w, hw, h k v w hv ((PyD.get_iff e he k w).1 hw)⟩

/-- C49. Two sequences are equal exactly if they have equally many elements and these are equal one by one; lists
and tuples are not distinguished. -/
theorem C49_seqs (t u : Bool) (l m : PyL) :
    allequal (.seq t l) (.seq u m) = true ↔
      List.Forall₂ (fun x y => allequal x y = true) l.toList m.toList := by
  simp only [allequal, Bool.and_eq_true, decide_eq_true_eq]
  constructor
  · rintro ⟨h1, h2⟩
    exact (seqsEq_iff l m h1).1 h2
  · intro h
    have hl : l.length = m.length := by
      rw [← PyL.length_toList, ← PyL.length_toList, h.length_eq]
    exact ⟨hl, (seqsEq_iff l m hl).2 h⟩

/-- C49. Numbers are equal if they have the same value, where NaN equals itself and the negative zero is not the
positive one. -/
theorem C49_numbers (a b : Num) : allequal (.num a) (.num b) = true ↔ a = b := by
  simp only [allequal, leafEq]
  exact Num.assertEq_iff a b

/-- C49. Strings. -/
theorem C49_strings (s t : String) : allequal (.str s) (.str t) = true ↔ s = t := by
  simp [allequal, leafEq]

/-- The kind of an object. -/
def Py.kind : Py → Nat
  | .none => 0
  | .str _ => 1
  | .num _ => 2
  | .arr _ _ => 3
  | .seq _ _ => 4
  | .dict _ => 5

/-- C49. Objects of different kinds are different, arrays apart. -/
theorem C49_kinds (x y : Py) (h : x.kind ≠ y.kind) (hx : x.kind ≠ 3) (hy : y.kind ≠ 3) :
    allequal x y = false := by
  cases x <;> cases y <;> simp_all [Py.kind, allequal, leafEq]

/-! ## The property: laws -/

mutual
theorem refl_py (x : Py) (h : x.WF) : allequal x x = true := by
  match x with
  | .none => simp [allequal, leafEq]
  | .str s => simp [allequal, leafEq]
  | .num n => exact (C49_numbers n n).2 rfl
  | .arr c l => simp [allequal, leafEq, arraysEq_refl]
  | .seq t l =>
    simp only [Py.WF] at h
    simp [allequal, refl_l l h]
  | .dict d =>
    simp only [Py.WF] at h
    rw [C49_dicts d d h.1 h.1]
    refine ⟨fun _ => Iff.rfl, ?_⟩
    intro k v w hv hw
    rw [← PyD.get_iff d h.1] at hv hw
    rw [hv] at hw
    cases hw
    rw [PyD.get_iff d h.1] at hv
    exact refl_d d h.2 (k, v) hv
theorem refl_l (l : PyL) (h : l.WF) : seqsEq l l = true := by
  match l with
  | .nil => simp [seqsEq]
  | .cons x l =>
    simp only [PyL.WF] at h
    simp [seqsEq, refl_py x h.1, refl_l l h.2]
theorem refl_d (d : PyD) (h : d.WF) (p : String × Py) (hp : p ∈ d.items) : allequal p.2 p.2 = true := by
  match d with
  | .nil => simp [PyD.items] at hp
  | .cons k v d =>
    simp only [PyD.WF] at h
    simp only [PyD.items, List.mem_cons] at hp
    rcases hp with hp | hp
    · rw [hp]; exact refl_py v h.1
    · exact refl_d d h.2 p hp
end

theorem PyD.WF.mem {d : PyD} (h : d.WF) {p : String × Py} (hp : p ∈ d.items) : p.2.WF := by
  match d with
  | .nil => simp [PyD.items] at hp
  | .cons k v d =>
    simp only [PyD.WF] at h
    simp only [PyD.items, List.mem_cons] at hp
    rcases hp with hp | hp
    · rw [hp]; exact h.1
    · exact PyD.WF.mem h.2 hp

theorem PyD.NoArr.mem {d : PyD} (h : d.NoArr) {p : String × Py} (hp : p ∈ d.items) : p.2.NoArr := by
  match d with
  | .nil => simp [PyD.items] at hp
  | .cons k v d =>
    simp only [PyD.NoArr] at h
    simp only [PyD.items, List.mem_cons] at hp
    rcases hp with hp | hp
    · rw [hp]; exact h.1
    · exact PyD.NoArr.mem h.2 hp

/-- Objects that are not both sequences or both dictionaries. -/
theorem allequal_leaf (x y : Py) (h : leafEq x y = true) : allequal x y = true := by
  cases x <;> cases y <;> simp_all [allequal, leafEq]

mutual
theorem symm_py (x y : Py) (hx : x.WF) (hy : y.WF) (h : allequal x y = true) : allequal y x = true := by
  match x with
  | .none => simp only [allequal] at h; rw [leafEq_symm] at h; exact allequal_leaf _ _ h
  | .str s => simp only [allequal] at h; rw [leafEq_symm] at h; exact allequal_leaf _ _ h
  | .num n => simp only [allequal] at h; rw [leafEq_symm] at h; exact allequal_leaf _ _ h
  | .arr c l => simp only [allequal] at h; rw [leafEq_symm] at h; exact allequal_leaf _ _ h
  | .seq t l =>
    simp only [Py.WF] at hx
    cases y with
    | seq u m =>
      simp only [Py.WF] at hy
      simp only [allequal, Bool.and_eq_true, decide_eq_true_eq] at h ⊢
      exact ⟨h.1.symm, symm_l l m hx hy h.1 h.2⟩
    | none => simp only [allequal] at h; rw [leafEq_symm] at h; exact allequal_leaf _ _ h
    | str s => simp only [allequal] at h; rw [leafEq_symm] at h; exact allequal_leaf _ _ h
    | num n => simp only [allequal] at h; rw [leafEq_symm] at h; exact allequal_leaf _ _ h
    | arr c l => simp only [allequal] at h; rw [leafEq_symm] at h; exact allequal_leaf _ _ h
    | dict d => simp [allequal, leafEq] at h
  | .dict d =>
    simp only [Py.WF] at hx
    cases y with
    | dict e =>
      simp only [Py.WF] at hy
      rw [C49_dicts d e hx.1 hy.1] at h
      rw [C49_dicts e d hy.1 hx.1]
      refine ⟨fun k => (h.1 k).symm, ?_⟩
      intro k v w hv hw
      exact symm_d d hx.2 (k, w) hw v (hy.2.mem hv) (h.2 k w v hw hv)
    | none => simp [allequal] at h
    | str s => simp [allequal] at h
    | num n => simp [allequal] at h
    | arr c l => simp [allequal] at h
    | seq t l => simp [allequal] at h
theorem symm_l (l m : PyL) (hl : l.WF) (hm : m.WF) (hlen : l.length = m.length) (h : seqsEq l m = true) :
    seqsEq m l = true := by
  match l, m with
  | .nil, .nil => simp [seqsEq]
  | .nil, .cons _ _ => simp [PyL.length] at hlen
  | .cons _ _, .nil => simp [PyL.length] at hlen
  | .cons x l, .cons y m =>
    simp only [PyL.WF] at hl hm
    simp only [PyL.length, Nat.add_right_cancel_iff] at hlen
    simp only [seqsEq, Bool.and_eq_true] at h ⊢
    exact ⟨symm_py x y hl.1 hm.1 h.1, symm_l l m hl.2 hm.2 hlen h.2⟩
theorem symm_d (d : PyD) (hd : d.WF) (p : String × Py) (hp : p ∈ d.items) (y : Py) (hy : y.WF)
    (h : allequal p.2 y = true) : allequal y p.2 = true := by
  match d with
  | .nil => simp [PyD.items] at hp
  | .cons k v d =>
    simp only [PyD.WF] at hd
    simp only [PyD.items, List.mem_cons] at hp
    rcases hp with rfl | hp
    · exact symm_py v y hd.1 hy h
    · exact symm_d d hd.2 p hp y hy h
end

mutual
theorem trans_py (x y z : Py) (hx : x.WF) (hy : y.WF) (hz : z.WF) (nx : x.NoArr) (ny : y.NoArr) (nz : z.NoArr)
    (h1 : allequal x y = true) (h2 : allequal y z = true) : allequal x z = true := by
  match x with
  | .none => cases y <;> simp [allequal, leafEq] at h1; exact h2
  | .str s =>
    cases y <;> simp [allequal, leafEq] at h1
    · subst h1; exact h2
  | .num n =>
    cases y with
    | num m => rw [C49_numbers] at h1; subst h1; exact h2
    | arr c l => simp [Py.NoArr] at ny
    | none => simp [allequal, leafEq] at h1
    | str s => simp [allequal, leafEq] at h1
    | seq t l => simp [allequal, leafEq] at h1
    | dict d => simp [allequal, leafEq] at h1
  | .arr c l => simp [Py.NoArr] at nx
  | .seq t l =>
    cases y with
    | seq u m =>
      cases z with
      | seq w n =>
        simp only [Py.WF, Py.NoArr] at hx hy hz nx ny nz
        simp only [allequal, Bool.and_eq_true, decide_eq_true_eq] at h1 h2 ⊢
        exact ⟨h1.1.trans h2.1, trans_l l m n hx hy hz nx ny nz h1.2 h2.2⟩
      | arr c l => simp [Py.NoArr] at nz
      | none => simp [allequal, leafEq] at h2
      | str s => simp [allequal, leafEq] at h2
      | num n => simp [allequal, leafEq] at h2
      | dict d => simp [allequal, leafEq] at h2
    | arr c l => simp [Py.NoArr] at ny
    | none => simp [allequal, leafEq] at h1
    | str s => simp [allequal, leafEq] at h1
    | num n => simp [allequal, leafEq] at h1
    | dict d => simp [allequal, leafEq] at h1
  | .dict d =>
    cases y with
    | dict e =>
      cases z with
      | dict f =>
        simp only [Py.WF, Py.NoArr] at hx hy hz nx ny nz
        rw [C49_dicts _ _ hx.1 hy.1] at h1
        rw [C49_dicts _ _ hy.1 hz.1] at h2
        rw [C49_dicts _ _ hx.1 hz.1]
        refine ⟨fun k => (h1.1 k).trans (h2.1 k), ?_⟩
        intro k v w hv hw
        have hke : k ∈ e.keys := (h1.1 k).1 (by
          rw [← PyD.keys_items]; exact List.mem_map.2 ⟨_, hv, rfl⟩)
        obtain ⟨u, hu⟩ := Option.isSome_iff_exists.1 ((PyD.get_isSome e k).2 hke)
        rw [PyD.get_iff e hy.1] at hu
        exact trans_d d hx.2 nx (k, v) hv u w (hy.2.mem hu) (hz.2.mem hw) (ny.mem hu) (nz.mem hw)
          (h1.2 k v u hv hu) (h2.2 k u w hu hw)
      | arr c l => simp [Py.NoArr] at nz
      | none => simp [allequal] at h2
      | str s => simp [allequal] at h2
      | num n => simp [allequal] at h2
      | seq t l => simp [allequal] at h2
    | arr c l => simp [Py.NoArr] at ny
    | none => simp [allequal] at h1
    | str s => simp [allequal] at h1
    | num n => simp [allequal] at h1
    | seq t l => simp [allequal] at h1
theorem trans_l (l m n : PyL) (hl : l.WF) (hm : m.WF) (hn : n.WF) (nl : l.NoArr) (nm : m.NoArr) (nn : n.NoArr)
    (h1 : seqsEq l m = true) (h2 : seqsEq m n = true) : seqsEq l n = true := by
  match l, m, n with
  | .nil, _, _ => simp [seqsEq]
  | .cons _ _, .nil, _ => simp [seqsEq] at h1
  | .cons _ _, .cons _ _, .nil => simp [seqsEq] at h2
  | .cons x l, .cons y m, .cons z n =>
    simp only [PyL.WF, PyL.NoArr] at hl hm hn nl nm nn
    simp only [seqsEq, Bool.and_eq_true] at h1 h2 ⊢
    exact ⟨trans_py x y z hl.1 hm.1 hn.1 nl.1 nm.1 nn.1 h1.1 h2.1,
      trans_l l m n hl.2 hm.2 hn.2 nl.2 nm.2 nn.2 h1.2 h2.2⟩
theorem trans_d (d : PyD) (hd : d.WF) (nd : d.NoArr) (p : String × Py) (hp : p ∈ d.items) (y z : Py)
    (hy : y.WF) (hz : z.WF) (ny : y.NoArr) (nz : z.NoArr)
    (h1 : allequal p.2 y = true) (h2 : allequal y z = true) : allequal p.2 z = true := by
  match d with
  | .nil => simp [PyD.items] at hp
  | .cons k v d =>
    simp only [PyD.WF, PyD.NoArr] at hd nd
    simp only [PyD.items, List.mem_cons] at hp
    rcases hp with rfl | hp
    · exact trans_py v y z hd.1 hy hz nd.1 ny nz h1 h2
    · exact trans_d d hd.2 nd.2 p hp y z hy hz ny nz h1 h2
end

/-- C49. Every object, also with arrays, equals itself. -/
theorem C49_reflexive (x : Py) (h : x.WF) : allequal x x = true := refl_py x h

/-- C49. The order of the arguments does not matter, also with arrays. -/
theorem C49_symmetric (x y : Py) (hx : x.WF) (hy : y.WF) : allequal x y = allequal y x := by
  rw [Bool.eq_iff_iff]
  exact ⟨symm_py x y hx hy, symm_py y x hy hx⟩

/-- C49. Transitivity, without arrays. -/
theorem C49_transitive_partial (x y z : Py) (hx : x.WF) (hy : y.WF) (hz : z.WF) (nx : x.NoArr) (ny : y.NoArr)
    (nz : z.NoArr) (h1 : allequal x y = true) (h2 : allequal y z = true) : allequal x z = true :=
  trans_py x y z hx hy hz nx ny nz h1 h2

/-- C49. The order of the items of a dictionary does not matter. -/
theorem C49_order (d e : PyD) (hd : (Py.dict d).WF) (he : (Py.dict e).WF) (h : d.items.Perm e.items) :
    allequal (.dict d) (.dict e) = true := by
  simp only [Py.WF] at hd he
  rw [C49_dicts d e hd.1 he.1]
  have hk : d.keys.Perm e.keys := by
    rw [← PyD.keys_items, ← PyD.keys_items]
    exact h.map _
  refine ⟨fun k => hk.mem_iff, ?_⟩
  intro k v w hv hw
  have hw' := h.mem_iff.2 hw
  rw [← PyD.get_iff d hd.1] at hw' hv
  rw [hv] at hw'
  cases hw'
  exact C49_reflexive v (he.2.mem hw)

/-- C49 fails with arrays: a number equals every array filled with it, of any length, so two arrays that both
equal the number need not equal each other. -/
theorem C49_transitive_violated (n m : Nat) (q : Rat) (h : n ≠ m) :
    allequal (.arr 0 (List.replicate n (.val q))) (.num (.val q)) = true ∧
    allequal (.num (.val q)) (.arr 0 (List.replicate m (.val q))) = true ∧
    allequal (.arr 0 (List.replicate n (.val q))) (.arr 0 (List.replicate m (.val q))) = false := by
  refine ⟨?_, ?_, ?_⟩
  · simp [allequal, leafEq, Num.arrEq, Num.pyEq]
  · simp [allequal, leafEq, Num.arrEq, Num.pyEq]
  · simp only [allequal, leafEq, decide_true, Bool.true_and]
    induction n generalizing m with
    | zero =>
      cases m with
      | zero => exact absurd rfl h
      | succ m => rfl
    | succ n ih =>
      cases m with
      | zero => rfl
      | succ m =>
        simp only [List.replicate_succ, arraysEq]
        rw [ih m (by omega)]
        simp

/-- C49 fails with arrays: an empty array equals every number. -/
theorem C49_empty_violated (c : Nat) (n : Num) : allequal (.arr c []) (.num n) = true := by
  simp [allequal, leafEq]

example : allequal (.dict (.cons "a" (.num (.val 1)) (.cons "b" (.seq false (.cons (.num .nan) .nil)) .nil)))
    (.dict (.cons "b" (.seq true (.cons (.num .nan) .nil)) (.cons "a" (.num (.val 1)) .nil))) = true := by
  decide +kernel

example : allequal (.num (.val 0)) (.num .negZero) = false := by decide +kernel

end Verif.Obj
