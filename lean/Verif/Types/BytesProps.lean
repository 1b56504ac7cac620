import Verif.Types.Bytes
import Mathlib.Tactic.Common

/-!
# C41: `bytes_to_unicode` removes all byte strings and is idempotent
-/
namespace Verif.Types

/-! ## Specification -/

mutual
/-- There is no byte string anywhere in the object. -/
def NoBytes : Py → Prop
  | .bytes _ => False
  | .arrS _ => False
  | .list l => NoBytesL l
  | .tuple l => NoBytesL l
  | .set l => NoBytesL l
  | .dict d => NoBytesD d
  | .frozen l => NoBytesL l
  | .named l => NoBytesL l
  | .str _ => True
  | .atom _ => True
  | .arrU _ => True
/-- The same for sequences. -/
def NoBytesL : PyL → Prop
  | .nil => True
  | .cons x xs => NoBytes x ∧ NoBytesL xs
/-- The same for keys and values. -/
def NoBytesD : PyD → Prop
  | .nil => True
  | .cons k v d => NoBytes k ∧ NoBytes v ∧ NoBytesD d
end

mutual
/-- Any frozen set in the object is free of byte strings. -/
def FrozenClean : Py → Prop
  | .list l => FrozenCleanL l
  | .tuple l => FrozenCleanL l
  | .set l => FrozenCleanL l
  | .dict d => FrozenCleanD d
  | .frozen l => NoBytesL l
  | _ => True
/-- The same for sequences. -/
def FrozenCleanL : PyL → Prop
  | .nil => True
  | .cons x xs => FrozenClean x ∧ FrozenCleanL xs
/-- The same for keys and values. -/
def FrozenCleanD : PyD → Prop
  | .nil => True
  | .cons k v d => FrozenClean k ∧ FrozenClean v ∧ FrozenCleanD d
end

/-- The elements are distinct. -/
def PyL.Distinct : PyL → Prop
  | .nil => True
  | .cons x xs => xs.has x = false ∧ xs.Distinct

/-- The keys are distinct. -/
def PyD.Distinct : PyD → Prop
  | .nil => True
  | .cons k _ d => d.has k = false ∧ d.Distinct

mutual
/-- A Python object without named tuples: the elements of sets and the keys of dictionaries are distinct. -/
def Proper : Py → Prop
  | .list l => ProperL l
  | .tuple l => ProperL l
  | .set l => l.Distinct ∧ ProperL l
  | .dict d => d.Distinct ∧ ProperD d
  | .named _ => False
  | _ => True
/-- The same for sequences. -/
def ProperL : PyL → Prop
  | .nil => True
  | .cons x xs => Proper x ∧ ProperL xs
/-- The same for keys and values. -/
def ProperD : PyD → Prop
  | .nil => True
  | .cons k v d => Proper k ∧ Proper v ∧ ProperD d
end

mutual
/-- Every byte string can be decoded (those in arrays as ASCII), and there are no named tuples. -/
def Decodable' (utf8 : List Nat → Option String) : Py → Prop
  | .bytes b => ∃ s, utf8 b = some s
  | .arrS l => ∀ b ∈ l, ∀ c ∈ b, c < 128
  | .list l => DecodableL utf8 l
  | .tuple l => DecodableL utf8 l
  | .set l => DecodableL utf8 l
  | .dict d => DecodableD utf8 d
  | .named _ => False
  | _ => True
/-- The same for sequences. -/
def DecodableL (utf8 : List Nat → Option String) : PyL → Prop
  | .nil => True
  | .cons x xs => Decodable' utf8 x ∧ DecodableL utf8 xs
/-- The same for keys and values. -/
def DecodableD (utf8 : List Nat → Option String) : PyD → Prop
  | .nil => True
  | .cons k v d => Decodable' utf8 k ∧ Decodable' utf8 v ∧ DecodableD utf8 d
end

/-- The value of a key in a sequence of items: the last one given for it. -/
def PyD.last (x : Py) : PyD → Option Py
  | .nil => none
  | .cons k v d =>
    match d.last x with
    | some w => some w
    | none => if k.same x then some v else none

mutual
/-- `y` has the shape of `x`, with decoded byte strings in the places of byte strings: lists and tuples
correspond element by element; every element of a set comes from one of the original set and vice versa;
the keys of a dictionary likewise, and the value of a key is the last one given for it. -/
inductive Decoded (utf8 : List Nat → Option String) : Py → Py → Prop
  | bytes {b s} : utf8 b = some s → Decoded utf8 (.bytes b) (.str s)
  | arrS {l r} : r.length = l.length →
      (∀ (i : Nat) b s, l[i]? = some b → r[i]? = some s → s = String.ofList (b.map Char.ofNat)) →
      Decoded utf8 (.arrS l) (.arrU r)
  | str {s} : Decoded utf8 (.str s) (.str s)
  | atom {n} : Decoded utf8 (.atom n) (.atom n)
  | arrU {l} : Decoded utf8 (.arrU l) (.arrU l)
  | frozen {l} : Decoded utf8 (.frozen l) (.frozen l)
  | list {l r} : DecodedL utf8 l r → Decoded utf8 (.list l) (.list r)
  | tuple {l r} : DecodedL utf8 l r → Decoded utf8 (.tuple l) (.tuple r)
  | set {l m r} : DecodedL utf8 l m → (∀ x, r.has x = m.has x) → r.Distinct → Decoded utf8 (.set l) (.set r)
  | dict {d m r} : DecodedD utf8 d m → (∀ x, r.last x = m.last x) → r.Distinct →
      Decoded utf8 (.dict d) (.dict r)
/-- Element by element. -/
inductive DecodedL (utf8 : List Nat → Option String) : PyL → PyL → Prop
  | nil : DecodedL utf8 .nil .nil
  | cons {x y xs ys} : Decoded utf8 x y → DecodedL utf8 xs ys → DecodedL utf8 (.cons x xs) (.cons y ys)
/-- Item by item. -/
inductive DecodedD (utf8 : List Nat → Option String) : PyD → PyD → Prop
  | nil : DecodedD utf8 .nil .nil
  | cons {k v k' v' d d'} : Decoded utf8 k k' → Decoded utf8 v v' → DecodedD utf8 d d' →
      DecodedD utf8 (.cons k v d) (.cons k' v' d')
end

/-! ## Lemmas -/

mutual
theorem Py.same_iff (x y : Py) : x.same y = true ↔ x = y := by
  cases x <;> cases y <;> simp [Py.same, PyL.same_iff, PyD.same_iff]
theorem PyL.same_iff (x y : PyL) : x.same y = true ↔ x = y := by
  match x, y with
  | .nil, .nil => simp [PyL.same]
  | .nil, .cons _ _ => simp [PyL.same]
  | .cons _ _, .nil => simp [PyL.same]
  | .cons a as, .cons b bs => simp [PyL.same, Py.same_iff a b, PyL.same_iff as bs]
theorem PyD.same_iff (x y : PyD) : x.same y = true ↔ x = y := by
  match x, y with
  | .nil, .nil => simp [PyD.same]
  | .nil, .cons _ _ _ => simp [PyD.same]
  | .cons _ _ _, .nil => simp [PyD.same]
  | .cons a v as, .cons b w bs =>
    simp [PyD.same, Py.same_iff a b, Py.same_iff v w, PyD.same_iff as bs, and_assoc]
end

theorem PyL.dedup_has (x : Py) (l : PyL) : l.dedup.has x = l.has x := by
  match l with
  | .nil => rfl
  | .cons y ys =>
    have ih := PyL.dedup_has x ys
    unfold PyL.dedup
    split
    · rename_i h
      rw [ih, PyL.has]
      by_cases hxy : y.same x = true
      · rw [Py.same_iff] at hxy
        subst hxy
        rw [PyL.dedup_has] at h
        simp [h]
      · simp [hxy]
    · simp [PyL.has, ih]

theorem PyL.dedup_distinct (l : PyL) : l.dedup.Distinct := by
  match l with
  | .nil => simp [PyL.dedup, PyL.Distinct]
  | .cons y ys =>
    unfold PyL.dedup
    split
    · exact PyL.dedup_distinct ys
    · rename_i h
      exact ⟨by simpa using h, PyL.dedup_distinct ys⟩

theorem PyL.dedup_self (l : PyL) (h : l.Distinct) : l.dedup = l := by
  match l with
  | .nil => rfl
  | .cons y ys =>
    simp only [PyL.Distinct] at h
    unfold PyL.dedup
    rw [PyL.dedup_self ys h.2, h.1]
    simp

theorem PyD.dedup_has (x : Py) (l : PyD) : l.dedup.has x = l.has x := by
  match l with
  | .nil => rfl
  | .cons y v ys =>
    have ih := PyD.dedup_has x ys
    unfold PyD.dedup
    split
    · rename_i h
      rw [ih, PyD.has]
      by_cases hxy : y.same x = true
      · rw [Py.same_iff] at hxy
        subst hxy
        rw [PyD.dedup_has] at h
        simp [h]
      · simp [hxy]
    · simp [PyD.has, ih]

theorem PyD.has_iff_last (x : Py) (d : PyD) : d.has x = (d.last x).isSome := by
  match d with
  | .nil => rfl
  | .cons k v d =>
    have ih := PyD.has_iff_last x d
    simp only [PyD.has, PyD.last, ih]
    cases d.last x <;> by_cases h : k.same x = true <;> simp [h]

theorem PyD.dedup_last (x : Py) (l : PyD) : l.dedup.last x = l.last x := by
  match l with
  | .nil => rfl
  | .cons k v d =>
    have ih := PyD.dedup_last x d
    unfold PyD.dedup
    split
    · rename_i h
      rw [ih, PyD.last]
      by_cases hxy : k.same x = true
      · rw [Py.same_iff] at hxy
        subst hxy
        rw [PyD.dedup_has, PyD.has_iff_last] at h
        cases hl : d.last k with
        | none => rw [hl] at h; simp at h
        | some w => rfl
      · cases d.last x <;> simp [hxy]
    · simp [PyD.last, ih]

theorem PyD.dedup_distinct (l : PyD) : l.dedup.Distinct := by
  match l with
  | .nil => simp [PyD.dedup, PyD.Distinct]
  | .cons y v ys =>
    unfold PyD.dedup
    split
    · exact PyD.dedup_distinct ys
    · rename_i h
      exact ⟨by simpa using h, PyD.dedup_distinct ys⟩

theorem PyD.dedup_self (l : PyD) (h : l.Distinct) : l.dedup = l := by
  match l with
  | .nil => rfl
  | .cons y v ys =>
    simp only [PyD.Distinct] at h
    unfold PyD.dedup
    rw [PyD.dedup_self ys h.2, h.1]
    simp

theorem noBytes_dedup (l : PyL) (h : NoBytesL l) : NoBytesL l.dedup := by
  match l with
  | .nil => exact h
  | .cons x xs =>
    simp only [NoBytesL] at h
    unfold PyL.dedup
    split
    · exact noBytes_dedup xs h.2
    · exact ⟨h.1, noBytes_dedup xs h.2⟩

theorem noBytesD_dedup (l : PyD) (h : NoBytesD l) : NoBytesD l.dedup := by
  match l with
  | .nil => exact h
  | .cons k v xs =>
    simp only [NoBytesD] at h
    unfold PyD.dedup
    split
    · exact noBytesD_dedup xs h.2.2
    · exact ⟨h.1, h.2.1, noBytesD_dedup xs h.2.2⟩

theorem mapM_ascii (l : List (List Nat)) (r : List String) (h : l.mapM asciiOne = some r) :
    r.length = l.length ∧
    ∀ (i : Nat) b s, l[i]? = some b → r[i]? = some s → s = String.ofList (b.map Char.ofNat) := by
  induction l generalizing r with
  | nil => simp at h; subst h; simp
  | cons b l ih =>
    simp only [List.mapM_cons, Option.bind_eq_bind, Option.bind_eq_some_iff] at h
    obtain ⟨s, hs, rs, hrs, h⟩ := h
    simp at h
    subst h
    obtain ⟨h1, h2⟩ := ih rs hrs
    refine ⟨by simp [h1], ?_⟩
    intro i b' s' hb hs'
    cases i with
    | zero =>
      simp at hb hs'
      subst hb; subst hs'
      unfold asciiOne at hs
      split at hs
      · simpa using hs.symm
      · cases hs
    | succ i => exact h2 i b' s' (by simpa using hb) (by simpa using hs')

theorem mapM_ascii_ok (l : List (List Nat)) (h : ∀ b ∈ l, ∀ c ∈ b, c < 128) :
    ∃ r, l.mapM asciiOne = some r := by
  induction l with
  | nil => exact ⟨[], by simp⟩
  | cons b l ih =>
    obtain ⟨r, hr⟩ := ih (fun b' hb' => h b' (by simp [hb']))
    refine ⟨String.ofList (b.map Char.ofNat) :: r, ?_⟩
    have : asciiOne b = some (String.ofList (b.map Char.ofNat)) := by
      unfold asciiOne
      rw [if_pos]
      simpa using h b (by simp)
    simp [List.mapM_cons, this, hr]

mutual
theorem toUni_decoded (utf8 : List Nat → Option String) (x y : Py) (h : toUni utf8 x = .ok y) :
    Decoded utf8 x y := by
  match x with
  | .bytes b =>
    simp only [toUni] at h
    split at h
    · cases h; exact .bytes (by assumption)
    · cases h
  | .arrS l =>
    simp only [toUni] at h
    split at h
    · rename_i r hr
      cases h
      obtain ⟨h1, h2⟩ := mapM_ascii l r hr
      exact .arrS h1 h2
    · cases h
  | .list l =>
    simp only [toUni] at h
    split at h
    · rename_i r hr; cases h; exact .list (toUniL_decoded utf8 l r hr)
    · cases h
  | .tuple l =>
    simp only [toUni] at h
    split at h
    · rename_i r hr; cases h; exact .tuple (toUniL_decoded utf8 l r hr)
    · cases h
  | .set l =>
    simp only [toUni] at h
    split at h
    · rename_i r hr
      cases h
      exact .set (toUniL_decoded utf8 l r hr) (fun x => PyL.dedup_has x r) (PyL.dedup_distinct r)
    · cases h
  | .dict d =>
    simp only [toUni] at h
    split at h
    · rename_i r hr
      cases h
      exact .dict (toUniD_decoded utf8 d r hr) (fun x => PyD.dedup_last x r) (PyD.dedup_distinct r)
    · cases h
  | .named _ => simp [toUni] at h
  | .str s => simp [toUni] at h; subst h; exact .str
  | .atom n => simp [toUni] at h; subst h; exact .atom
  | .arrU l => simp [toUni] at h; subst h; exact .arrU
  | .frozen l => simp [toUni] at h; subst h; exact .frozen
theorem toUniL_decoded (utf8 : List Nat → Option String) (l r : PyL) (h : toUniL utf8 l = .ok r) :
    DecodedL utf8 l r := by
  match l with
  | .nil => simp [toUniL] at h; subst h; exact .nil
  | .cons x xs =>
    simp only [toUniL] at h
    split at h
    · cases h
    · rename_i y hy
      split at h
      · cases h
      · rename_i ys hys
        cases h
        exact .cons (toUni_decoded utf8 x y hy) (toUniL_decoded utf8 xs ys hys)
theorem toUniD_decoded (utf8 : List Nat → Option String) (d r : PyD) (h : toUniD utf8 d = .ok r) :
    DecodedD utf8 d r := by
  match d with
  | .nil => simp [toUniD] at h; subst h; exact .nil
  | .cons k v d =>
    simp only [toUniD] at h
    split at h
    · cases h
    · rename_i k' hk
      split at h
      · cases h
      · rename_i v' hv
        split at h
        · cases h
        · rename_i d' hd
          cases h
          exact .cons (toUni_decoded utf8 k k' hk) (toUni_decoded utf8 v v' hv)
            (toUniD_decoded utf8 d d' hd)
end

mutual
theorem toUni_noBytes (utf8 : List Nat → Option String) (x y : Py) (hf : FrozenClean x)
    (h : toUni utf8 x = .ok y) : NoBytes y := by
  match x with
  | .bytes b =>
    simp only [toUni] at h
    split at h
    · cases h; simp [NoBytes]
    · cases h
  | .arrS l =>
    simp only [toUni] at h
    split at h
    · cases h; simp [NoBytes]
    · cases h
  | .list l =>
    simp only [toUni] at h
    split at h
    · rename_i r hr; cases h; exact toUniL_noBytes utf8 l r hf hr
    · cases h
  | .tuple l =>
    simp only [toUni] at h
    split at h
    · rename_i r hr; cases h; exact toUniL_noBytes utf8 l r hf hr
    · cases h
  | .set l =>
    simp only [toUni] at h
    split at h
    · rename_i r hr; cases h; exact noBytes_dedup r (toUniL_noBytes utf8 l r hf hr)
    · cases h
  | .dict d =>
    simp only [toUni] at h
    split at h
    · rename_i r hr; cases h; exact noBytesD_dedup r (toUniD_noBytes utf8 d r hf hr)
    · cases h
  | .named _ => simp [toUni] at h
  | .str s => simp [toUni] at h; subst h; simp [NoBytes]
  | .atom n => simp [toUni] at h; subst h; simp [NoBytes]
  | .arrU l => simp [toUni] at h; subst h; simp [NoBytes]
  | .frozen l => simp [toUni] at h; subst h; exact hf
theorem toUniL_noBytes (utf8 : List Nat → Option String) (l r : PyL) (hf : FrozenCleanL l)
    (h : toUniL utf8 l = .ok r) : NoBytesL r := by
  match l with
  | .nil => simp [toUniL] at h; subst h; simp [NoBytesL]
  | .cons x xs =>
    simp only [toUniL] at h
    simp only [FrozenCleanL] at hf
    split at h
    · cases h
    · rename_i y hy
      split at h
      · cases h
      · rename_i ys hys
        cases h
        exact ⟨toUni_noBytes utf8 x y hf.1 hy, toUniL_noBytes utf8 xs ys hf.2 hys⟩
theorem toUniD_noBytes (utf8 : List Nat → Option String) (d r : PyD) (hf : FrozenCleanD d)
    (h : toUniD utf8 d = .ok r) : NoBytesD r := by
  match d with
  | .nil => simp [toUniD] at h; subst h; simp [NoBytesD]
  | .cons k v d =>
    simp only [toUniD] at h
    simp only [FrozenCleanD] at hf
    split at h
    · cases h
    · rename_i k' hk
      split at h
      · cases h
      · rename_i v' hv
        split at h
        · cases h
        · rename_i d' hd
          cases h
          exact ⟨toUni_noBytes utf8 k k' hf.1 hk, toUni_noBytes utf8 v v' hf.2.1 hv,
            toUniD_noBytes utf8 d d' hf.2.2 hd⟩
end

mutual
/-- Converting the object changes nothing. -/
def Fixed : Py → Prop
  | .bytes _ => False
  | .arrS _ => False
  | .list l => FixedL l
  | .tuple l => FixedL l
  | .set l => l.Distinct ∧ FixedL l
  | .dict d => d.Distinct ∧ FixedD d
  | .named _ => False
  | _ => True
/-- The same for sequences. -/
def FixedL : PyL → Prop
  | .nil => True
  | .cons x xs => Fixed x ∧ FixedL xs
/-- The same for keys and values. -/
def FixedD : PyD → Prop
  | .nil => True
  | .cons k v d => Fixed k ∧ Fixed v ∧ FixedD d
end

mutual
theorem toUni_fixed (utf8 : List Nat → Option String) (x : Py) (h : Fixed x) : toUni utf8 x = .ok x := by
  match x with
  | .bytes b => exact absurd h (by simp [Fixed])
  | .arrS l => exact absurd h (by simp [Fixed])
  | .named l => exact absurd h (by simp [Fixed])
  | .list l => rw [toUni, toUniL_fixed utf8 l (by simpa [Fixed] using h)]
  | .tuple l => rw [toUni, toUniL_fixed utf8 l (by simpa [Fixed] using h)]
  | .set l =>
    simp only [Fixed] at h
    rw [toUni, toUniL_fixed utf8 l h.2]
    simp only
    rw [PyL.dedup_self l h.1]
  | .dict d =>
    simp only [Fixed] at h
    rw [toUni, toUniD_fixed utf8 d h.2]
    simp only
    rw [PyD.dedup_self d h.1]
  | .str s => simp [toUni]
  | .atom n => simp [toUni]
  | .arrU l => simp [toUni]
  | .frozen l => simp [toUni]
theorem toUniL_fixed (utf8 : List Nat → Option String) (l : PyL) (h : FixedL l) :
    toUniL utf8 l = .ok l := by
  match l with
  | .nil => rfl
  | .cons x xs =>
    simp only [FixedL] at h
    rw [toUniL, toUni_fixed utf8 x h.1, toUniL_fixed utf8 xs h.2]
theorem toUniD_fixed (utf8 : List Nat → Option String) (d : PyD) (h : FixedD d) :
    toUniD utf8 d = .ok d := by
  match d with
  | .nil => rfl
  | .cons k v d =>
    simp only [FixedD] at h
    rw [toUniD, toUni_fixed utf8 k h.1, toUni_fixed utf8 v h.2.1, toUniD_fixed utf8 d h.2.2]
end

theorem fixed_dedup (l : PyL) (h : FixedL l) : FixedL l.dedup := by
  match l with
  | .nil => exact h
  | .cons x xs =>
    simp only [FixedL] at h
    unfold PyL.dedup
    split
    · exact fixed_dedup xs h.2
    · exact ⟨h.1, fixed_dedup xs h.2⟩

theorem fixedD_dedup (l : PyD) (h : FixedD l) : FixedD l.dedup := by
  match l with
  | .nil => exact h
  | .cons k v xs =>
    simp only [FixedD] at h
    unfold PyD.dedup
    split
    · exact fixedD_dedup xs h.2.2
    · exact ⟨h.1, h.2.1, fixedD_dedup xs h.2.2⟩

mutual
theorem fixed_toUni (utf8 : List Nat → Option String) (x y : Py) (h : toUni utf8 x = .ok y) : Fixed y := by
  match x with
  | .bytes b =>
    simp only [toUni] at h
    split at h
    · cases h; simp [Fixed]
    · cases h
  | .arrS l =>
    simp only [toUni] at h
    split at h
    · cases h; simp [Fixed]
    · cases h
  | .list l =>
    simp only [toUni] at h
    split at h
    · rename_i r hr; cases h; simpa [Fixed] using fixed_toUniL utf8 l r hr
    · cases h
  | .tuple l =>
    simp only [toUni] at h
    split at h
    · rename_i r hr; cases h; simpa [Fixed] using fixed_toUniL utf8 l r hr
    · cases h
  | .set l =>
    simp only [toUni] at h
    split at h
    · rename_i r hr
      cases h
      simp only [Fixed]
      exact ⟨PyL.dedup_distinct r, fixed_dedup r (fixed_toUniL utf8 l r hr)⟩
    · cases h
  | .dict d =>
    simp only [toUni] at h
    split at h
    · rename_i r hr
      cases h
      simp only [Fixed]
      exact ⟨PyD.dedup_distinct r, fixedD_dedup r (fixed_toUniD utf8 d r hr)⟩
    · cases h
  | .named _ => simp [toUni] at h
  | .str s => simp [toUni] at h; subst h; simp [Fixed]
  | .atom n => simp [toUni] at h; subst h; simp [Fixed]
  | .arrU l => simp [toUni] at h; subst h; simp [Fixed]
  | .frozen l => simp [toUni] at h; subst h; simp [Fixed]
theorem fixed_toUniL (utf8 : List Nat → Option String) (l r : PyL) (h : toUniL utf8 l = .ok r) :
    FixedL r := by
  match l with
  | .nil => simp [toUniL] at h; subst h; simp [FixedL]
  | .cons x xs =>
    simp only [toUniL] at h
    split at h
    · cases h
    · rename_i y hy
      split at h
      · cases h
      · rename_i ys hys
        cases h
        exact ⟨fixed_toUni utf8 x y hy, fixed_toUniL utf8 xs ys hys⟩
theorem fixed_toUniD (utf8 : List Nat → Option String) (d r : PyD) (h : toUniD utf8 d = .ok r) :
    FixedD r := by
  match d with
  | .nil => simp [toUniD] at h; subst h; simp [FixedD]
  | .cons k v d =>
    simp only [toUniD] at h
    split at h
    · cases h
    · rename_i k' hk
      split at h
      · cases h
      · rename_i v' hv
        split at h
        · cases h
        · rename_i d' hd
          cases h
          exact ⟨fixed_toUni utf8 k k' hk, fixed_toUni utf8 v v' hv, fixed_toUniD utf8 d d' hd⟩
end

mutual
theorem noBytes_fixed (x : Py) (h : NoBytes x) (hp : Proper x) : Fixed x := by
  match x with
  | .bytes b => exact absurd h (by simp [NoBytes])
  | .arrS l => exact absurd h (by simp [NoBytes])
  | .named l => exact absurd hp (by simp [Proper])
  | .list l => simp only [Fixed, NoBytes, Proper] at *; exact noBytesL_fixed l h hp
  | .tuple l => simp only [Fixed, NoBytes, Proper] at *; exact noBytesL_fixed l h hp
  | .set l => simp only [Fixed, NoBytes, Proper] at *; exact ⟨hp.1, noBytesL_fixed l h hp.2⟩
  | .dict d => simp only [Fixed, NoBytes, Proper] at *; exact ⟨hp.1, noBytesD_fixed d h hp.2⟩
  | .str s => simp [Fixed]
  | .atom n => simp [Fixed]
  | .arrU l => simp [Fixed]
  | .frozen l => simp [Fixed]
theorem noBytesL_fixed (l : PyL) (h : NoBytesL l) (hp : ProperL l) : FixedL l := by
  match l with
  | .nil => simp [FixedL]
  | .cons x xs =>
    simp only [FixedL, NoBytesL, ProperL] at *
    exact ⟨noBytes_fixed x h.1 hp.1, noBytesL_fixed xs h.2 hp.2⟩
theorem noBytesD_fixed (d : PyD) (h : NoBytesD d) (hp : ProperD d) : FixedD d := by
  match d with
  | .nil => simp [FixedD]
  | .cons k v d =>
    simp only [FixedD, NoBytesD, ProperD] at *
    exact ⟨noBytes_fixed k h.1 hp.1, noBytes_fixed v h.2.1 hp.2.1, noBytesD_fixed d h.2.2 hp.2.2⟩
end

mutual
theorem toUni_total (utf8 : List Nat → Option String) (x : Py) (h : Decodable' utf8 x) :
    ∃ y, toUni utf8 x = .ok y := by
  match x with
  | .bytes b =>
    simp only [Decodable'] at h
    obtain ⟨s, hs⟩ := h
    exact ⟨.str s, by simp [toUni, hs]⟩
  | .arrS l =>
    simp only [Decodable'] at h
    obtain ⟨r, hr⟩ := mapM_ascii_ok l h
    exact ⟨.arrU r, by simp [toUni, hr]⟩
  | .list l =>
    obtain ⟨r, hr⟩ := toUniL_total utf8 l (by simpa [Decodable'] using h)
    exact ⟨.list r, by simp [toUni, hr]⟩
  | .tuple l =>
    obtain ⟨r, hr⟩ := toUniL_total utf8 l (by simpa [Decodable'] using h)
    exact ⟨.tuple r, by simp [toUni, hr]⟩
  | .set l =>
    obtain ⟨r, hr⟩ := toUniL_total utf8 l (by simpa [Decodable'] using h)
    exact ⟨.set r.dedup, by simp [toUni, hr]⟩
  | .dict d =>
    obtain ⟨r, hr⟩ := toUniD_total utf8 d (by simpa [Decodable'] using h)
    exact ⟨.dict r.dedup, by simp [toUni, hr]⟩
  | .named _ => exact absurd h (by simp [Decodable'])
  | .str s => exact ⟨_, rfl⟩
  | .atom n => exact ⟨_, rfl⟩
  | .arrU l => exact ⟨_, rfl⟩
  | .frozen l => exact ⟨_, rfl⟩
theorem toUniL_total (utf8 : List Nat → Option String) (l : PyL) (h : DecodableL utf8 l) :
    ∃ y, toUniL utf8 l = .ok y := by
  match l with
  | .nil => exact ⟨_, rfl⟩
  | .cons x xs =>
    simp only [DecodableL] at h
    obtain ⟨y, hy⟩ := toUni_total utf8 x h.1
    obtain ⟨ys, hys⟩ := toUniL_total utf8 xs h.2
    exact ⟨.cons y ys, by simp [toUniL, hy, hys]⟩
theorem toUniD_total (utf8 : List Nat → Option String) (d : PyD) (h : DecodableD utf8 d) :
    ∃ y, toUniD utf8 d = .ok y := by
  match d with
  | .nil => exact ⟨_, rfl⟩
  | .cons k v d =>
    simp only [DecodableD] at h
    obtain ⟨k', hk⟩ := toUni_total utf8 k h.1
    obtain ⟨v', hv⟩ := toUni_total utf8 v h.2.1
    obtain ⟨d', hd⟩ := toUniD_total utf8 d h.2.2
    exact ⟨.cons k' v' d', by simp [toUniD, hk, hv, hd]⟩
end

/-! ## The property -/

/-- C41. The result contains no byte strings, if frozen sets contain none. -/
theorem C41_no_bytes_partial (utf8 : List Nat → Option String) (x y : Py) (hf : FrozenClean x)
    (h : toUni utf8 x = .ok y) : NoBytes y :=
  toUni_noBytes utf8 x y hf h

/-- C41. The result has the shape of the argument, with byte strings decoded and the rest unchanged. -/
theorem C41_shape (utf8 : List Nat → Option String) (x y : Py) (h : toUni utf8 x = .ok y) :
    Decoded utf8 x y :=
  toUni_decoded utf8 x y h

/-- C41. Applying it again changes nothing. -/
theorem C41_idempotent (utf8 : List Nat → Option String) (x y : Py) (h : toUni utf8 x = .ok y) :
    toUni utf8 y = .ok y :=
  toUni_fixed utf8 y (fixed_toUni utf8 x y h)

/-- C41. An object without byte strings (and without named tuples) is returned as it is. -/
theorem C41_unchanged_partial (utf8 : List Nat → Option String) (x : Py) (h : NoBytes x) (hp : Proper x) :
    toUni utf8 x = .ok x :=
  toUni_fixed utf8 x (noBytes_fixed x h hp)

/-- C41. It succeeds if the byte strings can be decoded and there are no named tuples. -/
theorem C41_succeeds_partial (utf8 : List Nat → Option String) (x : Py) (h : Decodable' utf8 x) :
    ∃ y, toUni utf8 x = .ok y :=
  toUni_total utf8 x h

/-- C41 fails for frozen sets: byte strings inside stay. -/
theorem C41_frozenset_violated (utf8 : List Nat → Option String) (b : List Nat) :
    toUni utf8 (.frozen (.cons (.bytes b) .nil)) = .ok (.frozen (.cons (.bytes b) .nil)) := rfl

/-- C41 fails for named tuples, even without byte strings: they are refused. -/
theorem C41_namedtuple_violated (utf8 : List Nat → Option String) (l : PyL) :
    toUni utf8 (.named l) = .error .typeError := rfl

/-- C41 fails for arrays with bytes outside ASCII: the same bytes alone are decoded. -/
theorem C41_array_violated (utf8 : List Nat → Option String) (b : List Nat) (s : String)
    (hu : utf8 b = some s) (hb : ∃ c ∈ b, 128 ≤ c) :
    toUni utf8 (.bytes b) = .ok (.str s) ∧ toUni utf8 (.arrS [b]) = .error .decodeError := by
  have : asciiOne b = none := by
    unfold asciiOne
    rw [if_neg]
    simpa using hb
  simp [toUni, hu, this]

/-- C41 fails to keep the shape of a set that contains a string both as bytes and as text. -/
theorem C41_set_violated (utf8 : List Nat → Option String) (b : List Nat) (s : String)
    (hu : utf8 b = some s) :
    toUni utf8 (.set (.cons (.bytes b) (.cons (.str s) .nil))) = .ok (.set (.cons (.str s) .nil)) := by
  simp [toUni, toUniL, hu, PyL.dedup, PyL.has, Py.same]

/-- C41 fails to keep the shape of a dictionary that has a key both as bytes and as text: one item is lost. -/
theorem C41_dict_violated (utf8 : List Nat → Option String) (b : List Nat) (s : String) (v w : Nat)
    (hu : utf8 b = some s) :
    toUni utf8 (.dict (.cons (.bytes b) (.atom v) (.cons (.str s) (.atom w) .nil))) =
      .ok (.dict (.cons (.str s) (.atom w) .nil)) := by
  simp [toUni, toUniD, hu, PyD.dedup, PyD.has, Py.same]

/-- A nested object. -/
def exPy : Py :=
  .list (.cons (.bytes [97]) (.cons (.dict (.cons (.bytes [98]) (.tuple (.cons (.atom 1) (.cons
    (.arrS [[97, 98]]) .nil))) .nil)) .nil))

example : toUni asciiOne exPy = .ok (.list (.cons (.str "a") (.cons (.dict (.cons (.str "b")
    (.tuple (.cons (.atom 1) (.cons (.arrU ["ab"]) .nil))) .nil)) .nil))) := by rfl

example : FrozenClean exPy ∧ Decodable' asciiOne exPy := by
  simp [exPy, FrozenClean, FrozenCleanL, FrozenCleanD, Decodable', DecodableL, DecodableD, asciiOne]

example : toUni asciiOne (.set (.cons (.str "a") .nil)) = .ok (.set (.cons (.str "a") .nil)) :=
  C41_unchanged_partial _ _ (by simp [NoBytes, NoBytesL]) (by simp [Proper, ProperL, PyL.Distinct, PyL.has])

end Verif.Types
