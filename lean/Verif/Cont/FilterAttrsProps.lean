import Verif.Cont.FilterAttrs
import Verif.Mem.AttrsProps

/-!
# C39: the attributes of the datasets that are copied

`SameValue v w`: the values are equal for Python: `w` is `v`, or the Python number that the numpy number `v` is.
-/
namespace Verif.Cont
open Verif.Mem (Str Err)
open Verif.Mem.Attrs (Val Lib fromJson item jsonPrefix stripPrefix stripPrefix_some stripPrefix_append)

variable {φ : Type}

inductive SameValue : Val φ → Val φ → Prop where
  | same (v : Val φ) : SameValue v v
  | npbool (b : Bool) : SameValue (.npbool b) (.bool b)
  | npint (i : Int) : SameValue (.npint i) (.int i)
  | npfloat (f : φ) : SameValue (.npfloat f) (.float f)

theorem putAttr_lookup (d : List (String × Val φ)) (k k' : String) (v : Val φ) :
    (putAttr d k v).lookup k' = if k' = k then some v else d.lookup k' := by
  unfold putAttr
  split
  · rename_i hany
    induction d with
    | nil => simp at hany
    | cons p d ih =>
      obtain ⟨a, b⟩ := p
      by_cases hak : a = k
      · subst hak
        simp only [List.map_cons, if_true, List.lookup_cons]
        by_cases hk : k' = a
        · subst hk; simp
        · have hb : (k' == a) = false := by simpa using hk
          rw [hb, if_neg hk]
          simp only
          clear ih hany
          induction d with
          | nil => rfl
          | cons q d ih =>
            obtain ⟨a', b'⟩ := q
            by_cases ha' : a' = a
            · subst ha'
              simp only [List.map_cons, if_true, List.lookup_cons, hb]
              exact ih
            · simp only [List.map_cons, if_neg ha', List.lookup_cons]
              rw [ih]
      · have hd : d.any (·.1 == k) = true := by
          simpa [hak] using hany
        simp only [List.map_cons, if_neg hak, List.lookup_cons]
        rw [ih hd]
        by_cases hk : k' = k
        · subst hk
          have : (k' == a) = false := by simpa using fun h => hak h.symm
          rw [this]
        · simp [hk]
  · rename_i hany
    by_cases hk : k' = k
    · subst hk
      rw [if_pos rfl]
      have : d.lookup k' = none := by
        rw [List.lookup_eq_none_iff]
        intro p hp
        simp only [List.any_eq_true, not_exists, not_and] at hany
        have := hany p hp
        simp only [beq_iff_eq] at this
        simpa using fun h : k' = p.1 => this h.symm
      rw [List.lookup_append, this]
      simp [List.lookup_cons]
    · rw [if_neg hk, List.lookup_append]
      have : (k' == k) = false := by simpa using hk
      simp [List.lookup_cons, this]

theorem copyAttrLoop_lookup (L : Lib φ) : ∀ (src dst : List (String × Val φ)), (src.map (·.1)).Nodup →
    (∀ p ∈ src, ∃ w, fromJson L p.2 = .ok w) →
    (copyAttrLoop L src dst).1 = .ok () ∧
    ∀ k, (∀ p ∈ src, p.1 = k → ∀ w, fromJson L p.2 = .ok w → (copyAttrLoop L src dst).2.lookup k = some (item w)) ∧
      ((∀ p ∈ src, p.1 ≠ k) → (copyAttrLoop L src dst).2.lookup k = dst.lookup k)
  | [], dst, _, _ => ⟨rfl, fun k => ⟨fun p hp => (by simp at hp), fun _ => rfl⟩⟩
  | (a, v) :: src, dst, hn, hd => by
    obtain ⟨w0, hw0⟩ := hd (a, v) List.mem_cons_self
    simp only [List.map_cons, List.nodup_cons] at hn
    obtain ⟨h1, h2⟩ := copyAttrLoop_lookup L src (putAttr dst a (item w0)) hn.2
      fun p hp => hd p (List.mem_cons_of_mem _ hp)
    have hv : fromJson L v = .ok w0 := hw0
    rw [copyAttrLoop, hv]
    simp only
    refine ⟨h1, fun k => ⟨fun p hp hpk w hw => ?_, fun hk => ?_⟩⟩
    · rcases List.mem_cons.1 hp with rfl | hp
      · simp only at hpk hw
        subst hpk
        rw [hv] at hw
        cases hw
        rw [(h2 a).2 fun q hq heq => hn.1 (heq ▸ List.mem_map_of_mem hq), putAttr_lookup, if_pos rfl]
      · exact (h2 k).1 p hp hpk w hw
    · rw [(h2 k).2 fun q hq => hk q (List.mem_cons_of_mem _ hq), putAttr_lookup,
        if_neg fun h => hk (a, v) List.mem_cons_self h.symm]

/-- **C39.** A dataset that is copied gets all the attributes of its source, with values equal to those there,
and keeps its other attributes, if no value is a string that begins with the mark of encoded values.
Missing: such strings (`C39_attribute_prefix_violated`). -/
theorem C39_attributes_partial (L : Lib φ) (src dst : List (String × Val φ)) (hn : (src.map (·.1)).Nodup)
    (hp : ∀ p ∈ src, ∀ s, p.2 = .str s → ¬ jsonPrefix <+: s) :
    (copyAttrs L src dst).1 = .ok () ∧
    (∀ k v, (k, v) ∈ src → ∃ w, (copyAttrs L src dst).2.lookup k = some w ∧ SameValue v w) ∧
    ∀ k, (∀ p ∈ src, p.1 ≠ k) → (copyAttrs L src dst).2.lookup k = dst.lookup k := by
  have hperm := List.mergeSort_perm src fun a b => decide (a.1 ≤ b.1)
  have hmem : ∀ p, p ∈ src.mergeSort (fun a b => decide (a.1 ≤ b.1)) ↔ p ∈ src := fun p => hperm.mem_iff
  have hnd : ((src.mergeSort fun a b => decide (a.1 ≤ b.1)).map (·.1)).Nodup :=
    ((hperm.map (·.1)).nodup_iff).2 hn
  have hj : ∀ p ∈ src, fromJson L p.2 = .ok p.2 := by
    intro p hm
    cases hv : p.2 with
    | str s =>
      simp only [fromJson]
      cases hs : stripPrefix jsonPrefix s with
      | none => rfl
      | some t => exact absurd ⟨t, (stripPrefix_some _ _ _ hs).symm⟩ (hp p hm s hv)
    | _ => rfl
  obtain ⟨h1, h2⟩ := copyAttrLoop_lookup L _ dst hnd fun p hm => ⟨p.2, hj p ((hmem p).1 hm)⟩
  refine ⟨h1, fun k v hkv => ⟨item v, ?_, ?_⟩, fun k hk => ?_⟩
  · exact (h2 k).1 (k, v) ((hmem _).2 hkv) rfl v (hj (k, v) hkv)
  · cases v <;> first | exact .same _ | exact .npbool _ | exact .npint _ | exact .npfloat _
  · exact (h2 k).2 fun p hm => hk p ((hmem p).1 hm)

/-- A unit and a number, copied to a dataset with its own axes. -/
example : (([("unit", .str ['K']), ("n", .npint 3)] : List (String × Val Nat)).map (·.1)).Nodup ∧
    ∀ p ∈ ([("unit", .str ['K']), ("n", .npint 3)] : List (String × Val Nat)), ∀ s, p.2 = .str s → ¬ jsonPrefix <+: s := by
  refine ⟨by decide, ?_⟩
  intro p hp s hs
  simp only [List.mem_cons, List.not_mem_nil, or_false] at hp
  rcases hp with rfl | rfl
  · cases hs; decide
  · cases hs

/-- **C39 is violated** by an attribute that is a string beginning with that mark: the copy has another value,
or the copy ends with an exception although the data have been written. -/
theorem C39_attribute_prefix_violated (L : Lib φ) (k : String) (s : Str) (dst : List (String × Val φ)) :
    (∀ i, L.dec s = .ok (.int i) → (copyAttrs L [(k, .str (jsonPrefix ++ s))] dst).2.lookup k = some (.int i)) ∧
    (∀ e, L.dec s = .error e → (copyAttrs L [(k, .str (jsonPrefix ++ s))] dst).1 = .error e) := by
  have hs : ([(k, .str (jsonPrefix ++ s))] : List (String × Val φ)).mergeSort (fun a b => decide (a.1 ≤ b.1)) =
      [(k, .str (jsonPrefix ++ s))] := List.mergeSort_singleton _
  have hf : fromJson L (.str (jsonPrefix ++ s) : Val φ) = L.dec s := by
    simp only [fromJson, stripPrefix_append]
  unfold copyAttrs
  rw [hs, copyAttrLoop, hf]
  constructor
  · intro i hi
    rw [hi]
    simp only [copyAttrLoop, putAttr_lookup, if_true, item]
  · intro e he
    rw [he]

end Verif.Cont
