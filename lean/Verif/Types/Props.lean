import Verif.Types.Spec

/-!
# C40: string dtype conversion changes string fields and nothing else
-/
namespace Verif.Types

theorem conv_native_S {t : TypeStr} (h : Native t = true) :
    conv (.none, 'S') (.little, 'U') t = bytesToUni t := by
  unfold conv bytesToUni
  unfold Native at h
  by_cases hk : t.kind = 'S'
  · simp [hk] at h
    simp [hk, h]
  · simp [hk]

theorem conv_native_U {t : TypeStr} (h : Native t = true) :
    conv (.little, 'U') (.none, 'S') t = uniToBytes t := by
  unfold conv uniToBytes
  unfold Native at h
  by_cases hk : t.kind = 'U'
  · simp [hk] at h
    simp [hk, h]
  · simp [hk]

theorem names_map (f : TypeStr → TypeStr) (fs : Fields) : (mapF f fs).names = fs.names := by
  match fs with
  | .nil => rfl
  | .field n t s rest => simp [mapF, Fields.names, names_map f rest]
  | .gap n rest => simp [mapF, Fields.names, names_map f rest]

theorem namesOf_iterConv (a b : Order × Char) (i : Nat) (l : DescL) :
    namesOf i (iterConv a b l) = namesOf i l := by
  match l with
  | .nil => simp [iterConv]
  | .cons n t s rest => simp [iterConv, namesOf, namesOf_iterConv a b (i + 1) rest]

theorem namesOf_descr (i : Nat) (fs : Fields) (h : PlainF fs) : namesOf i (descrF fs) = fs.names := by
  match fs with
  | .nil => simp [descrF, namesOf, Fields.names]
  | .field n t s rest =>
    simp only [PlainF] at h
    simp [descrF, namesOf, Fields.names, h.1, namesOf_descr (i + 1) rest h.2.2.2]
  | .gap n rest => exact absurd h (by simp [PlainF])

mutual
theorem ofDesc_conv (a b : Order × Char) (f : TypeStr → TypeStr)
    (hf : ∀ t, Native t = true → conv a b t = f t) (dt : DT) (h : Plain dt) :
    ofDesc (convDesc a b (descrT dt)) = .ok (mapT f dt) := by
  match dt with
  | .scalar t m =>
    simp only [Plain] at h
    obtain ⟨h1, rfl⟩ := h
    simp [descrT, convDesc, ofDesc, mapT, hf t h1]
  | .struct fs =>
    simp only [Plain] at h
    rw [descrT, convDesc, ofDesc, namesOf_iterConv, namesOf_descr 0 fs h.2.2, if_pos h.2.1,
      ofDescL_conv a b f hf 0 fs h.2.2, mapT]
theorem ofDescL_conv (a b : Order × Char) (f : TypeStr → TypeStr)
    (hf : ∀ t, Native t = true → conv a b t = f t) (i : Nat) (fs : Fields) (h : PlainF fs) :
    ofDescL i (iterConv a b (descrF fs)) = .ok (mapF f fs) := by
  match fs with
  | .nil => simp [descrF, iterConv, ofDescL, mapF]
  | .field n t s rest =>
    simp only [PlainF] at h
    obtain ⟨h1, h2, rfl, h4⟩ := h
    simp only [descrF, iterConv, ofDescL, ofDesc_conv a b f hf t h2, ofDescL_conv a b f hf (i + 1) rest h4,
      mapF, if_neg h1]
  | .gap n rest => exact absurd h (by simp [PlainF])
end

theorem names_ne_nil {fs : Fields} (h : PlainF fs) (hn : fs ≠ .nil) : fs.names ≠ [] := by
  match fs with
  | .nil => exact absurd rfl hn
  | .field n t s rest => simp [Fields.names]
  | .gap n rest => exact absurd h (by simp [PlainF])

theorem convertDtype_plain (a b : Order × Char) (f : TypeStr → TypeStr)
    (hf : ∀ t, Native t = true → conv a b t = f t) (dt : DT) (h : Plain dt) :
    convertDtype a b dt = .ok (mapT f dt) := by
  match dt with
  | .scalar t m =>
    simp only [Plain] at h
    obtain ⟨h1, rfl⟩ := h
    simp [convertDtype, mapT, hf t h1]
  | .struct fs =>
    have h' := h
    simp only [Plain] at h
    unfold convertDtype
    split
    · rename_i heq; cases heq
    · rename_i heq; cases heq; exact absurd rfl h.1
    · rename_i heq
      cases heq
      rw [if_neg (names_ne_nil h.2.2 h.1)]
      exact ofDesc_conv a b f hf (.struct fs) h'

/-- C40. `dtype_to_unicode` turns every byte string, at any depth, into a unicode string of the same
length, and changes nothing else: names, order, nesting and other fields stay. Sub-arrays, alignment and
metadata are excluded (see the violations). -/
theorem C40_to_unicode_partial (dt : DT) (h : Plain dt) : toUnicode dt = .ok (mapT bytesToUni dt) :=
  convertDtype_plain _ _ _ (fun _ ht => conv_native_S ht) dt h

/-- C40. The same for `dtype_to_bytestring`. -/
theorem C40_to_bytestring_partial (dt : DT) (h : Plain dt) : toBytes dt = .ok (mapT uniToBytes dt) :=
  convertDtype_plain _ _ _ (fun _ ht => conv_native_U ht) dt h

mutual
theorem plain_map (f : TypeStr → TypeStr) (hf : ∀ t, Native t = true → Native (f t) = true) (dt : DT)
    (h : Plain dt) : Plain (mapT f dt) := by
  match dt with
  | .scalar t m =>
    simp only [Plain, mapT] at h ⊢
    exact ⟨hf t h.1, h.2⟩
  | .struct fs =>
    simp only [Plain, mapT] at h ⊢
    refine ⟨?_, by rw [names_map]; exact h.2.1, plainF_map f hf fs h.2.2⟩
    intro hn
    match fs, h.1, hn with
    | .nil, h1, _ => exact h1 rfl
    | .field _ _ _ _, _, hn => simp [mapF] at hn
    | .gap _ _, _, hn => simp [mapF] at hn
theorem plainF_map (f : TypeStr → TypeStr) (hf : ∀ t, Native t = true → Native (f t) = true) (fs : Fields)
    (h : PlainF fs) : PlainF (mapF f fs) := by
  match fs with
  | .nil => simp [mapF, PlainF]
  | .field n t s rest =>
    simp only [PlainF, mapF] at h ⊢
    exact ⟨h.1, plain_map f hf t h.2.1, h.2.2.1, plainF_map f hf rest h.2.2.2⟩
  | .gap n rest => exact absurd h (by simp [PlainF])
end

mutual
theorem map_map (f g : TypeStr → TypeStr) (p : TypeStr → Bool) (hfg : ∀ t, Native t = true → p t = false →
      g (f t) = t) (dt : DT) (h : Plain dt) (hp : anyT p dt = false) : mapT g (mapT f dt) = dt := by
  match dt with
  | .scalar t m =>
    simp only [Plain, anyT, mapT] at *
    rw [hfg t h.1 hp]
  | .struct fs =>
    simp only [Plain, anyT, mapT] at *
    rw [mapF_map f g p hfg fs h.2.2 hp]
theorem mapF_map (f g : TypeStr → TypeStr) (p : TypeStr → Bool) (hfg : ∀ t, Native t = true → p t = false →
      g (f t) = t) (fs : Fields) (h : PlainF fs) (hp : anyF p fs = false) : mapF g (mapF f fs) = fs := by
  match fs with
  | .nil => simp [mapF]
  | .field n t s rest =>
    simp only [PlainF, anyF, mapF, Bool.or_eq_false_iff] at *
    rw [map_map f g p hfg t h.2.1 hp.1, mapF_map f g p hfg rest h.2.2.2 hp.2]
  | .gap n rest => exact absurd h (by simp [PlainF])
end

/-- C40. Converting a type with unicode strings (and no byte strings) to byte strings and back gives the
original type. -/
theorem C40_round_trip_partial (dt : DT) (h : Plain dt) (hs : anyT (fun t => t.kind == 'S') dt = false) :
    ∃ b, toBytes dt = .ok b ∧ toUnicode b = .ok dt := by
  refine ⟨_, C40_to_bytestring_partial dt h, ?_⟩
  rw [C40_to_unicode_partial _ (plain_map uniToBytes (by
    intro t ht
    unfold uniToBytes
    split
    · rfl
    · exact ht) dt h)]
  congr 1
  refine map_map uniToBytes bytesToUni (fun t => t.kind == 'S') ?_ dt h hs
  intro t ht hp
  obtain ⟨o, k, n⟩ := t
  unfold uniToBytes bytesToUni
  simp only at *
  by_cases hk : k = 'U'
  · subst hk
    simp [Native] at ht
    simp [ht]
  · simp [hk]
    intro hS
    simp [hS] at hp

/-- C40. The other round trip: a type with byte strings and no unicode strings. -/
theorem C40_round_trip_bytes_partial (dt : DT) (h : Plain dt)
    (hs : anyT (fun t => t.kind == 'U') dt = false) :
    ∃ b, toUnicode dt = .ok b ∧ toBytes b = .ok dt := by
  refine ⟨_, C40_to_unicode_partial dt h, ?_⟩
  rw [C40_to_bytestring_partial _ (plain_map bytesToUni (by
    intro t ht
    unfold bytesToUni
    split
    · rfl
    · exact ht) dt h)]
  congr 1
  refine map_map bytesToUni uniToBytes (fun t => t.kind == 'U') ?_ dt h hs
  intro t ht hp
  obtain ⟨o, k, n⟩ := t
  unfold uniToBytes bytesToUni
  simp only at *
  by_cases hk : k = 'S'
  · subst hk
    simp [Native] at ht
    simp [ht]
  · simp [hk]
    intro hS
    simp [hS] at hp

/-! ## `has_kind` -/

theorem descr_length (fs : Fields) : (descrF fs).length = fs.items := by
  match fs with
  | .nil => simp [descrF, DescL.length, Fields.items]
  | .field n t s rest => simp [descrF, DescL.length, Fields.items, descr_length rest]
  | .gap n rest => simp [descrF, DescL.length, Fields.items, descr_length rest]

theorem iterHas_descr (kind : Char) (hk : kind ≠ 'V') (fs : Fields) (h : NestedBig fs) :
    iterHas kind (descrF fs) = .ok (anyF (fun t => decide (t.kind = kind)) fs) := by
  match fs with
  | .nil => simp [descrF, iterHas, anyF]
  | .field n (.scalar t m) s rest =>
    simp only [NestedBig] at h
    have ih := iterHas_descr kind hk rest h.2
    cases m <;> simp only [descrF, descrT, iterHas, anyF, anyT, ih] <;> by_cases ht : t.kind = kind <;>
      simp [ht]
  | .field n (.struct fs') s rest =>
    simp only [NestedBig, NestedBigT] at h
    have ih := iterHas_descr kind hk rest h.2
    have ih' := iterHas_descr kind hk fs' h.1.2
    have hlen : ¬ (descrF fs').length < 2 := by rw [descr_length]; omega
    simp only [descrF, descrT, iterHas, anyF, anyT, ih, ih', if_neg hlen]
    cases anyF (fun t => decide (t.kind = kind)) fs' <;> simp
  | .gap n rest =>
    simp only [NestedBig] at h
    have ih := iterHas_descr kind hk rest h
    simp only [descrF, iterHas, anyF, ih]
    rw [if_neg (Ne.symm hk)]

/-- C40. `has_unicode` and `has_bytestring` answer whether any field at any depth has that kind. Sub-arrays,
alignment and metadata are allowed; structures used as fields must have at least two items. -/
theorem C40_has_kind_partial (kind : Char) (hk : kind ≠ 'V') (dt : DT)
    (h : ∀ fs, dt = .struct fs → fs.names ≠ [] ∧ NestedBig fs) :
    hasKind kind dt = .ok (anyT (fun t => decide (t.kind = kind)) dt) := by
  match dt with
  | .scalar t m => simp [hasKind, anyT]
  | .struct fs =>
    obtain ⟨h1, h2⟩ := h fs rfl
    simp only [hasKind, anyT, if_neg h1]
    exact iterHas_descr kind hk fs h2

/-! ## Where it fails -/

/-- A type string. -/
def i4 : TypeStr := ⟨.little, 'i', 4⟩
/-- A type string. -/
def s3 : TypeStr := ⟨.none, 'S', 3⟩
/-- A type string. -/
def u3 : TypeStr := ⟨.little, 'U', 3⟩

/-- C40 fails for sub-arrays: their shape is lost. -/
theorem C40_subarray_violated :
    toUnicode (.struct (.field "a" (.scalar i4 false) (some [2, 3]) .nil))
      = .ok (.struct (.field "a" (.scalar i4 false) none .nil)) := by rfl

/-- C40 fails for aligned structures: the gap becomes a field of its own. -/
theorem C40_alignment_violated :
    toUnicode (.struct (.field "a" (.scalar s3 false) none (.gap 1 (.field "b" (.scalar i4 false) none .nil))))
      = .ok (.struct (.field "a" (.scalar u3 false) none (.field "f1" (.scalar ⟨.none, 'V', 1⟩ false) none
          (.field "b" (.scalar i4 false) none .nil)))) := by rfl

/-- C40 fails for unicode in the other byte order: it is recognised but not converted. -/
theorem C40_byte_order_violated (n : Nat) :
    hasKind 'U' (.scalar ⟨.big, 'U', n⟩ false) = .ok true ∧
    toBytes (.scalar ⟨.big, 'U', n⟩ false) = .ok (.scalar ⟨.big, 'U', n⟩ false) := ⟨rfl, rfl⟩

/-- C40 fails for metadata (by which `h5py` marks its variable length strings): they are lost, although the
field is not a string type. -/
theorem C40_metadata_violated :
    toBytes (.scalar ⟨.none, 'O', 8⟩ true) = .ok (.scalar ⟨.none, 'O', 8⟩ false) := rfl

/-- C40 fails for structures without fields (`np.dtype([])`, or with a given size in bytes): they come back as a plain block of bytes, which has no names any more. -/
theorem C40_no_fields_violated (n : Nat) :
    toUnicode (.struct .nil) = .ok (.scalar ⟨.none, 'V', 0⟩ false) ∧ toBytes (.struct .nil) = .ok (.scalar ⟨.none, 'V', 0⟩ false) ∧
    toUnicode (.struct (.gap n .nil)) = .ok (.scalar ⟨.none, 'V', n⟩ false) ∧ toBytes (.struct (.gap n .nil)) = .ok (.scalar ⟨.none, 'V', n⟩ false) :=
  ⟨rfl, rfl, rfl, rfl⟩

/-- C40 fails for `has_kind` if a field is a structure with a single field of another kind. -/
theorem C40_has_kind_violated :
    hasKind 'U' (.struct (.field "a" (.struct (.field "b" (.scalar i4 false) none .nil)) none
      (.field "c" (.scalar u3 false) none .nil))) = .error .indexError := by rfl

/-- A nested type that meets the hypotheses. -/
def exType : DT :=
  .struct (.field "a" (.scalar s3 false) none (.field "b" (.struct (.field "x" (.scalar s3 false) none
    (.field "y" (.scalar i4 false) none .nil))) none .nil))

theorem exType_plain : Plain exType := by
  simp [exType, Plain, PlainF, Fields.names, Native, s3, i4]

example : ∃ b, toUnicode exType = .ok b ∧ toBytes b = .ok exType :=
  C40_round_trip_bytes_partial exType exType_plain (by decide +kernel)

example : hasKind 'U' exType = .ok false ∧ hasKind 'S' exType = .ok true := by
  constructor
  · rw [C40_has_kind_partial 'U' (by decide) exType (by
      intro fs h; cases h; simp [Fields.names, NestedBig, NestedBigT, Fields.items])]
    rfl
  · rw [C40_has_kind_partial 'S' (by decide) exType (by
      intro fs h; cases h; simp [Fields.names, NestedBig, NestedBigT, Fields.items])]
    rfl

example : ∃ b, toBytes (.struct (.field "a" (.scalar u3 false) none .nil)) = .ok b ∧
    toUnicode b = .ok (.struct (.field "a" (.scalar u3 false) none .nil)) :=
  C40_round_trip_partial _ (by simp [Plain, PlainF, Fields.names, Native, u3]) (by decide +kernel)

end Verif.Types
