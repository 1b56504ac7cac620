import Verif.Mem.Attrs

/-!
# C33: attributes written and read back

`JsonPlain` are the values JSON can hold: `None`, booleans, numbers, strings, lists and dictionaries
of such values with (different) strings as keys. `JsonLib` is what is assumed of python's `json`: decoding the
text of such a value gives the value, and the text holds no NUL character. `JsonProps` shows it for the encoder and the decoder.
-/
namespace Verif.Mem.Attrs
variable {φ : Type}

/-- A dictionary has a key. -/
def HasKey (s : Str) : Items φ → Prop
  | .nil => False
  | .cons k _ d => k = .str s ∨ HasKey s d

mutual
def JsonPlain : Val φ → Prop
  | .none => True
  | .bool _ => True
  | .int _ => True
  | .float _ => True
  | .str _ => True
  | .list l => PlainList l
  | .dict d => PlainItems d
  | _ => False
def PlainList : Vals φ → Prop
  | .nil => True
  | .cons v l => JsonPlain v ∧ PlainList l
def PlainItems : Items φ → Prop
  | .nil => True
  | .cons k v d => (∃ s, k = .str s ∧ ¬ HasKey s d) ∧ JsonPlain v ∧ PlainItems d
end

structure JsonLib (L : Lib φ) : Prop where
  dec_enc : ∀ v, JsonPlain v → L.dec (L.enc v) = .ok v
  no_nul : ∀ v, (L.enc v).contains (Char.ofNat 0) = false

mutual
theorem jsonNorm_plain (L : Lib φ) : ∀ v : Val φ, JsonPlain v → jsonNorm L v = .ok v
  | .none, _ => rfl
  | .bool _, _ => rfl
  | .int _, _ => rfl
  | .float _, _ => rfl
  | .str _, _ => rfl
  | .list l, h => by
    have := jsonList_plain L l h
    simp only [jsonNorm]; rw [this]
  | .dict d, h => by
    have := jsonItems_plain L d h
    simp only [jsonNorm]; rw [this]
  | .bytes _, h => h.elim
  | .datetime _, h => h.elim
  | .npbool _, h => h.elim
  | .npint _, h => h.elim
  | .npfloat _, h => h.elim
  | .arrI _, h => h.elim
  | .arrF _, h => h.elim
  | .arrO _, h => h.elim
  | .arrU _, h => h.elim
  | .arrS _, h => h.elim
theorem jsonList_plain (L : Lib φ) : ∀ l : Vals φ, PlainList l → jsonList L l = .ok l
  | .nil, _ => rfl
  | .cons v l, h => by
    have h1 := jsonNorm_plain L v h.1
    have h2 := jsonList_plain L l h.2
    simp only [jsonList]; rw [h1]; simp only; rw [h2]
theorem jsonItems_plain (L : Lib φ) : ∀ d : Items φ, PlainItems d → jsonItems L d = .ok d
  | .nil, _ => rfl
  | .cons k v d, h => by
    obtain ⟨⟨s, rfl, -⟩, hv, hd⟩ := h
    have h1 := jsonNorm_plain L v hv
    have h2 := jsonItems_plain L d hd
    simp only [jsonItems, jsonKey]; rw [h1]; simp only; rw [h2]
end

mutual
theorem b2u_plain (L : Lib φ) : ∀ v : Val φ, JsonPlain v → bytesToUnicode L v = .ok v
  | .none, _ => rfl
  | .bool _, _ => rfl
  | .int _, _ => rfl
  | .float _, _ => rfl
  | .str _, _ => rfl
  | .list l, h => by
    have := b2uList_plain L l h
    simp only [bytesToUnicode]; rw [this]
  | .dict d, h => by
    have := b2uItems_plain L d h
    simp only [bytesToUnicode]; rw [this]
  | .bytes _, h => h.elim
  | .datetime _, h => h.elim
  | .npbool _, h => h.elim
  | .npint _, h => h.elim
  | .npfloat _, h => h.elim
  | .arrI _, h => h.elim
  | .arrF _, h => h.elim
  | .arrO _, h => h.elim
  | .arrU _, h => h.elim
  | .arrS _, h => h.elim
theorem b2uList_plain (L : Lib φ) : ∀ l : Vals φ, PlainList l → b2uList L l = .ok l
  | .nil, _ => rfl
  | .cons v l, h => by
    have h1 := b2u_plain L v h.1
    have h2 := b2uList_plain L l h.2
    simp only [b2uList]; rw [h1]; simp only; rw [h2]
theorem b2uItems_plain (L : Lib φ) : ∀ d : Items φ, PlainItems d → b2uItems L d = .ok d
  | .nil, _ => rfl
  | .cons k v d, h => by
    obtain ⟨⟨s, rfl, -⟩, hv, hd⟩ := h
    have h1 := b2u_plain L v hv
    have h2 := b2uItems_plain L d hd
    simp only [b2uItems, bytesToUnicode]; rw [h1]; simp only; rw [h2]
end

theorem stripPrefix_append (p s : Str) : stripPrefix p (p ++ s) = some s := by
  induction p with
  | nil => rfl
  | cons a p ih => simp [stripPrefix, ih]

theorem stripPrefix_some (p s t : Str) (h : stripPrefix p s = some t) : s = p ++ t := by
  induction p generalizing s with
  | nil => simp only [stripPrefix, Option.some.injEq] at h; simp [h]
  | cons a p ih =>
    cases s with
    | nil => simp [stripPrefix] at h
    | cons b s =>
      simp only [stripPrefix] at h
      split at h
      · rename_i e
        rw [ih s h, e]; rfl
      · simp at h

/-- Reading a string that was written as JSON. -/
theorem read_json (L : Lib φ) (J : JsonLib L) (v : Val φ) (h : JsonPlain v) :
    convert L .memory (.str (jsonPrefix ++ L.enc v)) = .ok v := by
  have h1 : mapUnicode L .memory (.str (jsonPrefix ++ L.enc v)) = .ok (.str (jsonPrefix ++ L.enc v)) := rfl
  have h2 : mapJson L .memory (.str (jsonPrefix ++ L.enc v)) = .ok v := by
    show fromJson L (.str (jsonPrefix ++ L.enc v)) = _
    simp only [fromJson, stripPrefix_append]
    exact J.dec_enc v h
  unfold convert
  rw [h1]
  simp only
  rw [h2]
  cases v <;> first | rfl | exact h.elim

/-- What marks a string as JSON. -/
def marker : Str := "!!_memh5_json:".toList

/-- The values that come back equal: booleans, integers numpy can hold, floats, strings that do not
start with the prefix (without NUL in HDF5), and dictionaries of JSON values. Also, in zarr, lists of
JSON values, any integer and `None`. -/
def Survives (dest : Dest) : Val φ → Prop
  | .none => dest = .zarr
  | .bool _ => True
  | .int i => dest = .zarr ∨ (-(2 ^ 63) ≤ i ∧ i < 2 ^ 64)
  | .float _ => True
  | .str s => ¬ marker <+: s ∧ (dest = .zarr ∨ Char.ofNat 0 ∉ s)
  | .list l => dest = .zarr ∧ PlainList l
  | .dict d => PlainItems d
  | _ => False

/-- C33. Every value of these kinds comes back equal from HDF5 and from zarr. -/
theorem C33_round_trip_partial (L : Lib φ) (J : JsonLib L) (dest : Dest) (hd : dest ≠ .memory)
    (v : Val φ) (h : Survives dest v) : roundTrip L dest v = .ok v := by
  have hstr : ∀ s : Str, ¬ jsonPrefix <+: s → fromJson L (.str s : Val φ) = .ok (.str s) := by
    intro s hs
    simp only [fromJson]
    cases hp : stripPrefix jsonPrefix s with
    | none => rfl
    | some t => exact absurd ⟨t, (stripPrefix_some _ _ _ hp).symm⟩ hs
  have hdict : ∀ d : Items φ, PlainItems d → roundTrip L dest (.dict d) = .ok (.dict d) := by
    intro d h
    have hp : JsonPlain (.dict d) := h
    have h1 : mapUnicode L dest (.dict d) = .ok (.dict d) := by
      cases dest with
      | h5py => rfl
      | zarr => exact b2u_plain L (.dict d) hp
      | memory => exact absurd rfl hd
    have h2 : mapJson L dest (.dict d) = .ok (.str (jsonPrefix ++ L.enc (.dict d))) := by
      unfold mapJson
      rw [if_pos (by simp [needsJson, hd]), jsonNorm_plain L _ hp]
    have h3 : convert L dest (.dict d) = .ok (.str (jsonPrefix ++ L.enc (.dict d))) := by
      unfold convert
      rw [h1]; simp only; rw [h2]; rfl
    have h4 : store L dest (.str (jsonPrefix ++ L.enc (.dict d)) : Val φ) =
        .ok (.str (jsonPrefix ++ L.enc (.dict d))) := by
      cases dest with
      | h5py =>
        simp only [store, h5Store]
        rw [if_neg]
        rw [List.contains_iff_mem, List.mem_append]
        rintro (hm | hm)
        · revert hm; decide
        · have := J.no_nul (.dict d)
          rw [← List.contains_iff_mem, this] at hm
          simp at hm
      | zarr => rfl
      | memory => exact absurd rfl hd
    unfold roundTrip
    rw [h3]; simp only; rw [h4]
    exact read_json L J _ hp
  have hmem : ∀ s : Str, ¬ jsonPrefix <+: s → convert L .memory (.str s) = .ok (.str s : Val φ) := by
    intro s hs
    unfold convert
    have h1 : mapUnicode L .memory (.str s : Val φ) = .ok (.str s) := rfl
    have h2 : mapJson L .memory (.str s : Val φ) = .ok (.str s) := hstr s hs
    rw [h1]; simp only; rw [h2]; rfl
  match dest, v, h with
  | .memory, _, _ => exact absurd rfl hd
  | .zarr, .none, _ => rfl
  | .h5py, .bool b, _ => rfl
  | .zarr, .bool b, _ => rfl
  | .h5py, .float b, _ => rfl
  | .zarr, .float b, _ => rfl
  | .zarr, .int i, _ => rfl
  | .h5py, .int i, h =>
    have hf : fits i = true := by
      rcases h with h | h
      · cases h
      · simp only [fits, Bool.and_eq_true, decide_eq_true_eq]; exact h
    have h1 : store L .h5py (.int i : Val φ) = .ok (.npint i) := by
      simp only [store, h5Store, hf, if_true]
    have h2 : convert L .h5py (.int i : Val φ) = .ok (.int i) := rfl
    unfold roundTrip
    rw [h2]; simp only; rw [h1]; rfl
  | .h5py, .str s, h =>
    have h2 : convert L .h5py (.str s : Val φ) = .ok (.str s) := by
      unfold convert
      have h1 : mapUnicode L .h5py (.str s : Val φ) = .ok (.str s) := rfl
      have h2 : mapJson L .h5py (.str s : Val φ) = .ok (.str s) := hstr s h.1
      rw [h1]; simp only; rw [h2]; rfl
    have h3 : store L .h5py (.str s : Val φ) = .ok (.str s) := by
      simp only [store, h5Store]
      rw [if_neg]
      rw [List.contains_iff_mem]
      rcases h.2 with h | h
      · cases h
      · exact h
    unfold roundTrip
    rw [h2]; simp only; rw [h3]
    exact hmem s h.1
  | .zarr, .str s, h =>
    have h2 : convert L .zarr (.str s : Val φ) = .ok (.str s) := by
      unfold convert
      have h1 : mapUnicode L .zarr (.str s : Val φ) = .ok (.str s) := rfl
      have h2 : mapJson L .zarr (.str s : Val φ) = .ok (.str s) := hstr s h.1
      rw [h1]; simp only; rw [h2]; rfl
    unfold roundTrip
    rw [h2]
    exact hmem s h.1
  | .zarr, .list l, h =>
    have hb := b2u_plain L (.list l) h.2
    have h2 : convert L .zarr (.list l) = .ok (.list l) := by
      unfold convert
      have h1 : mapUnicode L .zarr (.list l) = .ok (.list l) := hb
      rw [h1]; rfl
    have h3 : store L .zarr (.list l) = .ok (.list l) := by
      simp only [store, zarrStore]
      rw [jsonList_plain L l h.2]
    have h4 : convert L .memory (.list l) = .ok (.list l) := by
      unfold convert
      have h1 : mapUnicode L .memory (.list l) = .ok (.list l) := hb
      rw [h1]; rfl
    unfold roundTrip
    rw [h2]; simp only; rw [h3]; exact h4
  | .h5py, .dict d, h => exact hdict d h
  | .zarr, .dict d, h => exact hdict d h

/-- C33. In HDF5 a list of integers, of floats or of strings comes back as an array with the same
items, in order. -/
theorem C33_list_partial (L : Lib φ) :
    (∀ is : List Int, is ≠ [] → (∀ i ∈ is, -(2 ^ 63) ≤ i ∧ i < 2 ^ 64) →
      roundTrip L .h5py (.list (Vals.ofList (is.map .int))) = .ok (.arrI is)) ∧
    (∀ fs : List φ, roundTrip L .h5py (.list (Vals.ofList (fs.map .float))) = .ok (.arrF fs)) ∧
    (∀ ss : List Str, ss ≠ [] →
      roundTrip L .h5py (.list (Vals.ofList (ss.map .str))) = .ok (.arrO ss)) := by
  have hto : ∀ l : List (Val φ), (Vals.ofList l).toList = l := by
    intro l
    induction l with
    | nil => rfl
    | cons v l ih => simp [Vals.ofList, Vals.toList, ih]
  have hmap : ∀ {β γ : Type} (f : β → Option γ) (g : γ → β) (l : List γ), (∀ x ∈ l, f (g x) = some x) →
      (l.map g).mapM f = some l := by
    intro β γ f g l h
    induction l with
    | nil => rfl
    | cons x l ih =>
      rw [List.map_cons, List.mapM_cons, h x (by simp), ih (fun y hy => h y (by simp [hy]))]
      rfl
  have hfail : ∀ {β γ : Type} (f : β → Option γ) (l : List β), l ≠ [] → (∀ x ∈ l, f x = Option.none) →
      l.mapM f = Option.none := by
    intro β γ f l hne h
    cases l with
    | nil => exact absurd rfl hne
    | cons x l => rw [List.mapM_cons, h x (by simp)]; rfl
  have hrt : ∀ (l : List (Val φ)) (w : Val φ), npArray L l = .ok w →
      (∀ x, toVlen w = x → convert L .memory x = .ok x ∧ h5Store x = .ok x ∧ fromJson L x = .ok x ∧
        needsJson .h5py x = false ∧ item x = x) →
      roundTrip L .h5py (.list (Vals.ofList l)) = .ok (toVlen w) := by
    intro l w hw hx
    obtain ⟨h1, h2, h3, h4, h5⟩ := hx _ rfl
    have h6 : mapUnicode L .h5py (.list (Vals.ofList l)) = .ok (toVlen w) := by
      simp only [mapUnicode]
      rw [hto, hw]
    have h7 : convert L .h5py (.list (Vals.ofList l)) = .ok (toVlen w) := by
      unfold convert
      rw [h6]
      simp only [mapJson, h4]
      simp only [Bool.false_eq_true, if_false]
      rw [h3]
      simp only [h5]
    unfold roundTrip
    rw [h7]
    simp only [store]
    rw [h2]
    exact h1
  refine ⟨fun is hne hf => ?_, fun fs => ?_, fun ss hne => ?_⟩
  · have h1 : npArray L (is.map .int) = .ok (.arrI is) := by
      unfold npArray
      rw [if_neg (by simpa using hne), hmap asInt Val.int is]
      intro x hx
      have := hf x hx
      have hf : fits x = true := by simp only [fits, Bool.and_eq_true, decide_eq_true_eq]; exact this
      simp only [asInt, hf, if_true]
    exact hrt _ _ h1 (by rintro x rfl; exact ⟨rfl, rfl, rfl, rfl, rfl⟩)
  · have h1 : npArray L (fs.map .float) = .ok (.arrF fs) := by
      unfold npArray
      cases fs with
      | nil => rfl
      | cons f fs =>
        rw [if_neg (by simp), hfail asInt _ (by simp) (by
          intro x hx; obtain ⟨y, _, rfl⟩ := List.mem_map.1 hx; rfl)]
        simp only
        rw [hmap (asFloat L) Val.float (f :: fs) (fun _ _ => rfl)]
    exact hrt _ _ h1 (by rintro x rfl; exact ⟨rfl, rfl, rfl, rfl, rfl⟩)
  · have h1 : npArray L (ss.map .str) = .ok (.arrU ss) := by
      unfold npArray
      rw [if_neg (by simpa using hne), hfail asInt _ (by simpa using hne) (by
          intro x hx; obtain ⟨y, _, rfl⟩ := List.mem_map.1 hx; rfl)]
      simp only
      rw [hfail (asFloat L) _ (by simpa using hne) (by
          intro x hx; obtain ⟨y, _, rfl⟩ := List.mem_map.1 hx; rfl)]
      simp only
      rw [hmap (asStr L) Val.str ss (fun _ _ => rfl)]
    exact hrt _ _ h1 (by rintro x rfl; exact ⟨rfl, rfl, rfl, rfl, rfl⟩)

/-- C33, what stands in the file: a dictionary is written as the text `!!_memh5_json:` followed by
its JSON, and such a text, whoever wrote it, is read as the value. So a file moves between versions
and to other programs that know the format. -/
theorem C33_marker (L : Lib φ) (J : JsonLib L) (d : Items φ) (h : PlainItems d) :
    (∀ dest, dest ≠ .memory →
      convert L dest (.dict d) = .ok (.str ("!!_memh5_json:".toList ++ L.enc (.dict d)))) ∧
    convert L .memory (.str ("!!_memh5_json:".toList ++ L.enc (.dict d))) = .ok (.dict d) := by
  have hp : JsonPlain (.dict d) := h
  refine ⟨fun dest hd => ?_, read_json L J _ hp⟩
  have h1 : mapUnicode L dest (.dict d) = .ok (.dict d) := by
    cases dest with
    | h5py => rfl
    | zarr => exact b2u_plain L (.dict d) hp
    | memory => exact absurd rfl hd
  have h2 : mapJson L dest (.dict d) = .ok (.str (jsonPrefix ++ L.enc (.dict d))) := by
    unfold mapJson
    rw [if_pos (by simp [needsJson, hd]), jsonNorm_plain L _ hp]
  unfold convert
  rw [h1]; simp only; rw [h2]; rfl

/-! ## Where it fails -/

/-- C33 fails for strings that start with the prefix: the string is replaced by whatever the rest
means as JSON, already when it is written, and even when attributes are copied in memory. -/
theorem C33_prefix_violated (L : Lib φ) (s : Str) (i : Int) (hi : -(2 ^ 63) ≤ i ∧ i < 2 ^ 64)
    (hs : L.dec s = .ok (.int i)) :
    (∀ dest, dest ≠ .memory → roundTrip L dest (.str (marker ++ s)) = .ok (.int i)) ∧
    convert L .memory (.str (marker ++ s)) = .ok (.int i) := by
  have hm : marker = jsonPrefix := rfl
  rw [hm]
  have hj : ∀ dest, mapJson L dest (.str (jsonPrefix ++ s)) = .ok (.int i) := by
    intro dest
    have hn : needsJson dest (.str (jsonPrefix ++ s) : Val φ) = false := rfl
    simp only [mapJson, hn, Bool.false_eq_true, if_false]
    simp only [fromJson, stripPrefix_append]
    exact hs
  have hc : ∀ dest, convert L dest (.str (jsonPrefix ++ s)) = .ok (.int i) := by
    intro dest
    have h1 : mapUnicode L dest (.str (jsonPrefix ++ s)) = .ok (.str (jsonPrefix ++ s)) := by
      cases dest <;> rfl
    unfold convert
    rw [h1]; simp only; rw [hj]; rfl
  refine ⟨fun dest hd => ?_, hc _⟩
  unfold roundTrip
  rw [hc]
  simp only
  cases dest with
  | h5py =>
    have hf : fits i = true := by simp only [fits, Bool.and_eq_true, decide_eq_true_eq]; exact hi
    simp only [store, h5Store, hf, if_true]; rfl
  | zarr => rfl
  | memory => exact absurd rfl hd

/-- C33 fails, with an exception, if the rest is not JSON; copying in memory fails as well. -/
theorem C33_prefix_error_violated (L : Lib φ) (s : Str) (e : Err) (hs : L.dec s = .error e)
    (dest : Dest) : roundTrip L dest (.str (marker ++ s)) = .error e := by
  have hm : marker = jsonPrefix := rfl
  rw [hm]
  have hj : mapJson L dest (.str (jsonPrefix ++ s)) = .error e := by
    have hn : needsJson dest (.str (jsonPrefix ++ s) : Val φ) = false := rfl
    simp only [mapJson, hn, Bool.false_eq_true, if_false]
    simp only [fromJson, stripPrefix_append]
    exact hs
  have h1 : mapUnicode L dest (.str (jsonPrefix ++ s)) = .ok (.str (jsonPrefix ++ s)) := by
    cases dest <;> rfl
  unfold roundTrip convert
  rw [h1]; simp only; rw [hj]

/-- C33 fails for lists that mix numbers and strings: in HDF5 the numbers come back as strings. -/
theorem C33_mixed_list_violated (L : Lib φ) (i : Int) (s : Str) :
    roundTrip L .h5py (.list (.cons (.int i) (.cons (.str s) .nil))) =
      .ok (.arrO [L.pyStr (.int i), s]) := by
  have h : npArray L [.int i, .str s] = .ok (.arrU [L.pyStr (.int i), s]) := by
    unfold npArray
    rw [if_neg (by simp)]
    have h1 : [Val.int i, .str s].mapM (asInt (φ := φ)) = Option.none := by
      simp only [List.mapM_cons, asInt]
      split <;> rfl
    have h2 : [Val.int i, .str s].mapM (asFloat L) = Option.none := by
      simp only [List.mapM_cons, asFloat]
      split <;> rfl
    rw [h1]; simp only; rw [h2]; rfl
  have h6 : mapUnicode L .h5py (.list (.cons (.int i) (.cons (.str s) .nil))) =
      .ok (.arrO [L.pyStr (.int i), s]) := by
    simp only [mapUnicode, Vals.toList]
    rw [h]
    rfl
  unfold roundTrip convert
  rw [h6]
  rfl

/-- C33 fails for datetimes: they come back as strings. -/
theorem C33_datetime_violated (L : Lib φ) (J : JsonLib L) (iso : Str) :
    roundTrip L .h5py (.datetime iso) = .ok (.str iso) := by
  have h3 : convert L .h5py (.datetime iso) = .ok (.str (jsonPrefix ++ L.enc (.str iso))) := rfl
  have h4 : h5Store (.str (jsonPrefix ++ L.enc (.str iso)) : Val φ) =
      .ok (.str (jsonPrefix ++ L.enc (.str iso))) := by
    simp only [h5Store]
    rw [if_neg]
    rw [List.contains_iff_mem, List.mem_append]
    rintro (hm | hm)
    · revert hm; decide
    · have := J.no_nul (.str iso)
      rw [← List.contains_iff_mem, this] at hm
      simp at hm
  unfold roundTrip
  rw [h3]
  simp only [store]
  rw [h4]
  exact read_json L J (.str iso) trivial

/-- C33 fails for dictionaries with a numpy integer in them: writing raises `TypeError`. -/
theorem C33_numpy_in_dict_violated (L : Lib φ) (s : Str) (i : Int) (dest : Dest) (hd : dest ≠ .memory) :
    roundTrip L dest (.dict (.cons (.str s) (.npint i) .nil)) = .error .typeError := by
  cases dest with
  | h5py => rfl
  | zarr => rfl
  | memory => exact absurd rfl hd

/-- C33 fails for dictionaries with other keys than strings: the keys come back as strings. -/
theorem C33_integer_key_violated (L : Lib φ) (J : JsonLib L) (i : Int) (v : Val φ) (hv : JsonPlain v)
    (s : Str) (hs : L.keyStr (.int i) = .ok s) :
    roundTrip L .h5py (.dict (.cons (.int i) v .nil)) = .ok (.dict (.cons (.str s) v .nil)) := by
  have hn : jsonNorm L (.dict (.cons (.int i) v .nil)) = .ok (.dict (.cons (.str s) v .nil)) := by
    simp only [jsonNorm, jsonItems, jsonKey]
    rw [hs]
    simp only
    rw [jsonNorm_plain L v hv]
  have hp : JsonPlain (.dict (.cons (.str s) v .nil) : Val φ) := ⟨⟨s, rfl, id⟩, hv, trivial⟩
  have h3 : convert L .h5py (.dict (.cons (.int i) v .nil)) =
      .ok (.str (jsonPrefix ++ L.enc (.dict (.cons (.str s) v .nil)))) := by
    have h1 : mapUnicode L .h5py (.dict (.cons (.int i) v .nil)) = .ok (.dict (.cons (.int i) v .nil)) := rfl
    unfold convert
    rw [h1]
    simp only [mapJson]
    have hj : needsJson .h5py (.dict (.cons (.int i) v .nil)) = true := rfl
    simp only [hj, if_true, hn]
    rfl
  have h4 : h5Store (.str (jsonPrefix ++ L.enc (.dict (.cons (.str s) v .nil))) : Val φ) =
      .ok (.str (jsonPrefix ++ L.enc (.dict (.cons (.str s) v .nil)))) := by
    simp only [h5Store]
    rw [if_neg]
    rw [List.contains_iff_mem, List.mem_append]
    rintro (hm | hm)
    · revert hm; decide
    · have := J.no_nul (.dict (.cons (.str s) v .nil))
      rw [← List.contains_iff_mem, this] at hm
      simp at hm
  unfold roundTrip
  rw [h3]
  simp only [store]
  rw [h4]
  exact read_json L J _ hp

/-- C33 fails in zarr for an array with one item: the item comes back without its array. -/
theorem C33_single_item_violated (L : Lib φ) (J : JsonLib L) (i : Int) :
    roundTrip L .zarr (.arrI [i]) = .ok (.int i) := by
  have h3 : convert L .zarr (.arrI [i]) = .ok (.str (jsonPrefix ++ L.enc (.int i))) := rfl
  unfold roundTrip
  rw [h3]
  exact read_json L J (.int i) trivial

end Verif.Mem.Attrs
