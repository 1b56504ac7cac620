import Verif.Mem.JsonLemmas

/-!
# C33 with python's `json`

What `AttrsProps` assumes of the encoder and the decoder holds for them, if the text of a float is read back as the float.
-/
namespace Verif.Mem.Attrs
variable {φ : Type}

/-- C33: `json.loads` inverts the encoder on every value that JSON can hold, however deep, whatever characters its strings
have. The text consists of printable ASCII characters. -/
theorem C33_json (F : FloatText φ) (hF : F.Good) (v : Val φ) (hv : JsonPlain v) :
    jsonDec F (jsonEnc F v) = .ok v ∧ ∀ c ∈ jsonEnc F v, 32 ≤ c.toNat ∧ c.toNat ≤ 126 :=
  ⟨jsonDec_enc F hF v hv, jsonEnc_ascii F hF v⟩

/-- What `AttrsProps` assumes. -/
theorem jsonLib (L : Lib φ) (F : FloatText φ) (hF : F.Good) : JsonLib (L.withJson F) where
  dec_enc v hv := jsonDec_enc F hF v hv
  no_nul v := by
    rw [Bool.eq_false_iff]
    intro h
    have := (jsonEnc_ascii F hF v _ (List.contains_iff_mem.1 h)).1
    revert this
    decide

/-- C33: an attribute that is a dictionary of values that JSON can hold comes back equal from both formats. -/
theorem C33_round_trip_json_partial (L : Lib φ) (F : FloatText φ) (hF : F.Good) (dest : Dest) (hd : dest ≠ .memory) (v : Val φ)
    (h : Survives dest v) : roundTrip (L.withJson F) dest v = .ok v :=
  C33_round_trip_partial _ (jsonLib L F hF) dest hd v h

/-- C33: what stands in the file for a dictionary: the mark and the JSON text. -/
theorem C33_marker_json (L : Lib φ) (F : FloatText φ) (hF : F.Good) (d : Items φ) (h : PlainItems d) (dest : Dest) (hd : dest ≠ .memory) :
    convert (L.withJson F) dest (.dict d) = .ok (.str ("!!_memh5_json:".toList ++ jsonEnc F (.dict d))) :=
  (C33_marker _ (jsonLib L F hF) d h).1 dest hd

/-- C33 fails for every string of the mark and the digits of an integer: it comes back as the integer. -/
theorem C33_prefix_digits_violated (L : Lib φ) (F : FloatText φ) (hF : F.Good) (i : Int) (hi : -(2 ^ 63) ≤ i ∧ i < 2 ^ 64) (dest : Dest)
    (hd : dest ≠ .memory) : roundTrip (L.withJson F) dest (.str ("!!_memh5_json:".toList ++ intText i)) = .ok (.int i) :=
  (C33_prefix_violated (L.withJson F) (intText i) i hi (by
    show jsonDec F (intText i) = _
    have := jsonDec_enc F hF (.int i) trivial
    rwa [jsonEnc] at this)).1 dest hd

/-- C33 fails for the mark alone: it cannot be written. -/
theorem C33_prefix_alone_violated (L : Lib φ) (F : FloatText φ) (dest : Dest) :
    roundTrip (L.withJson F) dest (.str "!!_memh5_json:".toList) = .error .valueError := by
  have := C33_prefix_error_violated (L.withJson F) [] .valueError rfl dest
  rwa [List.append_nil] at this

/-! ## Cases -/

/-- Floats that are whole numbers, as an example: `1.0`, `-3.0`. -/
def wholes : FloatText Int where
  text i := intText i ++ ['.', '0']
  read s := readInt (s.take (s.length - 2))

theorem wholes_good : wholes.Good where
  back f := by
    show readInt ((intText f ++ ['.', '0']).take ((intText f ++ ['.', '0']).length - 2)) = some f
    have : (intText f ++ ['.', '0']).length - 2 = (intText f).length := by simp
    rw [this, List.take_left]
    exact readInt_intText f
  chars f c hc := by
    rcases List.mem_append.1 hc with hc | hc
    · exact intText_tok f c hc
    · have : ∀ d ∈ ['.', '0'], isTok d = true := by decide
      exact this c hc
  start f := by
    obtain ⟨c, t, h, hc⟩ := intText_start f
    refine ⟨c, t ++ ['.', '0'], ?_, hc.elim .inl fun e => .inr (.inl e)⟩
    show intText f ++ ['.', '0'] = _
    rw [h]
    rfl
  mark f := ⟨'.', List.mem_append_right _ (by decide), by decide, by decide⟩

/-- A library for which the assumptions hold. -/
def exLib : Lib Int := Lib.withJson
  { enc := fun _ => [], dec := fun _ => .error .valueError, decode := fun _ => .error .valueError, pyStr := fun v => jsonEnc wholes v,
    toFloat := id, keyStr := fun v => .ok (jsonEnc wholes v) } wholes

theorem exLib_json : JsonLib exLib := jsonLib _ wholes wholes_good

/-- A value with a list, strings with quotes and with characters outside ASCII, and a float. -/
def exVal : Val Int :=
  .dict (.cons (.str ['a']) (.list (.cons (.int (-3)) (.cons (.str ['"', 'é', '😀']) (.cons (.float 2) .nil))))
    (.cons (.str ['b']) (.dict .nil) .nil))

/-- Its text. -/
example : jsonEnc wholes exVal = "{\"a\": [-3, \"\\\"\\u00e9\\ud83d\\ude00\", 2.0], \"b\": {}}".toList := by decide +kernel

theorem exVal_plain : JsonPlain exVal := by
  refine ⟨⟨_, rfl, ?_⟩, ⟨trivial, trivial, trivial, trivial⟩, ⟨_, rfl, ?_⟩, trivial, trivial⟩
  · rintro (h | h)
    · cases h
    · exact h
  · exact id

example : jsonDec wholes (jsonEnc wholes exVal) = .ok exVal := (C33_json wholes wholes_good exVal exVal_plain).1

/-- White space is skipped, the last of equal keys counts, and other texts are refused. -/
example : (readValue wholes 40 " { \"k\" :1, \"l\":[ ] , \"k\": true } ".toList).map (fun p => (jsonEnc wholes p.1, p.2)) =
    some ("{\"k\": true, \"l\": []}".toList, [' ']) := by decide +kernel
example : jsonDec wholes "[1,]".toList = .error .valueError := by rfl
example : jsonDec wholes "01".toList = .error .valueError := by rfl
example : jsonDec wholes "1 2".toList = .error .valueError := by rfl

/-- A nested dictionary whose values include a string with the prefix comes back equal. -/
example : roundTrip exLib .h5py (.dict (.cons (.str ['a']) (.list (.cons (.int 3) (.cons (.str jsonPrefix) .nil))) .nil)) =
    .ok (.dict (.cons (.str ['a']) (.list (.cons (.int 3) (.cons (.str jsonPrefix) .nil))) .nil)) :=
  C33_round_trip_partial exLib exLib_json .h5py (by decide) _ ⟨⟨_, rfl, id⟩, ⟨trivial, trivial, trivial⟩, trivial⟩

example : roundTrip exLib .zarr exVal = .ok exVal :=
  C33_round_trip_json_partial _ wholes wholes_good .zarr (by decide) _ exVal_plain

example : convert exLib .zarr (.dict (.cons (.str ['a']) (.int 3) .nil)) = .ok (.str "!!_memh5_json:{\"a\": 3}".toList) :=
  C33_marker_json _ wholes wholes_good (.cons (.str ['a']) (.int 3) .nil) ⟨⟨_, rfl, id⟩, trivial, trivial⟩ .zarr (by decide)

example : convert exLib .memory (.str ("!!_memh5_json:".toList ++ exLib.enc (.dict (.cons (.str ['a']) (.int 3) .nil)))) =
    .ok (.dict (.cons (.str ['a']) (.int 3) .nil)) :=
  (C33_marker exLib exLib_json (.cons (.str ['a']) (.int 3) .nil) ⟨⟨_, rfl, id⟩, trivial, trivial⟩).2

example : roundTrip exLib .h5py (.str "hello".toList) = .ok (.str "hello".toList) :=
  C33_round_trip_partial exLib exLib_json .h5py (by decide) _ ⟨by decide, .inr (by decide)⟩

example : roundTrip exLib .h5py (.str "!!_memh5_json:5".toList) = .ok (.int 5) :=
  C33_prefix_digits_violated _ wholes wholes_good 5 (by decide) .h5py (by decide)

example : roundTrip exLib .h5py (.str (jsonPrefix ++ ['-', '5'])) = .ok (.int (-5)) :=
  (C33_prefix_violated exLib ['-', '5'] (-5) (by decide) rfl).1 .h5py (by decide)

example : roundTrip exLib .h5py (.list (.cons (.int 1) (.cons (.str ['a']) .nil))) = .ok (.arrO [['1'], ['a']]) :=
  C33_mixed_list_violated exLib 1 ['a']

example : roundTrip exLib .h5py (.list (Vals.ofList ([3, -4].map .int))) = .ok (.arrI [3, -4]) :=
  (C33_list_partial exLib).1 [3, -4] (by simp) (by decide)

example : roundTrip exLib .h5py (.datetime ['x']) = .ok (.str ['x']) := C33_datetime_violated exLib exLib_json ['x']

example : roundTrip exLib .h5py (.dict (.cons (.int 7) (.bool true) .nil)) = .ok (.dict (.cons (.str ['7']) (.bool true) .nil)) :=
  C33_integer_key_violated exLib exLib_json 7 (.bool true) trivial ['7'] rfl

example : roundTrip exLib .zarr (.arrI [4]) = .ok (.int 4) := C33_single_item_violated exLib exLib_json 4

end Verif.Mem.Attrs
