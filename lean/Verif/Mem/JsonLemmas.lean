import Verif.Mem.Json
import Verif.Mem.AttrsProps
import Mathlib.Tactic.Linarith
import Mathlib.Tactic.IntervalCases

/-!
# Reading the text of a JSON value gives the value
-/
namespace Verif.Mem.Attrs
open Verif.Cont.Literal (hexDigits readHex charOf readHex_append charOf_toNat)

variable {φ : Type}

/-- What is assumed of the texts of floats: they are read back, and look like `1.0`, `-2.5e-07`, `NaN`, `-Infinity`. -/
structure FloatText.Good (F : FloatText φ) : Prop where
  back : ∀ f, F.read (F.text f) = some f
  chars : ∀ f, ∀ c ∈ F.text f, isTok c = true
  start : ∀ f, ∃ c t, F.text f = c :: t ∧ (c.isDigit = true ∨ c = '-' ∨ c = 'N' ∨ c = 'I')
  mark : ∀ f, ∃ c ∈ F.text f, c.isDigit = false ∧ c ≠ '-'

/-! ### Strings -/

theorem readUnicode_small (c : Char) (h : c.toNat < 65536) (s : Str) : readUnicode (hexDigits 4 c.toNat ++ s) = some (c, s) := by
  unfold readUnicode
  rw [readHex_append 4 0 _ s h]
  simp only [Nat.zero_mul, Nat.zero_add]
  have hv := c.valid
  have : ¬ (55296 ≤ c.toNat ∧ c.toNat ≤ 56319) := by
    rintro ⟨h1, h2⟩
    rcases hv with hv | ⟨hv, -⟩
    · exact absurd (show c.toNat < 55296 from hv) (by omega)
    · exact absurd (show 57343 < c.toNat from hv) (by omega)
  rw [if_neg this, charOf_toNat]
  rfl

theorem readUnicode_pair (k l v : Nat) (c : Char) (s : Str) (hk : k < 16 ^ 4) (hl : l < 16 ^ 4) (h1 : 55296 ≤ k ∧ k ≤ 56319)
    (h2 : 56320 ≤ l ∧ l ≤ 57343) (hv : 65536 + (k - 55296) * 1024 + (l - 56320) = v) (hc : charOf v = some c) :
    readUnicode (hexDigits 4 k ++ '\\' :: 'u' :: (hexDigits 4 l ++ s)) = some (c, s) := by
  unfold readUnicode
  rw [readHex_append 4 0 _ _ hk]
  simp only [Nat.zero_mul, Nat.zero_add]
  rw [if_pos h1, readHex_append 4 0 _ _ hl]
  simp only [Nat.zero_mul, Nat.zero_add]
  rw [if_pos h2, hv, hc]
  rfl

theorem pair_bounds (n : Nat) (h : 65536 ≤ n) (hn : n < 1114112) :
    55296 + (n - 65536) / 1024 ≤ 56319 ∧ 56320 + (n - 65536) % 1024 ≤ 57343 ∧
      65536 + (55296 + (n - 65536) / 1024 - 55296) * 1024 + (56320 + (n - 65536) % 1024 - 56320) = n := by
  obtain ⟨m, rfl⟩ := Nat.exists_eq_add_of_le h
  rw [Nat.add_sub_cancel_left, Nat.add_sub_cancel_left, Nat.add_sub_cancel_left]
  have : m < 1048576 := by omega
  refine ⟨by omega, by omega, by omega⟩

theorem readUnicode_large (c : Char) (h : 65536 ≤ c.toNat) (s : Str) :
    readUnicode (hexDigits 4 (55296 + (c.toNat - 65536) / 1024) ++ '\\' :: 'u' :: (hexDigits 4 (56320 + (c.toNat - 65536) % 1024) ++ s)) =
      some (c, s) := by
  obtain ⟨h1, h2, h3⟩ := pair_bounds c.toNat h (by
    rcases c.valid with h | ⟨_, h⟩
    · have : c.toNat < 55296 := h
      omega
    · exact h)
  have h16 : (16 : Nat) ^ 4 = 65536 := by norm_num
  exact readUnicode_pair _ _ c.toNat c s (by rw [h16]; exact lt_of_le_of_lt h1 (by norm_num))
    (by rw [h16]; exact lt_of_le_of_lt h2 (by norm_num)) ⟨Nat.le_add_right _ _, h1⟩ ⟨Nat.le_add_right _ _, h2⟩ h3 (charOf_toNat c)

theorem ofNat_eq (c : Char) (k : Nat) (h : c.toNat = k) : Char.ofNat k = c := by
  rw [← h, Char.ofNat_toNat]

theorem readChars_escape (c : Char) (n : Nat) (s : Str) :
    readChars (n + 1) (jsonEscape c ++ s) = (readChars n s).map fun r => (c :: r.1, r.2) := by
  have esc : ∀ t d rest, readEsc t = some (d, rest) →
      readChars (n + 1) ('\\' :: t) = (readChars n rest).map fun r => (d :: r.1, r.2) := by
    intro t d rest h
    rw [readChars, if_neg (by decide), if_pos rfl, h]
    rfl
  unfold jsonEscape
  by_cases h1 : c = '"'
  · rw [if_pos h1, h1]; exact esc _ _ _ rfl
  rw [if_neg h1]
  by_cases h2 : c = '\\'
  · rw [if_pos h2, h2]; exact esc _ _ _ rfl
  rw [if_neg h2]
  by_cases h3 : c = '\n'
  · rw [if_pos h3, h3]; exact esc _ _ _ rfl
  rw [if_neg h3]
  by_cases h4 : c = '\r'
  · rw [if_pos h4, h4]; exact esc _ _ _ rfl
  rw [if_neg h4]
  by_cases h5 : c = '\t'
  · rw [if_pos h5, h5]; exact esc _ _ _ rfl
  rw [if_neg h5]
  by_cases h6 : c.toNat = 8
  · rw [if_pos h6]
    have := ofNat_eq c 8 h6
    rw [List.cons_append, List.cons_append, List.nil_append]
    refine esc _ _ _ ?_
    rw [← this]
    rfl
  rw [if_neg h6]
  by_cases h7 : c.toNat = 12
  · rw [if_pos h7]
    have := ofNat_eq c 12 h7
    rw [List.cons_append, List.cons_append, List.nil_append]
    refine esc _ _ _ ?_
    rw [← this]
    rfl
  rw [if_neg h7]
  by_cases h8 : 32 ≤ c.toNat ∧ c.toNat ≤ 126
  · rw [if_pos h8, List.cons_append, List.nil_append, readChars, if_neg h1, if_neg h2, if_neg (by omega)]
  rw [if_neg h8]
  by_cases h9 : c.toNat < 65536
  · rw [if_pos h9, List.cons_append, List.cons_append]
    refine esc _ _ _ ?_
    rw [readEsc, if_neg (by decide), if_neg (by decide), if_neg (by decide), if_neg (by decide), if_neg (by decide), if_neg (by decide), if_pos rfl]
    exact readUnicode_small c h9 s
  rw [if_neg h9, List.append_assoc, List.cons_append, List.cons_append]
  refine esc _ _ _ ?_
  rw [readEsc, if_neg (by decide), if_neg (by decide), if_neg (by decide), if_neg (by decide), if_neg (by decide), if_neg (by decide), if_pos rfl]
  exact readUnicode_large c (by omega) s

theorem jsonEscape_length (c : Char) : 1 ≤ (jsonEscape c).length := by
  unfold jsonEscape
  repeat' split
  all_goals simp

theorem readChars_all (s rest : Str) (n : Nat) (hn : s.length < n) :
    readChars n (s.flatMap jsonEscape ++ '"' :: rest) = some (s, rest) := by
  induction s generalizing n with
  | nil =>
    obtain ⟨m, rfl⟩ : ∃ m, n = m + 1 := ⟨n - 1, by simp at hn; omega⟩
    rw [List.flatMap_nil, List.nil_append, readChars, if_pos rfl]
  | cons c s ih =>
    obtain ⟨m, rfl⟩ : ∃ m, n = m + 1 := ⟨n - 1, by simp at hn; omega⟩
    rw [List.flatMap_cons, List.append_assoc, readChars_escape, ih m (by simpa using hn)]
    rfl

theorem jsonFlat_length (s : Str) : s.length ≤ (s.flatMap jsonEscape).length := by
  induction s with
  | nil => simp
  | cons c s ih =>
    have := jsonEscape_length c
    simp only [List.flatMap_cons, List.length_append, List.length_cons]
    omega

theorem readChars_str (s rest : Str) :
    readChars ((s.flatMap jsonEscape ++ '"' :: rest).length + 1) (s.flatMap jsonEscape ++ '"' :: rest) = some (s, rest) := by
  apply readChars_all
  have := jsonFlat_length s
  simp only [List.length_append]
  omega

/-! ### Words and numbers -/

/-- A text that does not go on with a character of a word. -/
def Ends (rest : Str) : Prop := ∀ c t, rest = c :: t → isTok c = false

theorem takeWhile_tok (t rest : Str) (ht : ∀ c ∈ t, isTok c = true) (hr : Ends rest) :
    (t ++ rest).takeWhile isTok = t ∧ (t ++ rest).dropWhile isTok = rest := by
  induction t with
  | nil =>
    cases rest with
    | nil => simp
    | cons c r =>
      have := hr c r rfl
      simp [this]
  | cons c t ih =>
    have h1 := ht c (by simp)
    have h2 := ih fun d hd => ht d (by simp [hd])
    simp only [List.cons_append]
    rw [List.takeWhile_cons_of_pos h1, List.dropWhile_cons_of_pos h1, h2.1, h2.2]
    exact ⟨rfl, rfl⟩

theorem digit_tok (c : Char) (h : c.isDigit = true) : isTok c = true := by
  unfold isTok Char.isAlphanum
  simp [h]

theorem digits_digit (n : Nat) (c : Char) (h : c ∈ Nat.toDigits 10 n) : c.isDigit = true :=
  Nat.isDigit_of_mem_toDigits (by decide) (by decide) h

theorem digits_ne (n : Nat) : Nat.toDigits 10 n ≠ [] := by
  intro h
  have : Nat.ofDigitChars 10 (Nat.toDigits 10 n) 0 = n := Nat.ofDigitChars_toDigits (by decide) (by decide)
  have h2 := Nat.length_toDigits_pos (b := 10) (n := n)
  rw [h] at h2
  simp at h2

theorem digits_head (n : Nat) : ∃ c t, Nat.toDigits 10 n = c :: t ∧ c.isDigit = true := by
  cases h : Nat.toDigits 10 n with
  | nil => exact absurd h (digits_ne n)
  | cons c t => exact ⟨c, t, rfl, digits_digit n c (by rw [h]; simp)⟩

theorem readInt_intText (i : Int) : readInt (intText i) = some i := by
  have back : ∀ n, Nat.ofDigitChars 10 (Nat.toDigits 10 n) 0 = n := fun n => Nat.ofDigitChars_toDigits (by decide) (by decide)
  cases i with
  | ofNat n =>
    obtain ⟨c, t, h, hd⟩ := digits_head n
    rw [intText, readInt]
    · rw [if_pos ⟨digits_ne n, by rw [back]⟩, back]
      rfl
    · intro ds e
      rw [h] at e
      have : c = '-' := (List.cons.inj e).1
      rw [this] at hd
      exact absurd hd (by decide)
  | negSucc n =>
    rw [intText, readInt, if_pos ⟨digits_ne _, by rw [back]⟩, back]
    rfl

theorem readInt_digits (t : Str) (i : Int) (h : readInt t = some i) : ∀ c ∈ t, c.isDigit = true ∨ c = '-' := by
  unfold readInt at h
  split at h
  · next ds =>
    split at h
    · next hc =>
      intro c hm
      rcases List.mem_cons.1 hm with e | hm
      · exact .inr e
      · left
        rw [← hc.2] at hm
        exact digits_digit _ c hm
    · cases h
  · split at h
    · next hc =>
      intro c hm
      left
      rw [← hc.2] at hm
      exact digits_digit _ c hm
    · cases h

theorem intText_tok (i : Int) : ∀ c ∈ intText i, isTok c = true := by
  cases i with
  | ofNat n => exact fun c hc => digit_tok c (digits_digit n c hc)
  | negSucc n =>
    intro c hc
    rcases List.mem_cons.1 hc with rfl | hc
    · decide
    · exact digit_tok c (digits_digit _ c hc)

theorem intText_start (i : Int) : ∃ c t, intText i = c :: t ∧ (c.isDigit = true ∨ c = '-') := by
  cases i with
  | ofNat n =>
    obtain ⟨c, t, h, hd⟩ := digits_head n
    exact ⟨c, t, h, .inl hd⟩
  | negSucc n => exact ⟨'-', _, rfl, .inr rfl⟩

/-- A text that begins like a number is not one of the words. -/
theorem not_word (t : Str) (c : Char) (r : Str) (h : t = c :: r) (hc : c.isDigit = true ∨ c = '-' ∨ c = 'N' ∨ c = 'I') :
    t ≠ "null".toList ∧ t ≠ "true".toList ∧ t ≠ "false".toList := by
  subst h
  refine ⟨?_, ?_, ?_⟩
  all_goals
    intro e
    have e := (List.cons.inj e).1
    subst e
    revert hc
    decide

theorem readAtom_int (F : FloatText φ) (i : Int) : readAtom F (intText i) = some (.int i) := by
  obtain ⟨c, t, h, hc⟩ := intText_start i
  obtain ⟨h1, h2, h3⟩ := not_word _ c t h (hc.elim .inl fun e => .inr (.inl e))
  unfold readAtom
  rw [if_neg h1, if_neg h2, if_neg h3, readInt_intText]

theorem readAtom_float (F : FloatText φ) (hF : F.Good) (f : φ) : readAtom F (F.text f) = some (.float f) := by
  obtain ⟨c, t, h, hc⟩ := hF.start f
  obtain ⟨h1, h2, h3⟩ := not_word _ c t h hc
  have hi : readInt (F.text f) = none := by
    cases e : readInt (F.text f) with
    | none => rfl
    | some i =>
      obtain ⟨d, hd, m1, m2⟩ := hF.mark f
      rcases readInt_digits _ i e d hd with h' | h'
      · rw [h'] at m1; cases m1
      · exact absurd h' m2
  unfold readAtom
  rw [if_neg h1, if_neg h2, if_neg h3, hi]
  simp only
  rw [hF.back]
  rfl

/-! ### Values -/

/-- Characters a value can begin with. -/
def Opens (c : Char) : Prop := c = '"' ∨ c = '[' ∨ c = '{' ∨ isTok c = true

theorem skipWs_cons (c : Char) (s : Str) (h : c ≠ ' ' ∧ c ≠ '\t' ∧ c ≠ '\n' ∧ c ≠ '\r') : skipWs (c :: s) = c :: s := by
  unfold skipWs
  rw [List.dropWhile_cons_of_neg]
  simp [h.1, h.2.1, h.2.2.1, h.2.2.2]

theorem tok_not (c : Char) (h : isTok c = true) :
    c ≠ ' ' ∧ c ≠ '\t' ∧ c ≠ '\n' ∧ c ≠ '\r' ∧ c ≠ '"' ∧ c ≠ '[' ∧ c ≠ '{' ∧ c ≠ ']' ∧ c ≠ '}' := by
  refine ⟨?_, ?_, ?_, ?_, ?_, ?_, ?_, ?_, ?_⟩ <;> (rintro rfl; revert h; decide)

theorem opens_skip (c : Char) (s : Str) (h : Opens c) : skipWs (c :: s) = c :: s := by
  apply skipWs_cons
  rcases h with rfl | rfl | rfl | h
  · decide
  · decide
  · decide
  · have := tok_not c h
    exact ⟨this.1, this.2.1, this.2.2.1, this.2.2.2.1⟩

theorem opens_not_close (c : Char) (h : Opens c) : c ≠ ']' ∧ c ≠ '}' := by
  rcases h with rfl | rfl | rfl | h
  · decide
  · decide
  · decide
  · have := tok_not c h
    exact ⟨this.2.2.2.2.2.2.2.1, this.2.2.2.2.2.2.2.2⟩

/-- A word or a number is read up to its end. -/
theorem readValue_atom (F : FloatText φ) (t rest : Str) (v : Val φ) (n : Nat) (hne : t ≠ []) (ht : ∀ c ∈ t, isTok c = true) (hr : Ends rest)
    (ha : readAtom F t = some v) : readValue F (n + 1) (t ++ rest) = some (v, rest) := by
  obtain ⟨c, r, rfl⟩ : ∃ c r, t = c :: r := by
    cases t with
    | nil => exact absurd rfl hne
    | cons c r => exact ⟨c, r, rfl⟩
  have hc := ht c (by simp)
  have hn := tok_not c hc
  obtain ⟨h1, h2⟩ := takeWhile_tok (c :: r) rest ht hr
  rw [List.cons_append] at h1 h2 ⊢
  rw [readValue, opens_skip c _ (.inr (.inr (.inr hc)))]
  simp only
  rw [if_neg hn.2.2.2.2.1, if_neg hn.2.2.2.2.2.1, if_neg hn.2.2.2.2.2.2.1, h1, h2, ha]
  rfl

theorem jsonEnc_opens (F : FloatText φ) (hF : F.Good) (v : Val φ) (hv : JsonPlain v) : ∃ c t, jsonEnc F v = c :: t ∧ Opens c := by
  cases v with
  | none => exact ⟨_, _, rfl, .inr (.inr (.inr (by decide)))⟩
  | bool b => cases b <;> exact ⟨_, _, rfl, .inr (.inr (.inr (by decide)))⟩
  | int i =>
    obtain ⟨c, t, h, -⟩ := intText_start i
    exact ⟨c, t, by rw [jsonEnc, h], .inr (.inr (.inr (intText_tok i c (by rw [h]; simp))))⟩
  | float f =>
    obtain ⟨c, t, h, -⟩ := hF.start f
    exact ⟨c, t, by rw [jsonEnc, h], .inr (.inr (.inr (hF.chars f c (by rw [h]; simp))))⟩
  | str s => exact ⟨_, _, rfl, .inl rfl⟩
  | list l => exact ⟨_, _, rfl, .inr (.inl rfl)⟩
  | dict d => exact ⟨_, _, rfl, .inr (.inr (.inl rfl))⟩
  | _ => exact hv.elim

theorem jsonElems_opens (F : FloatText φ) (hF : F.Good) (v : Val φ) (l : Vals φ) (hv : JsonPlain v) :
    ∃ c t, jsonElems F (.cons v l) = c :: t ∧ Opens c := by
  obtain ⟨c, t, h, ho⟩ := jsonEnc_opens F hF v hv
  cases l with
  | nil => exact ⟨c, t, by rw [jsonElems, h], ho⟩
  | cons w l =>
    refine ⟨c, t ++ ',' :: ' ' :: jsonElems F (.cons w l), ?_, ho⟩
    rw [jsonElems, h, List.cons_append]
    exact fun e => by cases e

theorem jsonMembers_opens (F : FloatText φ) (k v : Val φ) (d : Items φ) (hk : ∃ s, k = .str s ∧ ¬ HasKey s d) :
    ∃ c t, jsonMembers F (.cons k v d) = c :: t ∧ Opens c := by
  obtain ⟨s, rfl, -⟩ := hk
  cases d with
  | nil => exact ⟨_, _, by rw [jsonMembers, jsonEnc, jsonStr]; rfl, .inl rfl⟩
  | cons k' w d =>
    have e : jsonMembers F (.cons (.str s) v (.cons k' w d)) =
        jsonEnc F (.str s) ++ ':' :: ' ' :: (jsonEnc F v ++ ',' :: ' ' :: jsonMembers F (.cons k' w d)) := by
      rw [jsonMembers]
      exact fun e => by cases e
    exact ⟨_, _, by rw [e, jsonEnc, jsonStr]; rfl, .inl rfl⟩

theorem ends_comma (s : Str) : Ends (',' :: s) := by
  intro c t h
  rw [← (List.cons.inj h).1]
  decide

theorem ends_close (s : Str) : Ends (']' :: s) := by
  intro c t h
  rw [← (List.cons.inj h).1]
  decide

theorem ends_brace (s : Str) : Ends ('}' :: s) := by
  intro c t h
  rw [← (List.cons.inj h).1]
  decide

theorem skip_comma (s : Str) : skipWs (',' :: s) = ',' :: s := skipWs_cons _ _ (by decide)
theorem skip_colon (s : Str) : skipWs (':' :: s) = ':' :: s := skipWs_cons _ _ (by decide)
theorem skip_close (s : Str) : skipWs (']' :: s) = ']' :: s := skipWs_cons _ _ (by decide)
theorem skip_brace (s : Str) : skipWs ('}' :: s) = '}' :: s := skipWs_cons _ _ (by decide)

theorem skip_space (s : Str) : skipWs (' ' :: s) = skipWs s := by
  unfold skipWs
  rw [List.dropWhile_cons_of_pos (by decide)]

theorem readValue_space (F : FloatText φ) (n : Nat) (s : Str) : readValue F n (' ' :: s) = readValue F n s := by
  cases n with
  | zero => rw [readValue, readValue]
  | succ n => rw [readValue, readValue, skip_space]

theorem readElems_space (F : FloatText φ) (n : Nat) (s : Str) : readElems F n (' ' :: s) = readElems F n s := by
  cases n with
  | zero => rw [readElems, readElems]
  | succ n => rw [readElems, readElems, readValue_space]

theorem readMembers_space (F : FloatText φ) (n : Nat) (s : Str) : readMembers F n (' ' :: s) = readMembers F n s := by
  cases n with
  | zero => rw [readMembers, readMembers]
  | succ n => rw [readMembers, readMembers, skip_space]

theorem itemOf_none (s : Str) (d : Items φ) (h : ¬ HasKey s d) : itemOf s d = none := by
  match d with
  | .nil => rfl
  | .cons k v d =>
    rw [HasKey, not_or] at h
    have ih := itemOf_none s d h.2
    unfold itemOf
    split
    · next t =>
      rw [if_neg]
      · exact ih
      · intro e
        exact h.1 (by rw [e])
    · exact ih

mutual
theorem readValue_enc (F : FloatText φ) (hF : F.Good) : ∀ (v : Val φ), JsonPlain v → ∀ (rest : Str) (n : Nat), Ends rest →
    (jsonEnc F v).length < n → readValue F n (jsonEnc F v ++ rest) = some (v, rest)
  | .none, _, rest, n, hr, hn => by
    obtain ⟨m, rfl⟩ : ∃ m, n = m + 1 := ⟨n - 1, by omega⟩
    exact readValue_atom F _ rest _ m (by rw [jsonEnc]; decide) (by rw [jsonEnc]; decide) hr rfl
  | .bool true, _, rest, n, hr, hn => by
    obtain ⟨m, rfl⟩ : ∃ m, n = m + 1 := ⟨n - 1, by omega⟩
    exact readValue_atom F _ rest _ m (by rw [jsonEnc]; decide) (by rw [jsonEnc]; decide) hr rfl
  | .bool false, _, rest, n, hr, hn => by
    obtain ⟨m, rfl⟩ : ∃ m, n = m + 1 := ⟨n - 1, by omega⟩
    exact readValue_atom F _ rest _ m (by rw [jsonEnc]; decide) (by rw [jsonEnc]; decide) hr rfl
  | .int i, _, rest, n, hr, hn => by
    obtain ⟨m, rfl⟩ : ∃ m, n = m + 1 := ⟨n - 1, by omega⟩
    obtain ⟨c, t, h, -⟩ := intText_start i
    exact readValue_atom F _ rest _ m (by rw [jsonEnc, h]; simp) (intText_tok i) hr (readAtom_int F i)
  | .float f, _, rest, n, hr, hn => by
    obtain ⟨m, rfl⟩ : ∃ m, n = m + 1 := ⟨n - 1, by omega⟩
    obtain ⟨c, t, h, -⟩ := hF.start f
    exact readValue_atom F _ rest _ m (by rw [jsonEnc, h]; simp) (hF.chars f) hr (readAtom_float F hF f)
  | .str s, _, rest, n, hr, hn => by
    obtain ⟨m, rfl⟩ : ∃ m, n = m + 1 := ⟨n - 1, by omega⟩
    rw [jsonEnc, jsonStr, List.append_assoc, List.cons_append, List.singleton_append, readValue, opens_skip _ _ (.inl rfl)]
    simp only
    rw [if_pos trivial, readChars_str]
    rfl
  | .list l, h, rest, n, hr, hn => by
    obtain ⟨m, rfl⟩ : ∃ m, n = m + 1 := ⟨n - 1, by omega⟩
    rw [jsonEnc, List.append_assoc, List.cons_append, List.singleton_append, readValue, opens_skip _ _ (.inr (.inl rfl))]
    simp only
    rw [if_neg (by decide), if_pos trivial]
    rw [jsonEnc, List.length_append, List.length_cons, List.length_singleton] at hn
    cases l with
    | nil =>
      rw [jsonElems, List.nil_append, skip_close]
      simp only
      rw [if_pos trivial]
    | cons v l =>
      have hne : (Vals.cons v l) ≠ Vals.nil := fun e => by cases e
      have ih := readElems_enc F hF (.cons v l) h hne rest m (by omega)
      obtain ⟨c, t, e, ho⟩ := jsonElems_opens F hF v l h.1
      rw [e, List.cons_append, opens_skip c _ ho]
      simp only
      rw [if_neg (opens_not_close c ho).1, ← List.cons_append, ← e, ih]
      rfl
  | .dict d, h, rest, n, hr, hn => by
    obtain ⟨m, rfl⟩ : ∃ m, n = m + 1 := ⟨n - 1, by omega⟩
    rw [jsonEnc, List.append_assoc, List.cons_append, List.singleton_append, readValue, opens_skip _ _ (.inr (.inr (.inl rfl)))]
    simp only
    rw [if_neg (by decide), if_neg (by decide), if_pos trivial]
    rw [jsonEnc, List.length_append, List.length_cons, List.length_singleton] at hn
    cases d with
    | nil =>
      rw [jsonMembers, List.nil_append, skip_brace]
      simp only
      rw [if_pos trivial]
    | cons k v d =>
      have hne : (Items.cons k v d) ≠ Items.nil := fun e => by cases e
      have ih := readMembers_enc F hF (.cons k v d) h hne rest m (by omega)
      obtain ⟨c, t, e, ho⟩ := jsonMembers_opens F k v d h.1
      rw [e, List.cons_append, opens_skip c _ ho]
      simp only
      rw [if_neg (opens_not_close c ho).2, ← List.cons_append, ← e, ih]
      rfl
  | .bytes _, h, _, _, _, _ => h.elim
  | .datetime _, h, _, _, _, _ => h.elim
  | .npbool _, h, _, _, _, _ => h.elim
  | .npint _, h, _, _, _, _ => h.elim
  | .npfloat _, h, _, _, _, _ => h.elim
  | .arrI _, h, _, _, _, _ => h.elim
  | .arrF _, h, _, _, _, _ => h.elim
  | .arrO _, h, _, _, _, _ => h.elim
  | .arrU _, h, _, _, _, _ => h.elim
  | .arrS _, h, _, _, _, _ => h.elim
theorem readElems_enc (F : FloatText φ) (hF : F.Good) : ∀ (l : Vals φ), PlainList l → l ≠ .nil → ∀ (rest : Str) (n : Nat),
    (jsonElems F l).length + 1 < n → readElems F n (jsonElems F l ++ ']' :: rest) = some (l, rest)
  | .nil, _, hne, _, _, _ => absurd rfl hne
  | .cons v .nil, h, _, rest, n, hn => by
    obtain ⟨m, rfl⟩ : ∃ m, n = m + 1 := ⟨n - 1, by omega⟩
    rw [jsonElems] at hn ⊢
    rw [readElems, readValue_enc F hF v h.1 (']' :: rest) m (ends_close rest) (by omega)]
    simp only
    rw [skip_close]
    simp only
    rw [if_neg (by decide), if_pos trivial]
  | .cons v (.cons w l), h, _, rest, n, hn => by
    obtain ⟨m, rfl⟩ : ∃ m, n = m + 1 := ⟨n - 1, by omega⟩
    have e : jsonElems F (.cons v (.cons w l)) = jsonEnc F v ++ ',' :: ' ' :: jsonElems F (.cons w l) := by
      rw [jsonElems]
      exact fun e => by cases e
    rw [e, List.length_append, List.length_cons, List.length_cons] at hn
    have ih := readElems_enc F hF (.cons w l) h.2 (fun e => by cases e) rest m (by omega)
    rw [e, List.append_assoc, List.cons_append, List.cons_append, readElems,
      readValue_enc F hF v h.1 (',' :: ' ' :: (jsonElems F (.cons w l) ++ ']' :: rest)) m (ends_comma _) (by omega)]
    simp only
    rw [skip_comma]
    simp only
    rw [if_pos trivial, readElems_space, ih]
    rfl
theorem readMembers_enc (F : FloatText φ) (hF : F.Good) : ∀ (d : Items φ), PlainItems d → d ≠ .nil → ∀ (rest : Str) (n : Nat),
    (jsonMembers F d).length + 1 < n → readMembers F n (jsonMembers F d ++ '}' :: rest) = some (d, rest)
  | .nil, _, hne, _, _, _ => absurd rfl hne
  | .cons k v .nil, h, _, rest, n, hn => by
    obtain ⟨m, rfl⟩ : ∃ m, n = m + 1 := ⟨n - 1, by omega⟩
    obtain ⟨⟨s, rfl, -⟩, hv, -⟩ := h
    rw [jsonMembers, List.length_append, List.length_cons, List.length_cons] at hn
    rw [jsonMembers, jsonEnc, jsonStr]
    simp only [List.append_assoc, List.cons_append, List.nil_append]
    rw [readMembers, opens_skip _ _ (.inl rfl)]
    simp only
    rw [if_pos trivial, readChars_str]
    simp only
    rw [skip_colon]
    simp only
    rw [if_pos trivial, readValue_space, readValue_enc F hF v hv ('}' :: rest) m (ends_brace rest) (by omega)]
    simp only
    rw [skip_brace]
    simp only
    rw [if_neg (by decide), if_pos trivial]
  | .cons k v (.cons k' w d), h, _, rest, n, hn => by
    obtain ⟨m, rfl⟩ : ∃ m, n = m + 1 := ⟨n - 1, by omega⟩
    obtain ⟨⟨s, rfl, hs⟩, hv, hd⟩ := h
    have e : jsonMembers F (.cons (.str s) v (.cons k' w d)) =
        jsonEnc F (.str s) ++ ':' :: ' ' :: (jsonEnc F v ++ ',' :: ' ' :: jsonMembers F (.cons k' w d)) := by
      rw [jsonMembers]
      exact fun e => by cases e
    rw [e, List.length_append, List.length_cons, List.length_cons, List.length_append, List.length_cons, List.length_cons] at hn
    have ih := readMembers_enc F hF (.cons k' w d) hd (fun e => by cases e) rest m (by omega)
    rw [e, jsonEnc, jsonStr]
    simp only [List.append_assoc, List.cons_append, List.nil_append]
    rw [readMembers, opens_skip _ _ (.inl rfl)]
    simp only
    rw [if_pos trivial, readChars_str]
    simp only
    rw [skip_colon]
    simp only
    rw [if_pos trivial, readValue_space,
      readValue_enc F hF v hv (',' :: ' ' :: (jsonMembers F (.cons k' w d) ++ '}' :: rest)) m (ends_comma _) (by omega)]
    simp only
    rw [skip_comma]
    simp only
    rw [if_pos trivial, readMembers_space, ih]
    simp only [Option.map_some]
    unfold addItem
    rw [itemOf_none s _ hs]
end

/-! ### The characters of a text -/

/-- A printable ASCII character. -/
def Ascii (c : Char) : Prop := 32 ≤ c.toNat ∧ c.toNat ≤ 126

instance (c : Char) : Decidable (Ascii c) := by unfold Ascii; infer_instance

theorem hexDigits_ascii (n k : Nat) : ∀ c ∈ hexDigits n k, Ascii c := by
  induction n generalizing k with
  | zero => intro c hc; cases hc
  | succ n ih =>
    intro c hc
    rw [hexDigits, List.mem_append, List.mem_singleton] at hc
    rcases hc with hc | rfl
    · exact ih _ c hc
    · have h : k % 16 < 16 := Nat.mod_lt _ (by decide)
      generalize k % 16 = r at h
      interval_cases r <;> decide

theorem jsonEscape_ascii (a : Char) : ∀ c ∈ jsonEscape a, Ascii c := by
  unfold jsonEscape
  split
  · decide
  split
  · decide
  split
  · decide
  split
  · decide
  split
  · decide
  split
  · decide
  split
  · decide
  split
  · next h =>
    intro c hc
    rw [List.mem_singleton.1 hc]
    exact h
  have cons : ∀ (d : Char) (l : Str), Ascii d → (∀ c ∈ l, Ascii c) → ∀ c ∈ d :: l, Ascii c := by
    intro d l hd hl c hc
    rcases List.mem_cons.1 hc with rfl | hc
    · exact hd
    · exact hl c hc
  split
  · exact cons _ _ (by decide) (cons _ _ (by decide) (hexDigits_ascii _ _))
  · intro c hc
    rcases List.mem_append.1 hc with hc | hc
    · exact cons _ _ (by decide) (cons _ _ (by decide) (hexDigits_ascii _ _)) c hc
    · exact cons _ _ (by decide) (cons _ _ (by decide) (hexDigits_ascii _ _)) c hc

theorem tok_ascii (c : Char) (h : isTok c = true) : Ascii c := by
  unfold isTok at h
  simp only [Bool.or_eq_true, beq_iff_eq] at h
  rcases h with ((h | rfl) | rfl) | rfl
  · simp only [Char.isAlphanum, Char.isAlpha, Char.isUpper, Char.isLower, Char.isDigit, Bool.or_eq_true, Bool.and_eq_true,
      decide_eq_true_eq, ge_iff_le, UInt32.le_iff_toNat_le] at h
    have e : c.val.toNat = c.toNat := rfl
    rw [e] at h
    unfold Ascii
    rcases h with (⟨h1, h2⟩ | ⟨h1, h2⟩) | ⟨h1, h2⟩
    · have h1 : 65 ≤ c.toNat := h1
      have h2 : c.toNat ≤ 90 := h2
      omega
    · have h1 : 97 ≤ c.toNat := h1
      have h2 : c.toNat ≤ 122 := h2
      omega
    · have h1 : 48 ≤ c.toNat := h1
      have h2 : c.toNat ≤ 57 := h2
      omega
  all_goals decide

theorem mem_cons_ascii (d : Char) (l : Str) (hd : Ascii d) (hl : ∀ c ∈ l, Ascii c) : ∀ c ∈ d :: l, Ascii c := by
  intro c hc
  rcases List.mem_cons.1 hc with rfl | hc
  · exact hd
  · exact hl c hc

theorem append_ascii (k l : Str) (hk : ∀ c ∈ k, Ascii c) (hl : ∀ c ∈ l, Ascii c) : ∀ c ∈ k ++ l, Ascii c := by
  intro c hc
  rcases List.mem_append.1 hc with hc | hc
  · exact hk c hc
  · exact hl c hc

theorem jsonStr_ascii (s : Str) : ∀ c ∈ jsonStr s, Ascii c := by
  refine append_ascii _ _ (mem_cons_ascii _ _ (by decide) ?_) (by decide)
  intro c hc
  obtain ⟨a, -, ha⟩ := List.mem_flatMap.1 hc
  exact jsonEscape_ascii a c ha

mutual
theorem jsonEnc_ascii (F : FloatText φ) (hF : F.Good) : ∀ v : Val φ, ∀ c ∈ jsonEnc F v, Ascii c
  | .none => by rw [jsonEnc]; decide
  | .bool true => by rw [jsonEnc]; decide
  | .bool false => by rw [jsonEnc]; decide
  | .int i => by rw [jsonEnc]; exact fun c hc => tok_ascii c (intText_tok i c hc)
  | .float f => by rw [jsonEnc]; exact fun c hc => tok_ascii c (hF.chars f c hc)
  | .str s => by rw [jsonEnc]; exact jsonStr_ascii s
  | .list l => by
    rw [jsonEnc]
    exact append_ascii _ _ (mem_cons_ascii _ _ (by decide) (jsonElems_ascii F hF l)) (by decide)
  | .dict d => by
    rw [jsonEnc]
    exact append_ascii _ _ (mem_cons_ascii _ _ (by decide) (jsonMembers_ascii F hF d)) (by decide)
  | .bytes _ => fun _ h => by cases h
  | .datetime _ => fun _ h => by cases h
  | .npbool _ => fun _ h => by cases h
  | .npint _ => fun _ h => by cases h
  | .npfloat _ => fun _ h => by cases h
  | .arrI _ => fun _ h => by cases h
  | .arrF _ => fun _ h => by cases h
  | .arrO _ => fun _ h => by cases h
  | .arrU _ => fun _ h => by cases h
  | .arrS _ => fun _ h => by cases h
theorem jsonElems_ascii (F : FloatText φ) (hF : F.Good) : ∀ l : Vals φ, ∀ c ∈ jsonElems F l, Ascii c
  | .nil => fun _ h => by cases h
  | .cons v .nil => by rw [jsonElems]; exact jsonEnc_ascii F hF v
  | .cons v (.cons w l) => by
    rw [jsonElems]
    · exact append_ascii _ _ (jsonEnc_ascii F hF v)
        (mem_cons_ascii _ _ (by decide) (mem_cons_ascii _ _ (by decide) (jsonElems_ascii F hF (.cons w l))))
    · exact fun e => by cases e
theorem jsonMembers_ascii (F : FloatText φ) (hF : F.Good) : ∀ d : Items φ, ∀ c ∈ jsonMembers F d, Ascii c
  | .nil => fun _ h => by cases h
  | .cons k v .nil => by
    rw [jsonMembers]
    exact append_ascii _ _ (jsonEnc_ascii F hF k) (mem_cons_ascii _ _ (by decide) (mem_cons_ascii _ _ (by decide) (jsonEnc_ascii F hF v)))
  | .cons k v (.cons k' w d) => by
    rw [jsonMembers]
    · exact append_ascii _ _ (jsonEnc_ascii F hF k) (mem_cons_ascii _ _ (by decide) (mem_cons_ascii _ _ (by decide)
        (append_ascii _ _ (jsonEnc_ascii F hF v)
          (mem_cons_ascii _ _ (by decide) (mem_cons_ascii _ _ (by decide) (jsonMembers_ascii F hF (.cons k' w d)))))))
    · exact fun e => by cases e
end

theorem jsonDec_enc (F : FloatText φ) (hF : F.Good) (v : Val φ) (hv : JsonPlain v) : jsonDec F (jsonEnc F v) = .ok v := by
  have h := readValue_enc F hF v hv [] ((jsonEnc F v).length + 1) (fun c t e => by cases e) (by omega)
  rw [List.append_nil] at h
  unfold jsonDec
  rw [h]
  rfl

end Verif.Mem.Attrs
