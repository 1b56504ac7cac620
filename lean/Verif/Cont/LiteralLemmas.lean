import Verif.Cont.Literal
import Mathlib.Tactic.IntervalCases

/-!
# Reading the text of a list of names gives the names
-/
namespace Verif.Cont.Literal

theorem hexVal_hexDigit (n : Nat) (h : n < 16) : hexVal (hexDigit n) = some n := by
  interval_cases n <;> decide

theorem readHex_append (n acc k : Nat) (s : Str) (h : k < 16 ^ n) :
    readHex n acc (hexDigits n k ++ s) = some (acc * 16 ^ n + k, s) := by
  suffices ∀ m acc k s, k < 16 ^ n → readHex (n + m) acc (hexDigits n k ++ s) = readHex m (acc * 16 ^ n + k) s by
    have := this 0 acc k s h
    simpa [readHex] using this
  clear h k acc s
  induction n with
  | zero =>
    intro m acc k s h
    have : k = 0 := by simpa using h
    subst this
    simp [hexDigits]
  | succ n ih =>
    intro m acc k s h
    have h16 : k / 16 < 16 ^ n := by
      rw [Nat.div_lt_iff_lt_mul (by decide), ← Nat.pow_succ]
      exact h
    rw [hexDigits, List.append_assoc, show n + 1 + m = n + (m + 1) by omega, ih (m + 1) acc (k / 16) _ h16]
    rw [List.cons_append, List.nil_append, readHex, hexVal_hexDigit _ (Nat.mod_lt _ (by decide))]
    simp only
    congr 1
    have e : acc * 16 ^ (n + 1) = acc * 16 ^ n * 16 := by rw [Nat.pow_succ, Nat.mul_assoc]
    rw [e]
    generalize acc * 16 ^ n = x
    omega

theorem charOf_toNat (c : Char) : charOf c.toNat = some c := by
  unfold charOf
  rw [if_pos (show c.toNat.isValidChar from c.valid), Char.ofNat_toNat]

theorem toNat_lt (c : Char) : c.toNat < 16 ^ 8 := by
  have := c.valid
  have h : c.toNat < 1114112 := by
    rcases this with h | ⟨_, h⟩
    · exact Nat.lt_trans h (by decide)
    · exact h
  exact Nat.lt_trans h (by decide)

theorem readHex_char (n : Nat) (c : Char) (s : Str) (h : c.toNat < 16 ^ n) :
    ((readHex n 0 (hexDigits n c.toNat ++ s)).bind fun p => (charOf p.1).map fun d => (d, p.2)) = some (c, s) := by
  rw [readHex_append n 0 _ s h, Option.bind_some, Nat.zero_mul, Nat.zero_add, charOf_toNat]
  rfl

/-- Reading the escaped form of a character gives the character. -/
theorem readBody_escape (printable : Char → Bool) (q c : Char)
    (hq : q = '\'' ∨ q = '"') (n : Nat) (s : Str) :
    readBody (n + 1) q (escape printable q c ++ s) = (readBody n q s).map fun r => (c :: r.1, r.2) := by
  have hbq : ¬ '\\' = q := by rcases hq with rfl | rfl <;> decide
  have esc : ∀ t d rest, readEscape t = some (d, rest) →
      readBody (n + 1) q ('\\' :: t) = (readBody n q rest).map fun r => (d :: r.1, r.2) := by
    intro t d rest h
    rw [readBody, if_neg hbq, if_neg (by decide), if_pos rfl, h]
    rfl
  have plain : c ≠ q → c ≠ '\\' → c ≠ '\n' → c ≠ '\r' →
      readBody (n + 1) q (c :: s) = (readBody n q s).map fun r => (c :: r.1, r.2) := by
    intro h1 h2 h3 h4
    rw [readBody, if_neg h1, if_neg (by simp [h3, h4]), if_neg h2]
  unfold escape
  by_cases h1 : c = q ∨ c = '\\'
  · rw [if_pos h1, List.cons_append, List.cons_append, List.nil_append]
    apply esc
    have : c = '\\' ∨ c = '\'' ∨ c = '"' := by
      rcases h1 with h | h
      · rcases hq with h' | h' <;> simp [h, h']
      · exact .inl h
    rw [readEscape, if_pos this]
  rw [if_neg h1]
  rw [not_or] at h1
  by_cases h2 : c = '\t'
  · rw [if_pos h2, h2]
    exact esc _ _ _ rfl
  rw [if_neg h2]
  by_cases h3 : c = '\n'
  · rw [if_pos h3, h3]
    exact esc _ _ _ rfl
  rw [if_neg h3]
  by_cases h4 : c = '\r'
  · rw [if_pos h4, h4]
    exact esc _ _ _ rfl
  rw [if_neg h4]
  have hx : c.toNat < 256 → readBody (n + 1) q (('\\' :: 'x' :: hexDigits 2 c.toNat) ++ s) = (readBody n q s).map fun r => (c :: r.1, r.2) := by
    intro h
    rw [List.cons_append, List.cons_append]
    apply esc
    rw [readEscape, if_neg (by decide), if_neg (by decide), if_neg (by decide), if_neg (by decide), if_pos rfl]
    exact readHex_char 2 c s h
  by_cases h5 : c.toNat < 32 ∨ c.toNat = 127
  · rw [if_pos h5]
    exact hx (by omega)
  rw [if_neg h5]
  by_cases h6 : c.toNat < 127
  · rw [if_pos h6]
    exact plain h1.1 h1.2 h3 h4
  rw [if_neg h6]
  by_cases h7 : printable c = true
  · rw [if_pos h7]
    exact plain h1.1 h1.2 h3 h4
  rw [if_neg h7]
  by_cases h8 : c.toNat < 256
  · rw [if_pos h8]
    exact hx h8
  rw [if_neg h8]
  by_cases h9 : c.toNat < 65536
  · rw [if_pos h9, List.cons_append, List.cons_append]
    apply esc
    rw [readEscape, if_neg (by decide), if_neg (by decide), if_neg (by decide), if_neg (by decide), if_neg (by decide), if_pos rfl]
    exact readHex_char 4 c s h9
  rw [if_neg h9, List.cons_append, List.cons_append]
  apply esc
  rw [readEscape, if_neg (by decide), if_neg (by decide), if_neg (by decide), if_neg (by decide), if_neg (by decide),
    if_neg (by decide), if_pos rfl]
  exact readHex_char 8 c s (toNat_lt c)

theorem escape_length (printable : Char → Bool) (q c : Char) : 1 ≤ (escape printable q c).length := by
  unfold escape
  repeat' split
  all_goals simp

theorem readBody_all (printable : Char → Bool) (q : Char) (hq : q = '\'' ∨ q = '"') (s rest : Str) (n : Nat) (hn : s.length < n) :
    readBody n q (s.flatMap (escape printable q) ++ q :: rest) = some (s, rest) := by
  induction s generalizing n with
  | nil =>
    obtain ⟨m, rfl⟩ : ∃ m, n = m + 1 := ⟨n - 1, by simp at hn; omega⟩
    rw [List.flatMap_nil, List.nil_append, readBody, if_pos rfl]
  | cons c s ih =>
    obtain ⟨m, rfl⟩ : ∃ m, n = m + 1 := ⟨n - 1, by simp at hn; omega⟩
    rw [List.flatMap_cons, List.append_assoc, readBody_escape printable q c hq, ih m (by simpa using hn)]
    rfl

theorem flatMap_length (printable : Char → Bool) (q : Char) (s : Str) : s.length ≤ (s.flatMap (escape printable q)).length := by
  induction s with
  | nil => simp
  | cons c s ih =>
    have := escape_length printable q c
    simp only [List.flatMap_cons, List.length_append, List.length_cons]
    omega

theorem quoteFor_or (s : Str) : quoteFor s = '\'' ∨ quoteFor s = '"' := by
  unfold quoteFor
  split
  · exact .inr rfl
  · exact .inl rfl

theorem readStr_repr (printable : Char → Bool) (s rest : Str) : readStr (reprStr printable s ++ rest) = some (s, rest) := by
  unfold reprStr
  rw [List.append_assoc, List.cons_append, readStr, if_pos (quoteFor_or s), List.singleton_append]
  apply readBody_all printable _ (quoteFor_or s)
  have := flatMap_length printable (quoteFor s) s
  simp only [List.length_append, List.length_cons]
  omega

theorem reprStr_length (printable : Char → Bool) (s : Str) : 2 ≤ (reprStr printable s).length := by
  unfold reprStr
  simp

theorem readItems_repr (printable : Char → Bool) (l : List Str) (hl : l ≠ []) (n : Nat) (hn : l.length ≤ n) :
    readItems n (reprItems printable l ++ [']']) = some l := by
  induction l generalizing n with
  | nil => exact absurd rfl hl
  | cons s l ih =>
    obtain ⟨m, rfl⟩ : ∃ m, n = m + 1 := ⟨n - 1, by simp at hn; omega⟩
    cases l with
    | nil =>
      rw [reprItems, readItems, readStr_repr]
      rfl
    | cons s' l =>
      rw [reprItems, readItems, List.append_assoc, List.append_assoc, readStr_repr]
      simp only [List.cons_append, List.nil_append]
      rw [ih (by simp) m (by simpa using hn)]
      rfl
      simp

theorem reprItems_length (printable : Char → Bool) (l : List Str) : l.length ≤ (reprItems printable l).length := by
  induction l with
  | nil => simp
  | cons s l ih =>
    have := reprStr_length printable s
    cases l with
    | nil => simp only [reprItems, List.length_cons, List.length_nil]; omega
    | cons s' l =>
      rw [reprItems]
      · simp only [List.length_append, List.length_cons] at *
        omega
      · simp

theorem literalEval_strList (printable : Char → Bool) (l : List Str) : literalEval (strList printable l) = some l := by
  cases l with
  | nil => rfl
  | cons s l =>
    have h : strList printable (s :: l) = '[' :: (reprItems printable (s :: l) ++ [']']) := rfl
    have hne : reprItems printable (s :: l) ++ [']'] ≠ [']'] := by
      intro e
      have := congrArg List.length e
      have h2 := reprItems_length printable (s :: l)
      simp only [List.length_append, List.length_cons] at this h2
      omega
    rw [h, literalEval]
    · apply readItems_repr _ _ (by simp)
      have := reprItems_length printable (s :: l)
      simp only [List.length_append]
      omega
    · exact hne

end Verif.Cont.Literal
