import Verif.Names.Model

/-!
# C106: names of constants
-/
namespace Verif.Names

variable {R : Type}

/-! ### Specification -/

/-- A word: not empty, without underscore. -/
def Word (w : Str) : Prop := w ≠ [] ∧ '_' ∉ w

/-- What a name is defined as, in the table or by an alias. -/
def Defined (globals : Str → Option (Thing R)) (aliases : Str → Option R) (name : Str) (t : Thing R) : Prop :=
  globals name = some t ∨ (globals name = none ∧ ∃ x, aliases name = some x ∧ t = .num x)

def Undefined (globals : Str → Option (Thing R)) (aliases : Str → Option R) (name : Str) : Prop :=
  ∀ t, ¬ Defined globals aliases name t

/-- The words of a name: what is between underscores. -/
inductive Words : Str → List Str → Prop
  | nil : Words [] []
  | under {s ws} : Words s ws → Words ('_' :: s) ws
  | last {w} : Word w → Words w [w]
  | word {w s ws} : Word w → Words s ws → Words (w ++ '_' :: s) (w :: ws)

/-! ### Lemmas -/

theorem split_ne (s : Str) : splitUnder s ≠ [] := by
  cases s with
  | nil => simp [splitUnder]
  | cons c cs =>
    rw [splitUnder]
    split
    · simp
    · split <;> simp

theorem split_word (w : Str) (h : '_' ∉ w) : splitUnder w = [w] := by
  induction w with
  | nil => rfl
  | cons c cs ih =>
    simp only [List.mem_cons, not_or] at h
    rw [splitUnder, if_neg (fun e => h.1 e.symm), ih h.2]

theorem split_append (w s : Str) (h : '_' ∉ w) : splitUnder (w ++ '_' :: s) = w :: splitUnder s := by
  induction w with
  | nil => simp [splitUnder]
  | cons c cs ih =>
    simp only [List.mem_cons, not_or] at h
    rw [List.cons_append, splitUnder, if_neg (fun e => h.1 e.symm), ih h.2]

theorem words_split {s : Str} {ws : List Str} (h : Words s ws) : (splitUnder s).filter (· ≠ []) = ws := by
  induction h with
  | nil => rfl
  | under _ ih => rw [splitUnder, if_pos rfl]; simpa using ih
  | last hw => rw [split_word _ hw.2]; simp [hw.1]
  | word hw _ ih => rw [split_append _ _ hw.2, List.filter_cons]; simp [hw.1]; simpa using ih

theorem words_exist (s : Str) : ∃ ws, Words s ws := by
  induction hn : s.length using Nat.strongRecOn generalizing s with
  | _ n ih =>
    by_cases hu : '_' ∈ s
    · obtain ⟨w, t, rfl, hw⟩ := List.eq_append_cons_of_mem hu
      obtain ⟨ws, hws⟩ := ih t.length (by subst hn; simp; omega) t rfl
      by_cases he : w = []
      · subst he; exact ⟨ws, .under hws⟩
      · exact ⟨w :: ws, .word ⟨he, hw⟩ hws⟩
    · by_cases he : s = []
      · subst he; exact ⟨[], .nil⟩
      · exact ⟨[s], .last ⟨he, hu⟩⟩

theorem words_mem {s : Str} {ws : List Str} (h : Words s ws) : ∀ w ∈ ws, Word w := by
  induction h with
  | nil => simp
  | under _ ih => exact ih
  | last hw => simpa using hw
  | word hw _ ih =>
    intro w hw'
    rcases List.mem_cons.mp hw' with rfl | h
    · exact hw
    · exact ih w h

variable (mul : R → R → R) (globals : Str → Option (Thing R)) (aliases : Str → Option R)

theorem at_defined {name : Str} {t : Thing R} (h : Defined globals aliases name t) (n : Nat) :
    getAttrAt mul globals aliases (n + 1) name = .ok t := by
  rw [getAttrAt]
  rcases h with h | ⟨h1, x, h2, rfl⟩
  · rw [h]
  · rw [h1]; simp only [h2]

theorem undefined_iff {name : Str} (h : Undefined globals aliases name) : globals name = none ∧ aliases name = none := by
  cases hg : globals name with
  | some t => exact absurd (.inl hg) (h t)
  | none =>
    cases ha : aliases name with
    | some x => exact absurd (.inr ⟨hg, x, ha, rfl⟩) (h (.num x))
    | none => exact ⟨rfl, rfl⟩

theorem at_word {w : Str} (hw : Word w) (h : Undefined globals aliases w) (n : Nat) :
    getAttrAt mul globals aliases (n + 1) w = .error .attributeError := by
  obtain ⟨h1, h2⟩ := undefined_iff globals aliases h
  rw [getAttrAt, h1]
  simp only [h2]
  have : splitPrefix w = .ok [w] := by
    have := words_split (Words.last hw)
    simp only [splitPrefix, this]; rfl
  rw [this]

theorem defined_or (name : Str) : (∃ t, Defined globals aliases name t) ∨ Undefined globals aliases name := by
  by_cases h : ∃ t, Defined globals aliases name t
  · exact .inl h
  · exact .inr fun t ht => h ⟨t, ht⟩

theorem at_pair {name a b : Str} (h : Undefined globals aliases name) (hw : Words name [a, b]) (n : Nat) :
    getAttrAt mul globals aliases (n + 1) name =
      match getAttrAt mul globals aliases n a with
      | .error e => .error e
      | .ok x =>
        match getAttrAt mul globals aliases n b with
        | .error e => .error e
        | .ok y => times mul x y := by
  obtain ⟨h1, h2⟩ := undefined_iff globals aliases h
  have hs : splitPrefix name = .ok [a, b] := by
    simp only [splitPrefix, words_split hw]; rfl
  rw [getAttrAt, h1]
  simp only [h2, hs]
  rfl

theorem at_other {name : Str} {ws : List Str} (h : Undefined globals aliases name) (hw : Words name ws)
    (hl : ws.length ≠ 2) (n : Nat) : getAttrAt mul globals aliases (n + 1) name = .error .attributeError := by
  obtain ⟨h1, h2⟩ := undefined_iff globals aliases h
  rw [getAttrAt, h1]
  simp only [h2, splitPrefix, words_split hw]
  by_cases h3 : ws.length > 2
  · simp [h3]
  · simp only [h3, if_false]
    match ws, hl with
    | [], _ => rfl
    | [_], _ => rfl
    | _ :: _ :: _ :: _, _ => rfl

/-- The bound on the recursion in the model plays no role. -/
theorem getAttr_depth (name : Str) (n : Nat) : getAttrAt mul globals aliases (n + 2) name = getAttr mul globals aliases name := by
  unfold getAttr
  rcases defined_or globals aliases name with ⟨t, h⟩ | h
  · rw [at_defined mul globals aliases h, at_defined mul globals aliases h]
  · obtain ⟨ws, hws⟩ := words_exist name
    by_cases hl : ws.length = 2
    · match ws, hl with
      | [a, b], _ =>
        have ha := words_mem hws a (by simp)
        have hb := words_mem hws b (by simp)
        have key : ∀ w, Word w → getAttrAt mul globals aliases (n + 1) w = getAttrAt mul globals aliases 1 w := by
          intro w hw
          rcases defined_or globals aliases w with ⟨t, h⟩ | h
          · rw [at_defined mul globals aliases h, at_defined mul globals aliases h]
          · rw [at_word mul globals aliases hw h, at_word mul globals aliases hw h]
        rw [at_pair mul globals aliases h hws, at_pair mul globals aliases h hws, key a ha, key b hb]
    · rw [at_other mul globals aliases h hws hl, at_other mul globals aliases h hws hl]

/-! ### Theorems -/

/-- **C106** (constants). A name that is defined, or has an alias, is found. -/
theorem C106_defined (name : Str) (t : Thing R) (h : Defined globals aliases name t) :
    getAttr mul globals aliases name = .ok t := at_defined mul globals aliases h 1

/-- **C106** (prefixes). A prefix and a unit, both without underscore in their names and with an underscore between them, make the product,
unless there is a constant of that name. Further underscores do not matter. -/
theorem C106_prefixed_partial (name p u : Str) (x y : R) (hw : Words name [p, u]) (h : Undefined globals aliases name)
    (hp : Defined globals aliases p (.num x)) (hu : Defined globals aliases u (.num y)) :
    getAttr mul globals aliases name = .ok (.num (mul x y)) := by
  unfold getAttr
  rw [at_pair mul globals aliases h hw, at_defined mul globals aliases hp, at_defined mul globals aliases hu]
  rfl

/-- A table for the examples: two prefixes, units, a constant with an underscore in its name, a function. -/
def table : Str → Option (Thing Nat) := fun s =>
  if s = "kilo".toList then some (.num 1000)
  else if s = "gram".toList then some (.num 1)
  else if s = "hour".toList then some (.num 3600)
  else if s = "day".toList then some (.num 86400)
  else if s = "electron_volt".toList then some (.num 16)
  else if s = "find".toList then some (.other 0)
  else none

def also : Str → Option Nat := fun s => if s = "k_B".toList then some 13 else none

theorem table_none {s : Str} (h : table s = none) (h' : also s = none) : Undefined table also s := by
  rintro t (e | ⟨-, x, e, -⟩)
  · rw [h] at e; cases e
  · rw [h'] at e; cases e

example : Words "kilo_gram".toList ["kilo".toList, "gram".toList] ∧ Undefined table also "kilo_gram".toList ∧
    Defined table also "kilo".toList (.num 1000) ∧ Defined table also "gram".toList (.num 1) :=
  ⟨.word (w := "kilo".toList) (s := "gram".toList) ⟨by decide, by decide⟩ (.last ⟨by decide, by decide⟩),
    table_none (by decide) (by decide), .inl (by decide), .inl (by decide)⟩

/-- **C106** (other names). A name that is not defined raises `AttributeError` if it does not consist of two words, or one of the two is
not defined. -/
theorem C106_unknown_partial (name : Str) (ws : List Str) (hw : Words name ws) (h : Undefined globals aliases name)
    (hu : ∀ a b, ws = [a, b] → Undefined globals aliases a ∨ Undefined globals aliases b) :
    getAttr mul globals aliases name = .error .attributeError := by
  unfold getAttr
  by_cases hl : ws.length = 2
  · match ws, hl with
    | [a, b], _ =>
      have ha := words_mem hw a (by simp)
      have hb := words_mem hw b (by simp)
      rw [at_pair mul globals aliases h hw]
      rcases defined_or globals aliases a with ⟨t, h1⟩ | h1
      · rw [at_defined mul globals aliases h1]
        rcases hu a b rfl with h2 | h2
        · exact absurd h1 (h2 t)
        · rw [at_word mul globals aliases hb h2]
      · rw [at_word mul globals aliases ha h1]
  · exact at_other mul globals aliases h hw hl 1

example : Words "kilo_parsec".toList ["kilo".toList, "parsec".toList] ∧ Undefined table also "kilo_parsec".toList ∧
    Undefined table also "parsec".toList :=
  ⟨.word (w := "kilo".toList) (s := "parsec".toList) ⟨by decide, by decide⟩ (.last ⟨by decide, by decide⟩),
    table_none (by decide) (by decide), table_none (by decide) (by decide)⟩

/-- Every name has words, so that the theorems above are about every name. -/
theorem C106_words (name : Str) : ∃ ws, Words name ws ∧ ∀ ws', Words name ws' → ws' = ws := by
  obtain ⟨ws, h⟩ := words_exist name
  exact ⟨ws, h, fun ws' h' => by rw [← words_split h, ← words_split h']⟩

/-- A unit whose name has an underscore cannot have a prefix: there is an `AttributeError`. -/
theorem C106_underscore_violated (p a b : Str) (hp : Word p) (ha : Word a) (hb : Word b)
    (h : Undefined globals aliases (p ++ '_' :: (a ++ '_' :: b))) :
    getAttr mul globals aliases (p ++ '_' :: (a ++ '_' :: b)) = .error .attributeError :=
  at_other mul globals aliases h (.word hp (.word ha (.last hb))) (by simp) 1

/-- The electron volt is in the table, and so is the prefix. -/
example : Word "kilo".toList ∧ Word "electron".toList ∧ Word "volt".toList ∧
    "electron".toList ++ '_' :: "volt".toList = "electron_volt".toList ∧
    Defined table also "electron_volt".toList (.num 16) ∧ Defined table also "kilo".toList (.num 1000) ∧
    Undefined table also ("kilo".toList ++ '_' :: ("electron".toList ++ '_' :: "volt".toList)) :=
  ⟨⟨by decide, by decide⟩, ⟨by decide, by decide⟩, ⟨by decide, by decide⟩, by decide, .inl (by decide), .inl (by decide),
    table_none (by decide) (by decide)⟩

/-- Any two constants are multiplied, in any order: two units, where neither is a prefix, or a unit with the prefix behind it. -/
theorem C106_any_pair_violated :
    getAttr (· * ·) table also "hour_day".toList = .ok (.num 311040000) ∧
    getAttr (· * ·) table also "gram_kilo".toList = .ok (.num 1000) ∧
    getAttr (· * ·) table also "__kilo___gram_".toList = .ok (.num 1000) := ⟨rfl, rfl, rfl⟩

/-- What is in the table but is no number, raises `TypeError` in place of `AttributeError`. -/
theorem C106_error_violated (name a b : Str) (x y : Thing R) (hw : Words name [a, b]) (h : Undefined globals aliases name)
    (ha : Defined globals aliases a x) (hb : Defined globals aliases b y) (ho : (∃ i, x = .other i) ∨ ∃ i, y = .other i) :
    getAttr mul globals aliases name = .error .typeError := by
  unfold getAttr
  rw [at_pair mul globals aliases h hw, at_defined mul globals aliases ha, at_defined mul globals aliases hb]
  rcases ho with ⟨i, rfl⟩ | ⟨i, rfl⟩
  · rfl
  · cases x <;> rfl

example : Words "kilo_find".toList ["kilo".toList, "find".toList] ∧ Undefined table also "kilo_find".toList ∧
    Defined table also "kilo".toList (.num 1000) ∧ Defined table also "find".toList (.other 0) :=
  ⟨.word (w := "kilo".toList) (s := "find".toList) ⟨by decide, by decide⟩ (.last ⟨by decide, by decide⟩),
    table_none (by decide) (by decide), .inl (by decide), .inl (by decide)⟩

end Verif.Names
