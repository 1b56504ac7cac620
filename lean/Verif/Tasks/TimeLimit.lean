import Mathlib.Data.List.SplitOn
import Mathlib.Tactic.Common
import Mathlib.Tactic.Ring

/-!
# C119: the time limit of a job

Models how the value of `time` in the cluster section gets into the job script: `yaml.safe_load` (`caput/pipeline/runner/_core.py:150-155` `_load_config`),
`str(value)` (`caput/pipeline/runner/_scheduler/__init__.py:446-448`), and `{time:s}` in the scripts of `_default_systems.toml` (12 and 68).

PyYAML's `SafeLoader` finds the type of a text without quotes by regular expressions (`yaml/resolver.py`); here texts are made of digits, colons and dashes only,
so of those for integers the ones for decimal, octal and base 60 numbers matter. A text with a dash is a string (dates, with two dashes, are left out).
-/
namespace Verif.Tasks.TimeLimit

abbrev Text := List Char

def isDigit (c : Char) : Bool := '0' ≤ c && c ≤ '9'

def value (c : Char) : Nat := c.toNat - '0'.toNat

/-- Python's `int(text)`. -/
def dec (t : Text) : Nat := t.foldl (fun n c => 10 * n + value c) 0

/-- Python's `int(text, 8)`. -/
def oct (t : Text) : Nat := t.foldl (fun n c => 8 * n + value c) 0

/-- `(?:0|[1-9][0-9_]*)`. -/
def isDecimal : Text → Bool
  | ['0'] => true
  | c :: cs => isDigit c && c != '0' && cs.all isDigit
  | [] => false

/-- `0[0-7_]+`. -/
def isOctal : Text → Bool
  | '0' :: c :: cs => (c :: cs).all fun c => isDigit c && c ≤ '7'
  | _ => false

/-- `[0-5]?[0-9]`. -/
def isSixty : Text → Bool
  | [c] => isDigit c
  | [c, d] => isDigit c && c ≤ '5' && isDigit d
  | _ => false

/-- `[1-9][0-9_]*(?::[0-5]?[0-9])+`. -/
def isBase60 (t : Text) : Bool :=
  match t.splitOn ':' with
  | (c :: cs) :: p :: ps => isDigit c && c != '0' && cs.all isDigit && (p :: ps).all isSixty
  | _ => false

/-- yaml/constructor.py `construct_yaml_int`: `digits.reverse()`, then each digit times its power of 60. -/
def base60 (t : Text) : Nat :=
  (((t.splitOn ':').map dec).reverse.foldl (fun (s : Nat × Nat) d => (s.1 + d * s.2, s.2 * 60)) (0, 1)).1

/-- A value of YAML. -/
inductive Yaml where
  | int (n : Nat)
  | str (t : Text)
  deriving DecidableEq

/-- What YAML makes of a text. -/
def load (quoted : Bool) (t : Text) : Yaml :=
  if quoted then .str t
  else if isOctal t then .int (oct t)
  else if isDecimal t then .int (dec t)
  else if isBase60 t then .int (base60 t)
  else .str t

/-- `str(value)`. -/
def toStr : Yaml → Text
  | .int n => Nat.toDigits 10 n
  | .str t => t

/-- The text of the limit in the script. -/
def inScript (quoted : Bool) (t : Text) : Text := toStr (load quoted t)

/-! ### What the queue systems make of it -/

/-- The numbers between the colons. -/
def numbers (t : Text) : Option (List Nat) :=
  let ps := t.splitOn ':'
  if ps.all fun p => !p.isEmpty && p.all isDigit then some (ps.map dec) else none

/-- The manual of `sbatch`: "Acceptable time formats include `minutes`, `minutes:seconds`, `hours:minutes:seconds`, `days-hours`, `days-hours:minutes` and
`days-hours:minutes:seconds`". In seconds. -/
def slurmLimit (t : Text) : Option Nat :=
  match t.splitOn '-' with
  | [u] =>
    match numbers u with
    | some [m] => some (60 * m)
    | some [m, s] => some (60 * m + s)
    | some [h, m, s] => some (3600 * h + 60 * m + s)
    | _ => none
  | [d, u] =>
    match numbers d, numbers u with
    | some [d], some [h] => some (86400 * d + 3600 * h)
    | some [d], some [h, m] => some (86400 * d + 3600 * h + 60 * m)
    | some [d], some [h, m, s] => some (86400 * d + 3600 * h + 60 * m + s)
    | _, _ => none
  | _ => none

/-- The manual of PBS (`pbs_resources`): a time is a number of seconds, or `[[hours:]minutes:]seconds`. -/
def pbsLimit (t : Text) : Option Nat :=
  match numbers t with
  | some [s] => some s
  | some [m, s] => some (60 * m + s)
  | some [h, m, s] => some (3600 * h + 60 * m + s)
  | _ => none

/-! ### Lemmas -/

theorem isDigit_iff (c : Char) : isDigit c = c.isDigit := by
  unfold isDigit Char.isDigit
  rfl

theorem dec_eq (t : Text) (n : Nat) : t.foldl (fun n c => 10 * n + value c) n = Nat.ofDigitChars 10 t n := by
  unfold Nat.ofDigitChars
  rfl

theorem dec_toDigits (n : Nat) : dec (Nat.toDigits 10 n) = n := by
  have := Nat.ofDigitChars_toDigits (b := 10) (n := n) (by decide) (by decide)
  rw [← dec_eq] at this
  exact this

theorem digits_all (n : Nat) : (Nat.toDigits 10 n).all isDigit = true := by
  rw [List.all_eq_true]
  intro c hc
  rw [isDigit_iff]
  exact Nat.isDigit_of_mem_toDigits (by decide) (by decide) hc

theorem splitOn_absent (t : Text) (c : Char) (h : c ∉ t) : t.splitOn c = [t] := by
  have := List.splitOn_intercalate c (ls := [t]) (by simpa using h) (by simp)
  simpa using this

theorem not_mem_digits {t : Text} (h : t.all isDigit = true) (c : Char) (hc : isDigit c = false) : c ∉ t := by
  intro hm
  rw [List.all_eq_true] at h
  rw [h c hm] at hc
  cases hc

theorem numbers_digits {t : Text} (h : t.all isDigit = true) (hne : t ≠ []) : numbers t = some [dec t] := by
  have := splitOn_absent t ':' (not_mem_digits h ':' (by decide))
  simp only [numbers, this]
  rw [if_pos (by simp [h, hne])]
  rfl

theorem slurm_digits {t : Text} (h : t.all isDigit = true) (hne : t ≠ []) : slurmLimit t = some (60 * dec t) := by
  unfold slurmLimit
  rw [splitOn_absent t '-' (not_mem_digits h '-' (by decide))]
  simp only [numbers_digits h hne]

theorem pbs_digits {t : Text} (h : t.all isDigit = true) (hne : t ≠ []) : pbsLimit t = some (dec t) := by
  unfold pbsLimit
  simp only [numbers_digits h hne]

theorem decimal_digits {t : Text} (h : isDecimal t = true) : t.all isDigit = true ∧ t ≠ [] := by
  unfold isDecimal at h
  split at h
  · exact ⟨by decide, by simp⟩
  · simp only [Bool.and_eq_true] at h
    exact ⟨by simp [h.1.1, h.2], by simp⟩
  · cases h

theorem sixty_digits {t : Text} (h : isSixty t = true) : t.all isDigit = true ∧ t ≠ [] := by
  unfold isSixty at h
  split at h
  · exact ⟨by simp [h], by simp⟩
  · simp only [Bool.and_eq_true] at h
    exact ⟨by simp [h.1.1, h.2], by simp⟩
  · cases h

/-- The parts of a number to the base 60. -/
theorem base60_parts {t : Text} (h : isBase60 t = true) : ∃ p q ps, t.splitOn ':' = p :: q :: ps ∧ ∀ x ∈ p :: q :: ps, x.all isDigit = true ∧ x ≠ [] := by
  unfold isBase60 at h
  split at h
  · rename_i c cs p ps hs
    simp only [Bool.and_eq_true] at h
    refine ⟨c :: cs, p, ps, hs, fun x hx => ?_⟩
    simp only [List.mem_cons] at hx
    rcases hx with rfl | hx
    · exact ⟨by simp [h.1.1.1, h.1.2], by simp⟩
    · exact sixty_digits (List.all_eq_true.1 h.2 x (by simpa using hx))
  · cases h

theorem base60_no_dash {t : Text} (h : isBase60 t = true) : '-' ∉ t := by
  obtain ⟨p, q, ps, hs, hall⟩ := base60_parts h
  intro hm
  have e : [':'].intercalate (t.splitOn ':') = t := List.intercalate_splitOn ':'
  rw [hs] at e
  rw [← e] at hm
  simp only [List.intercalate, List.mem_flatten] at hm
  obtain ⟨x, hx, hmx⟩ := hm
  have hx' : x = [':'] ∨ x ∈ p :: q :: ps := by
    generalize p :: q :: ps = l at hx
    clear e hs hall
    induction l with
    | nil => simp at hx
    | cons a l ih =>
      cases l with
      | nil => simp at hx; simp [hx]
      | cons b l =>
        rw [List.intersperse_cons_cons] at hx
        simp only [List.mem_cons] at hx
        rcases hx with rfl | rfl | hx
        · simp
        · simp
        · rcases ih hx with h | h
          · exact .inl h
          · exact .inr (by simp at h ⊢; tauto)
  rcases hx' with rfl | hx'
  · simp at hmx
  · exact not_mem_digits (hall x hx').1 '-' (by decide) hmx

theorem base60_numbers {t : Text} (h : isBase60 t = true) : numbers t = some ((t.splitOn ':').map dec) := by
  obtain ⟨p, q, ps, hs, hall⟩ := base60_parts h
  unfold numbers
  simp only [hs]
  rw [if_pos]
  rw [List.all_eq_true]
  intro x hx
  obtain ⟨h1, h2⟩ := hall x hx
  simp [h1, h2]

/-- What the manual of `sbatch` says of texts with one or two colons. -/
def OneOrTwo (t : Text) : Prop := (t.splitOn ':').length = 2 ∨ (t.splitOn ':').length = 3

theorem two (a b : Nat) : 60 * a + b = ([a, b].reverse.foldl (fun (s : Nat × Nat) d => (s.1 + d * s.2, s.2 * 60)) (0, 1)).1 := by
  simp only [List.reverse_cons, List.reverse_nil, List.nil_append, List.cons_append, List.foldl_cons, List.foldl_nil]
  omega

theorem three (a b c : Nat) : 3600 * a + 60 * b + c = ([a, b, c].reverse.foldl (fun (s : Nat × Nat) d => (s.1 + d * s.2, s.2 * 60)) (0, 1)).1 := by
  simp only [List.reverse_cons, List.reverse_nil, List.nil_append, List.cons_append, List.foldl_cons, List.foldl_nil]
  omega

theorem base60_value {t : Text} (h : isBase60 t = true) (h2 : OneOrTwo t) : slurmLimit t = some (base60 t) ∧ pbsLimit t = some (base60 t) := by
  have hn := base60_numbers h
  unfold slurmLimit pbsLimit base60
  rw [splitOn_absent t '-' (base60_no_dash h)]
  simp only [hn]
  unfold OneOrTwo at h2
  generalize t.splitOn ':' = l at h2
  match l, h2 with
  | [a, b], _ => exact ⟨congrArg some (two _ _), congrArg some (two _ _)⟩
  | [a, b, c], _ => exact ⟨congrArg some (three _ _ _), congrArg some (three _ _ _)⟩
  | [], h2 => simp at h2
  | [a], h2 => simp at h2
  | a :: b :: c :: d :: l, h2 => simp at h2

/-! ### The property -/

/-- **C119** (partial) For slurm the limit in the script means what the text given means, if it is in quotes, a number of minutes that does not begin with 0, or not a number of any kind, as with days,
or with an hour that begins with 0.

Missing: see `C119_colons_violated` and `C119_octal_violated`. -/
theorem C119_slurm_partial (quoted : Bool) (t : Text) (h : quoted = true ∨ isDecimal t = true ∨ (isOctal t = false ∧ isBase60 t = false)) :
    slurmLimit (inScript quoted t) = slurmLimit t := by
  unfold inScript load
  by_cases hq : quoted = true
  · rw [if_pos hq]
    rfl
  rw [if_neg hq]
  rcases h with h | h | ⟨h1, h2⟩
  · exact absurd h hq
  · have ho : ¬ isOctal t = true := by
      intro ho
      unfold isOctal at ho
      split at ho
      · unfold isDecimal at h
        simp [isDigit] at h
      · cases ho
    rw [if_neg ho, if_pos h]
    obtain ⟨h1, h2⟩ := decimal_digits h
    rw [toStr, slurm_digits (digits_all _) Nat.toDigits_ne_nil, dec_toDigits, slurm_digits h1 h2]
  · rw [if_neg (by simp [h1])]
    split
    · rename_i h
      obtain ⟨h1, h2⟩ := decimal_digits h
      rw [toStr, slurm_digits (digits_all _) Nat.toDigits_ne_nil, dec_toDigits, slurm_digits h1 h2]
    · rw [if_neg (by simp [h2])]
      rfl

example : inScript true "1:30:00".toList = "1:30:00".toList ∧ inScript false "90".toList = "90".toList ∧ inScript false "1-12:00".toList = "1-12:00".toList ∧
    inScript false "01:30:00".toList = "01:30:00".toList ∧ slurmLimit "1-12:00".toList = some 129600 := by decide +kernel

/-- **C119** (violated) For slurm, a time with colons that does not begin with 0 and is not in quotes means sixty times as much in the script: YAML makes it a number of seconds, and slurm takes a number to be
minutes. -/
theorem C119_colons_violated (t : Text) (h : isBase60 t = true) (h2 : OneOrTwo t) : ∃ n, slurmLimit t = some n ∧ slurmLimit (inScript false t) = some (60 * n) := by
  refine ⟨base60 t, (base60_value h h2).1, ?_⟩
  have hno : ∀ {b : Text → Bool}, (∀ u, b u = true → u.all isDigit = true) → ¬ b t = true := by
    intro b hb hc
    have hd := hb t hc
    obtain ⟨p, q, ps, hs, _⟩ := base60_parts h
    rw [splitOn_absent t ':' (not_mem_digits hd ':' (by decide))] at hs
    simp at hs
  have ho : ¬ isOctal t = true := hno fun u hu => by
    unfold isOctal at hu
    split at hu
    · rename_i c cs
      rw [List.all_eq_true] at hu
      rw [List.all_cons, Bool.and_eq_true]
      refine ⟨by decide, List.all_eq_true.2 fun x hx => ?_⟩
      have := hu x hx
      simp only [Bool.and_eq_true] at this
      exact this.1
    · cases hu
  have hd : ¬ isDecimal t = true := hno fun u hu => (decimal_digits hu).1
  unfold inScript load
  rw [if_neg (by simp), if_neg ho, if_neg hd, if_pos h, toStr, slurm_digits (digits_all _) Nat.toDigits_ne_nil, dec_toDigits]

/-- One and a half hours become ninety. -/
example : isBase60 "1:30:00".toList = true ∧ OneOrTwo "1:30:00".toList ∧ inScript false "1:30:00".toList = "5400".toList ∧ slurmLimit "1:30:00".toList = some 5400 ∧
    slurmLimit "5400".toList = some 324000 := ⟨by decide +kernel, .inr (by decide +kernel), by decide +kernel, by decide +kernel, by decide +kernel⟩

/-- **C119** (violated) A number that begins with 0 is taken to be octal. -/
theorem C119_octal_violated : inScript false "0100".toList = "64".toList ∧ slurmLimit "0100".toList = some 6000 ∧ slurmLimit (inScript false "0100".toList) = some 3840 ∧
    pbsLimit "0100".toList = some 100 ∧ pbsLimit (inScript false "0100".toList) = some 64 := by decide +kernel

/-- **C119** (partial) For PBS, where a number is a number of seconds, the limit means the same for every text, with one or two colons also without quotes.

Missing: numbers that begin with 0, see `C119_octal_violated`. -/
theorem C119_pbs_partial (quoted : Bool) (t : Text) (h : isOctal t = false) (h2 : isBase60 t = true → OneOrTwo t) : pbsLimit (inScript quoted t) = pbsLimit t := by
  unfold inScript load
  split
  · rfl
  rw [if_neg (by simp [h])]
  split
  · rename_i h
    obtain ⟨h1, h2⟩ := decimal_digits h
    rw [toStr, pbs_digits (digits_all _) Nat.toDigits_ne_nil, dec_toDigits, pbs_digits h1 h2]
  · split
    · rename_i h
      rw [toStr, pbs_digits (digits_all _) Nat.toDigits_ne_nil, dec_toDigits, (base60_value h (h2 h)).2]
    · rfl

example : inScript false "12:30".toList = "750".toList ∧ pbsLimit "12:30".toList = some 750 := by decide +kernel

end Verif.Tasks.TimeLimit
