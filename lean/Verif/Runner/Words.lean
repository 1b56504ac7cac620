import Verif.Runner.Script
import Mathlib.Tactic.Common

/-!
# Lemmas on words and lines
-/
namespace Verif.Runner

/-! ### Words and lines -/

theorem blank_space : blank ' ' = true := by decide

theorem wordsFrom_append (acc a b : Text) : wordsFrom acc (a ++ ' ' :: b) = wordsFrom acc a ++ words b := by
  induction a generalizing acc with
  | nil =>
    simp only [List.nil_append, wordsFrom, blank_space, if_true, words]
    split <;> rfl
  | cons c cs ih =>
    simp only [List.cons_append, wordsFrom, ih]
    split
    · split <;> rfl
    · rfl

theorem words_append (a b : Text) : words (a ++ ' ' :: b) = words a ++ words b := wordsFrom_append [] a b

/-- A word: not empty, and without blanks. -/
def Word (w : Text) : Prop := w ≠ [] ∧ ∀ c ∈ w, c ≠ ' ' ∧ c ≠ '\t' ∧ c ≠ '\n'

theorem blank_of (c : Char) (h : c ≠ ' ' ∧ c ≠ '\t' ∧ c ≠ '\n') : blank c = false := by
  simp [blank, h]

theorem words_word (w : Text) (h : Word w) : words w = [w] := by
  have key : ∀ (w acc : Text), (∀ c ∈ w, c ≠ ' ' ∧ c ≠ '\t' ∧ c ≠ '\n') → acc.reverse ++ w ≠ [] → wordsFrom acc w = [acc.reverse ++ w] := by
    intro w
    induction w with
    | nil =>
      intro acc _ h
      have : acc ≠ [] := by
        rintro rfl
        exact h rfl
      simp [wordsFrom, this]
    | cons c w ih =>
      intro acc hw _
      rw [wordsFrom, if_neg (by simp [blank_of c (hw c List.mem_cons_self)]), ih _ (fun x hx => hw x (List.mem_cons_of_mem _ hx)) (by simp)]
      simp
  exact key w [] h.2 (by simpa using h.1)

theorem textLines_append (a b : Text) : textLines (a ++ '\n' :: b) = textLines a ++ textLines b := by
  induction a with
  | nil => simp [textLines]
  | cons c cs ih =>
    rw [List.cons_append, textLines, textLines]
    split
    · rw [ih]
      rfl
    · rw [ih]
      have : textLines cs ≠ [] := by
        cases cs with
        | nil => simp [textLines]
        | cons d ds =>
          rw [textLines]
          split
          · simp
          · split <;> simp
      cases hc : textLines cs with
      | nil => exact absurd hc this
      | cons l ls => rfl

theorem commands_append (a b : Text) : commands (a ++ '\n' :: b) = commands a ++ commands b := by
  simp [commands, textLines_append]

theorem commands_line (l : Text) (h0 : l ≠ []) (h : '\n' ∉ l) : commands l = [l] := by
  have : textLines l = [l] := by
    clear h0
    induction l with
    | nil => rfl
    | cons c cs ih =>
      have hc : c ≠ '\n' := by
        rintro rfl
        exact h List.mem_cons_self
      rw [textLines, if_neg hc, ih fun hc => h (List.mem_cons_of_mem _ hc)]
  simp [commands, this, h0]

theorem commands_join (pre : Text) (hp0 : pre ≠ []) (hp : '\n' ∉ pre) (l : List Text) (hl0 : l ≠ []) (hl : ∀ x ∈ l, '\n' ∉ x) :
    commands (pre ++ joinText ('\n' :: pre) l) = l.map (pre ++ ·) := by
  induction l with
  | nil => exact absurd rfl hl0
  | cons x l ih =>
    have hx : commands (pre ++ x) = [pre ++ x] := commands_line _ (by simp [hp0]) (by simp [hp, hl x])
    cases l with
    | nil => simpa [joinText] using hx
    | cons y l =>
      have := ih (by simp) fun z hz => hl z (List.mem_cons_of_mem _ hz)
      rw [joinText]
      rw [show pre ++ (x ++ '\n' :: pre ++ joinText ('\n' :: pre) (y :: l)) = (pre ++ x) ++ '\n' :: (pre ++ joinText ('\n' :: pre) (y :: l)) by simp, commands_append, this, hx]
      rfl

end Verif.Runner
