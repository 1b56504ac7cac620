/-!
# Specification for C111: what a pattern of file names stands for

Written from the documentation of the shell style patterns, without reference to the model.
-/
namespace Verif.Glob

abbrev Str := List Char

/-- The characters that the inside of a pair of brackets stands for: `a-b` stands for the characters from `a` to `b`, other characters for themselves. -/
inductive InSet : Str → Char → Prop
  | range {a b c : Char} {l : Str} : a ≤ c → c ≤ b → InSet (a :: '-' :: b :: l) c
  | afterRange {a b c : Char} {l : Str} : InSet l c → InSet (a :: '-' :: b :: l) c
  | char {a : Char} {l : Str} : (¬ ∃ b l', l = '-' :: b :: l') → InSet (a :: l) a
  | afterChar {a c : Char} {l : Str} : (¬ ∃ b l', l = '-' :: b :: l') → InSet l c → InSet (a :: l) c

/-- The inside of a pair of brackets is not empty, and has no closing bracket, except perhaps in the first place. -/
def Inside (body : Str) : Prop := body ≠ [] ∧ ']' ∉ body.tail

/-- A name fits a pattern: `*` stands for any characters, `?` for one character, `[...]` for one of a set, `[!...]` for one that is not in the set, and any other character for itself, also an opening
bracket that is not closed. -/
inductive Fits : Str → Str → Prop
  | nil : Fits [] []
  | star {p s : Str} (x : Str) : Fits p s → Fits ('*' :: p) (x ++ s)
  | one {p s : Str} (c : Char) : Fits p s → Fits ('?' :: p) (c :: s)
  | set {body p s : Str} {c : Char} : Inside body → body.head? ≠ some '!' → InSet body c → Fits p s → Fits ('[' :: (body ++ ']' :: p)) (c :: s)
  | notSet {body p s : Str} {c : Char} : Inside body → ¬ InSet body c → Fits p s → Fits ('[' :: '!' :: (body ++ ']' :: p)) (c :: s)
  | bracket {p s : Str} : (∀ body rest, p = body ++ ']' :: rest → body = [] ∨ body = ['!']) → Fits p s → Fits ('[' :: p) ('[' :: s)
  | char {p s : Str} {c : Char} : c ≠ '*' → c ≠ '?' → c ≠ '[' → Fits p s → Fits (c :: p) (c :: s)

/-- Text without wildcards. -/
def Plain (l : Str) : Prop := ∀ c ∈ l, c ≠ '*' ∧ c ≠ '?' ∧ c ≠ '['

/-- The entry of a directory counts for the pattern: names that begin with a dot only do if the pattern does. -/
def Entry (pat e : Str) : Prop := Fits pat e ∧ (e.head? = some '.' → pat.head? = some '.')

/-- The path is one that the pattern stands for. The pattern is a directory (nothing, or up to a slash), the patterns of further directories, and that of the name. `ls` gives the entries of a directory. -/
inductive Named (ls : Str → List Str) : Str → List Str → Str → Str → Prop
  | name {dir base e : Str} : e ∈ ls dir → Entry base e → Named ls dir [] base (dir ++ e)
  | sub {dir c base e f : Str} {cs : List Str} : e ∈ ls dir → Entry c e → Named ls (dir ++ e ++ ['/']) cs base f → Named ls dir (c :: cs) base f

end Verif.Glob
