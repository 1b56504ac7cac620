import Verif.Iter.Model
import Mathlib.Data.List.Forall2

/-!
# What tasks over files should do
-/
namespace Verif.Iter

variable {α β σ : Type}

/-- The user's `process`, called with the inputs one after the other, gives these outputs. -/
inductive Produces (process : σ → Option α → Except PyErr (σ × Option β)) : σ → List (Option α) → List (Option β) → σ → Prop
  | nil (t : σ) : Produces process t [] [] t
  | cons (t t' t'' : σ) (x : Option α) (y : Option β) (xs : List (Option α)) (ys : List (Option β)) :
      process t x = .ok (t', y) → Produces process t' xs ys t'' → Produces process t (x :: xs) (y :: ys) t''

/-- The write there should be: of an output, if outputs are to be written. -/
def writeEv (expand : Str → Str) (root : Option Str) (name : Str) : Option β → List (Ev α β)
  | some y => match root with
    | some r => [.write (expand (r ++ name)) y]
    | none => []
  | none => []

/-- Each file is read, processed, and its output written, before the next. -/
def filesTrace (expand : Str → Str) (inRoot : Str) (outRoot : Option Str) (inExt outExt : Str) :
    List (Str × α × Option β) → List (Ev α β)
  | [] => []
  | (m, x, y) :: l =>
    .read (expand (inRoot ++ m ++ inExt)) x :: .process (some x) y :: writeEv expand outRoot (m ++ outExt) y ++
      filesTrace expand inRoot outRoot inExt outExt l

/-- Each input is processed, and its output written, before the next. -/
def inputsTrace (expand : Str → Str) (outRoot : Option Str) (outExt : Str) : List (Str × α × Option β) → List (Ev α β)
  | [] => []
  | (m, x, y) :: l => .process (some x) y :: writeEv expand outRoot (m ++ outExt) y ++ inputsTrace expand outRoot outExt l

/-- Outputs, if written at all, are written into a named directory. -/
def InDirectory (expand : Str → Str) (root : Option Str) (name : Str) : Prop :=
  ∀ r, root = some r → '/' ∈ expand (r ++ name)

/-- `d` is the directory a file is in: the name goes on from `d` with slashes, if any, and a last part without. -/
def Parent (d f : Str) : Prop :=
  ∃ slashes name : Str, f = d ++ slashes ++ name ∧ (∀ ch ∈ slashes, ch = '/') ∧ '/' ∉ name

end Verif.Iter
