import Verif.Files.Model
import Mathlib.Data.List.Forall2

/-!
# What lists of files should stand for
-/
namespace Verif.Files

/-- There is something to read: a directory for zarr stores, a file for everything else. -/
def Present (W : World) (s : Str) : Prop :=
  if ".zarr".toList <:+ s then W.isdir s = true else W.isfile s = true

/-- A name with a wildcard. -/
def Wild (s : Str) : Prop := '*' ∈ s ∨ '?' ∈ s ∨ '[' ∈ s

/-- The files that an entry stands for: a name for itself, a pattern for all the files that match it, in order, a list
for what its entries stand for, one after the other. -/
inductive Expands (W : World) : Arg → List Str → Prop
  | path (s : Str) : ¬ Wild s → Present W s → Expands W (.str s) [s]
  | pattern (s : Str) (l : List Str) : Wild s → l.Pairwise (fun a b => leStr a b = true) → l.Perm (W.glob s) →
      (∀ f ∈ l, Present W f) → Expands W (.str s) l
  | list (l : List Arg) (r : List (List Str)) : List.Forall₂ (Expands W) l r → Expands W (.list l) r.flatten

/-- No more than so many lists within each other. -/
inductive Fits : Nat → Arg → Prop
  | str (s : Str) (n : Nat) : Fits (n + 3) (.str s)
  | other (n : Nat) : Fits (n + 1) .other
  | list (l : List Arg) (n : Nat) : (∀ a ∈ l, Fits n a) → Fits (n + 1) (.list l)

/-- No name of a file has characters that are wildcards in patterns. -/
def Tame (W : World) : Prop := ∀ p, ∀ f ∈ W.glob p, ¬ Wild f

/-- What an entry of a list of lists gives: a name or a pattern the files that it matches, a list of entries a list of files for
each of them. -/
inductive Part (W : World) : Arg → List Arg → Prop
  | str (s : Str) : '*' ∈ s ∨ W.isfile s = true → Part W (.str s) ((W.glob s).map .str)
  | list (m : List Arg) (r : List (List Str)) : List.Forall₂ (Expands W) m r →
      Part W (.list m) (r.map fun fs => .list (fs.map .str))

/-- The entries of the inner lists are not nested too deeply. -/
def FitsIn (n : Nat) : Arg → Prop
  | .list m => ∀ a ∈ m, Fits n a
  | _ => True

end Verif.Files
