import Verif.Reader.Model
import Verif.Tod.Spec
import Mathlib.Data.Finset.Card

/-!
# What a reader of time ordered data should do
-/
namespace Verif.Reader

open Verif.Mem (Str Node)

variable {α : Type}

/-- The tree has this dataset at this path. -/
inductive At : Tree α → List Str → TDs α → Prop
  | here (d : TDs α) : At (.dset d) [] d
  | kid (a : List (Str × Nat)) (kids : List (Str × Tree α)) (k : Str) (n : Tree α) (p : List Str) (d : TDs α) :
      (k, n) ∈ kids → At n p d → At (.group a kids) (k :: p) d

/-- One of the axes is a time axis. -/
def Timed (timeAxes : List String) (d : TDs α) : Prop := ∃ a ∈ d.axes, a ∈ timeAxes

/-- A dataset in the root of a file. -/
def InRoot (t : Tree α) (k : Str) (d : TDs α) : Prop := ∃ a kids, t = .group a kids ∧ (k, .dset d) ∈ kids

/-- The index map for an axis. -/
def HasMap (t : Tree α) (a : String) (l : List α) : Prop :=
  ∃ at' kids g m d, t = .group at' kids ∧ kids.lookup "index_map".toList = some (.group g m) ∧ m.lookup a.toList = some (.dset d) ∧ d.data = l

/-- The time axis of a dataset: the first that it has. -/
def TimeAxis (timeAxes : List String) (d : TDs α) (a : String) : Prop :=
  ∃ before after, d.axes = before ++ a :: after ∧ a ∈ timeAxes ∧ ∀ b ∈ before, b ∉ timeAxes

/-- Files that are the same except along time: names are used once, every time axis has an index map, a dataset in the root is as long as its time axis, and all files have the same
datasets there, with the same axes. -/
structure Alike (timeAxes : List String) (files : List (Tree α)) : Prop where
  once : ∀ f ∈ files, ∃ a kids, f = .group a kids ∧ (kids.map Prod.fst).Nodup
  maps : ∀ f ∈ files, ∀ a ∈ timeAxes, ∃ l, HasMap f a l
  long : ∀ f ∈ files, ∀ k d a l, InRoot f k d → TimeAxis timeAxes d a → HasMap f a l → d.data.length = l.length
  same : ∀ f ∈ files, ∀ f' ∈ files, ∀ k d, InRoot f k d → Timed timeAxes d → ∃ d', InRoot f' k d' ∧ d'.axes = d.axes

/-- Time stamps that are `δ` apart, more often than not. -/
def Mostly (δ : ℚ) (stamps : List ℚ) : Prop :=
  ∃ regular : Finset ℕ, (∀ i ∈ regular, ∃ x y, stamps[i]? = some x ∧ stamps[i + 1]? = some y ∧ y - x = δ) ∧ stamps.length - 1 < 2 * regular.card

end Verif.Reader
