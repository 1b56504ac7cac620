import Verif.Slice.Spec
import Verif.Tod.Model

/-!
# Specifications for C35 and C36
-/
namespace Verif.Tod
variable {α : Type}

/-- End-to-end concatenation of an index map. -/
def allIndex (items : List (Item α)) (a : Axis) : List α :=
  items.flatMap fun it => (it.index a).getD []

/-- The entries of the dataset called `name` in one input. -/
def column (name : Name) (it : Item α) : List α :=
  (it.dsets.filter fun d => d.name == name).flatMap Dset.data

/-- End-to-end concatenation of a dataset. -/
def allData (items : List (Item α)) (name : Name) : List α := items.flatMap (column name)

/-- Inputs that are "identical in every way except along the axes representing time": every time
axis is in every input, the datasets are the same ones with the same axes, and a dataset is as long
as its time axis. -/
structure Uniform (timeAxes : List Axis) (items : List (Item α)) : Prop where
  axes : ∀ it ∈ items, ∀ a ∈ timeAxes, (it.index a).isSome
  nodup : ∀ it ∈ items, (it.dsets.map Dset.name).Nodup
  long : ∀ it ∈ items, ∀ d ∈ it.dsets, ∃ a ∈ timeAxes, ∃ l,
    d.axes.find? (fun a => decide (a ∈ timeAxes)) = some a ∧ it.index a = some l ∧
      d.data.length = l.length
  same : ∀ it ∈ items, ∀ it' ∈ items, ∀ d ∈ it.dsets, ∃ d' ∈ it'.dsets,
    d'.name = d.name ∧ d'.axes = d.axes

/-- The start of a selection is not before the first sample and not after its stop. -/
def InRange (n : Nat) (start stop : Option Int) : Prop :=
  (∀ s, start = some s → -(n : Int) ≤ s) ∧
    Slice.Spec.ascFrom n start ≤ Slice.Spec.ascTo n stop

instance (n : Nat) (start stop : Option Int) : Decidable (InRange n start stop) :=
  match start with
  | none => decidable_of_iff (Slice.Spec.ascFrom n none ≤ Slice.Spec.ascTo n stop)
      ⟨fun h => ⟨by intro s hs; simp at hs, h⟩, fun h => h.2⟩
  | some s => decidable_of_iff
      (-(n : Int) ≤ s ∧ Slice.Spec.ascFrom n (some s) ≤ Slice.Spec.ascTo n stop)
      ⟨fun h => ⟨by intro s' hs; simp at hs; subst hs; exact h.1, h.2⟩, fun h => ⟨h.1 s rfl, h.2⟩⟩

end Verif.Tod
