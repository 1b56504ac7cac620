import Verif.Proto.Model
import Verif.Dist.Spec
import Mathlib.Data.List.Forall2

/-!
# What a constructed container should be
-/
namespace Verif.Proto

open Verif.Dist (NArr MArr Comm IsBlock)
open Verif.Reshape (InShape)

variable {α β V Ty : Type}

/-- The values asked for along an axis: those given, 0 to `n - 1` for an integer, or those of the
container that axes are taken from. -/
inductive AxisIs (lab : Nat → β) (kw : String → Option (AxisArg β)) (src : Option (Box α β V)) (axis : String) :
    List β → Prop
  | count (n : Int) : kw axis = some (.int n) → AxisIs lab kw src axis ((List.range n.toNat).map lab)
  | given (m : AxisMap β) : kw axis = some (.arr m) → AxisIs lab kw src axis m.vals
  | copied (s : Box α β V) (m : AxisMap β) : kw axis = none → src = some s → s.maps axis = some m →
      AxisIs lab kw src axis m.vals

/-- The lengths that go with the axes of a dataset. -/
def Lengths (maps : String → Option (AxisMap β)) (axes : List AxisRef) (shape : List Nat) : Prop :=
  List.Forall₂ (fun ax n => match ax with
    | .name s => ∃ m, maps s = some m ∧ m.vals.length = n
    | .size k => n = k) axes shape

/-- The dataset is to be distributed over axis `k`: the one that is named, or else the first. -/
def DistAt (d : DSpec Ty) (k : Nat) : Prop :=
  d.axes[k]? = d.distAxis.or d.axes.head? ∧ k < d.axes.length ∧ ∀ j < k, d.axes[j]? ≠ d.distAxis.or d.axes.head?

/-- A dataset as its specification has it: on this process a block of a global array of the lengths of
its axes, or the whole array, and the names of the axes. -/
def Specified (maps : String → Option (AxisMap β)) (distributed : Bool) (c : Comm) (d : DSpec Ty)
    (x : Dset α V) : Prop :=
  x.axis = some (d.axes.map AxisRef.label) ∧ ∃ shape, Lengths maps d.axes shape ∧
    if distributed = true ∧ d.distributed ≠ some false then
      ∃ k A G, DistAt d k ∧ x.data = .dist A ∧ G.shape = shape ∧ IsBlock G k c A
    else ∃ A, x.data = .common A ∧ A.shape = shape

/-- Two datasets hold the same elements, up to conversion. -/
inductive Holds (f : α → α) (c : Comm) : Data α → Data α → Prop
  | common (A B : NArr α) : B.shape = A.shape → (∀ i, InShape i A.shape → B.val i = f (A.val i)) →
      Holds f c (.common A) (.common B)
  | dist (A B : MArr α) (G : NArr α) (k : Nat) : IsBlock G k c A → IsBlock ⟨G.shape, fun i => f (G.val i)⟩ k c B →
      Holds f c (.dist A) (.dist B)

/-- A dataset is laid out as the specification would have it: distributed over the same axis, or not at
all, and of the same lengths. -/
def SameLayout (maps : String → Option (AxisMap β)) (distributed : Bool) (c : Comm) (d : DSpec Ty)
    (s : Data α) : Prop :=
  ∃ shape, Lengths maps d.axes shape ∧ shape ≠ [] ∧
    if distributed = true ∧ d.distributed ≠ some false then
      ∃ k A G, DistAt d k ∧ s = .dist A ∧ G.shape = shape ∧ IsBlock G k c A
    else ∃ A, s = .common A ∧ A.shape = shape

/-- The dataset `sd` of another container is to be copied: none of its axes was given explicitly. -/
def ToCopy (axes : List String) (kw : String → Option (AxisArg β)) (sd : Dset α V) : Prop :=
  ∃ axs, sd.axis = some axs ∧ ∀ ax ∈ axs, ax ∈ axes → kw ax = none

end Verif.Proto
