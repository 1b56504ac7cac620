import Verif.Mpi.Arr

/-!
# Specifications for distributed arrays (independent of the model)
-/
namespace Verif.Mpi

/-- First index of block `r` when `n` indices are split over `P` processes: the first `n % P` blocks
have one index more than the others. (`blockStart n P (r + 1)` is where block `r` stops.) -/
def blockStart (n P r : Nat) : Nat := r * (n / P) + min r (n % P)

/-- Number of indices in block `r`. -/
def blockLen (n P r : Nat) : Nat := n / P + if r < n % P then 1 else 0

/-- The index lies inside the shape. -/
def Inside {d : Nat} (s : Idx d) (i : Idx d) : Prop := ∀ k, i k < s k

/-- Two arrays have the same shape and the same elements. -/
def Agrees {d : Nat} {α : Type} (A B : Arr d α) : Prop :=
  A.shape = B.shape ∧ ∀ i, Inside A.shape i → A.val i = B.val i

/-- `A` is what process `r` of `P` holds of the global array `G` distributed over axis `a`: block `r`
of that axis, and everything along the other axes. -/
structure IsBlock {d : Nat} {α : Type} (G : Arr d α) (a : Fin d) (P r : Nat) (A : Arr d α) : Prop where
  axis : A.shape a = blockLen (G.shape a) P r
  others : ∀ k, k ≠ a → A.shape k = G.shape k
  elems : ∀ i, Inside A.shape i → A.val i = G.val (upd i a (i a + blockStart (G.shape a) P r))

/-- `C` is the concatenation of the arrays `loc 0, …, loc (P-1)` along axis `a`. -/
structure IsConcat {d : Nat} {α : Type} (loc : Nat → Arr d α) (a : Fin d) (P : Nat) (C : Arr d α) :
    Prop where
  axis : C.shape a = ((List.range P).map fun r => (loc r).shape a).sum
  others : ∀ r, r < P → ∀ k, k ≠ a → C.shape k = (loc r).shape k
  elems : ∀ r, r < P → ∀ i, Inside (loc r).shape i →
    C.val (upd i a (i a + ((List.range r).map fun q => (loc q).shape a).sum)) = (loc r).val i

end Verif.Mpi
