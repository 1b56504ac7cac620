import Verif.Dist.Spec
import Verif.Dist.Ufunc

/-!
# What a universal function should do with distributed arrays
-/
namespace Verif.Dist

variable {α : Type}

/-- An argument seen globally: a scalar, a `numpy` array which is the same on every process, or a global
array distributed over an axis. -/
inductive GArg (α : Type) where
  | num (x : α)
  | arr (A : NArr α)
  | mpi (G : NArr α) (a : Nat)

/-- The global array of an argument. -/
def GArg.glob : GArg α → NArr α
  | .num x => ⟨[], fun _ => x⟩
  | .arr A => A
  | .mpi G _ => G

/-- What a process holds of an argument. -/
inductive LocalOf (c : Comm) : GArg α → Arg α → Prop where
  | num (x : α) : LocalOf c (.num x) (.num x)
  | arr (A : NArr α) : LocalOf c (.arr A) (.arr A)
  | mpi (G : NArr α) (a : Nat) (A : MArr α) (h : IsBlock G a c A) : LocalOf c (.mpi G a) (.mpi A)

/-- The documented restriction, for one argument: a distributed array has its distributed axis, of
length `N`, as the `q`-th axis from the end; another array does not reach so far or has length one
there. -/
def AlignedArg (N q : Nat) : GArg α → Prop
  | .num _ => True
  | .arr A => A.shape.length < q ∨ A.shape[A.shape.length - q]? = some 1
  | .mpi G a => G.shape.length = a + q ∧ G.shape[a]? = some N

/-- The documented restriction for all arguments. -/
def Aligned (N q : Nat) (gs : List (GArg α)) : Prop := ∀ g ∈ gs, AlignedArg N q g

/-- One of the arguments is distributed. -/
def HasMpi (gs : List (GArg α)) : Prop := ∃ G a, GArg.mpi G a ∈ gs

end Verif.Dist
