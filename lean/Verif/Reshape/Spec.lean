import Verif.Mpi.Spec
import Verif.Reshape.Model
import Mathlib.Data.List.Forall2

/-!
# Specification of a distributed reshape

`prod`, `ravelO` and `unravelO` are the usual correspondence between multi-indices and positions; the
lemmas `ravelO_unravelO` and `unravelO_ravelO` show that they are inverse to each other.
-/
namespace Verif.Reshape

open Verif.Mpi (blockStart blockLen)

/-- The multi-index lies inside the shape. -/
def InShape (i s : List Nat) : Prop := List.Forall₂ (· < ·) i s

/-- `t` asks for the axes `new` with `p` elements in total: either it lists them, or it lists all but
one, for which it has `-1` (then the others must not have product zero, so that it is determined). -/
def Asks (t : List (Option Int)) (p : Nat) (new : List Nat) : Prop :=
  prod new = p ∧
  (t = new.map (fun (k : Nat) => some (k : Int)) ∨
    ∃ l r k, new = l ++ k :: r ∧ prod l * prod r ≠ 0 ∧
      t = l.map (fun (k : Nat) => some (k : Int)) ++ some (-1) :: r.map (fun (k : Nat) => some (k : Int)))

/-- `target` asks to reshape a global array of shape `gs` distributed over axis `a` into the global
shape `gs'` distributed over axis `b`: the axes before and those after the distributed axis are
reshaped separately. -/
def Target (gs : List Nat) (a : Nat) (target : List (Option Int)) (gs' : List Nat) (b : Nat) : Prop :=
  ∃ tpre tpost pre post n, target = tpre ++ none :: tpost ∧ gs[a]? = some n ∧
    Asks tpre (prod (gs.take a)) pre ∧ Asks tpost (prod (gs.drop (a + 1))) post ∧
    gs' = pre ++ n :: post ∧ b = tpre.length

/-- The array of process `r` of `P` is its block of the global array with shape `gs` and elements `G`,
distributed over axis `a`, and the recorded axis, global length and offset are right. -/
structure IsBlock {α : Type} (gs : List Nat) (G : List Nat → α) (a P r : Nat) (A : DArr α) : Prop where
  axis : A.axis = a
  glen : gs[a]? = some A.glen
  off : A.off = blockStart A.glen P r
  shape : A.shape = gs.set a (blockLen A.glen P r)
  elems : ∀ i, InShape i A.shape → A.val i = G (i.modify a (· + A.off))

/-- The global array reshaped: the element at a multi-index of the new shape is the one at the same
position of the old shape. -/
def reshaped {α : Type} (o : Order) (gs gs' : List Nat) (G : List Nat → α) : List Nat → α :=
  fun i => G (unravelO o gs (ravelO o gs' i))

end Verif.Reshape
