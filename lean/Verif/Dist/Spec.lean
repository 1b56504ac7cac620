import Verif.Dist.Model

/-!
# What a distributed array should be
-/
namespace Verif.Dist

open Verif.Mpi (blockStart blockLen)
open Verif.Reshape (InShape)

/-- The array `A` of a process is its block of the global array `G` distributed over axis `a`, and
everything recorded in it is right. -/
structure IsBlock {α : Type} (G : NArr α) (a : Nat) (c : Comm) (A : MArr α) : Prop where
  lt : a < G.shape.length
  rank : c.rank < c.size
  comm : A.comm = c
  axis : A.axis = a
  gshape : A.gshape = G.shape
  shape : A.arr.shape = G.shape.set a (blockLen (G.shape.getD a 0) c.size c.rank)
  lshape : A.lshape = A.arr.shape
  loff : A.loff = (List.replicate G.shape.length 0).set a (blockStart (G.shape.getD a 0) c.size c.rank)
  elems : ∀ i, InShape i A.arr.shape →
    A.arr.val i = G.val (i.modify a (· + blockStart (G.shape.getD a 0) c.size c.rank))

/-- The integer `i` names axis `k` of `n`, possibly counted from the end. -/
def Names (n : Nat) (i : Int) (k : Nat) : Prop := k < n ∧ (i = k ∨ i = k - n)

/-- `G'` is `G` with axis `p[j]` in place `j`: lengths and elements. -/
structure IsTransposed {α : Type} (p : List Nat) (G G' : NArr α) : Prop where
  shape : G'.shape = p.map (G.shape.getD · 0)
  elems : ∀ i i', InShape i G.shape → i'.length = p.length →
    (∀ j k : Nat, p[j]? = some k → i'[j]? = i[k]?) → G'.val i' = G.val i

end Verif.Dist
