import Verif.Tod.Distributed

/-!
# What a concatenation of arrays should be
-/
namespace Verif.TodDist

open Verif.Dist

variable {α : Type}

/-- The total length of the arrays along the axis `t`. -/
def total (t : Nat) (Gs : List (NArr α)) : Nat := (Gs.map fun G => G.shape.getD t 0).sum

/-- The element at index `i` of the arrays put one after the other along the axis `t`. -/
def Cat (t : Nat) : List (NArr α) → List Nat → Option α
  | [], _ => none
  | G :: Gs, i => if i.getD t 0 < G.shape.getD t 0 then some (G.val i) else Cat t Gs (i.modify t (· - G.shape.getD t 0))

/-- `W` is the part from `S` to `E` of the arrays put one after the other along the axis `t`; `s` is their shape but for
this axis. -/
structure IsWindow (t : Nat) (s : List Nat) (S E : Nat) (Gs : List (NArr α)) (W : NArr (Option α)) : Prop where
  shape : W.shape = s.set t (E - S)
  elems : ∀ i, Reshape.InShape i W.shape → W.val i = Cat t Gs (i.modify t (· + S)) ∧ (W.val i).isSome = true

end Verif.TodDist
