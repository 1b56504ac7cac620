/-!
# Specification of Python slicing (independent of the model)

From the Python language reference: the slice `s[i:j:k]` is the sequence of items with index
`x = i + n*k` with `0 ≤ n < (j-i)/k`. Negative `i`, `j` are relative to the end. Values beyond the
ends are clipped; omitted values become the "end" values, which depend on the sign of `k`.
-/
namespace Verif.Slice.Spec

/-- First bound of an ascending slice of a sequence of length `n`. -/
def ascFrom (n : Nat) : Option Int → Int
  | none => 0
  | some v => if v < 0 then max 0 (v + n) else v

/-- Exclusive last bound of an ascending slice. -/
def ascTo (n : Nat) : Option Int → Int
  | none => n
  | some v => if v < 0 then v + n else min v n

/-- First bound of a descending slice. -/
def descFrom (n : Nat) : Option Int → Int
  | none => n - 1
  | some v => if v < 0 then v + n else min v (n - 1)

/-- Exclusive last bound of a descending slice. -/
def descTo (n : Nat) : Option Int → Int
  | none => -1
  | some v => if v < 0 then max (-1) (v + n) else v

/-- Position `g` of a sequence of length `n` is selected by `start:stop:step`. -/
def Selects (n : Nat) (start stop : Option Int) (step : Int) (g : Nat) : Prop :=
  if 0 < step then ascFrom n start ≤ g ∧ g < ascTo n stop ∧ step ∣ (g - ascFrom n start)
  else descTo n stop < g ∧ g ≤ descFrom n start ∧ step ∣ (descFrom n start - g)

instance (n : Nat) (start stop : Option Int) (step : Int) (g : Nat) :
    Decidable (Selects n start stop step g) := by unfold Selects; infer_instance

/-- The selected positions in the order in which Python visits them. -/
def positions (n : Nat) (start stop : Option Int) (step : Int) : List Nat :=
  let l := (List.range n).filter (Selects n start stop step ·)
  if 0 < step then l else l.reverse

/-- `xs[start:stop:step]`. -/
def slice {α : Type} (xs : List α) (start stop : Option Int) (step : Int) : List α :=
  (positions xs.length start stop step).filterMap (xs[·]?)

example : slice [10, 11, 12, 13, 14] (some 1) (some (-1)) 2 = [11, 13] := by decide
example : slice [10, 11, 12, 13, 14] none none (-2) = [14, 12, 10] := by decide

/-- `xs[i]` for an integer `i`: `none` is an `IndexError`. -/
def item {α : Type} (xs : List α) (i : Int) : Option α :=
  let j := if i < 0 then i + xs.length else i
  if 0 ≤ j then xs[j.toNat]? else none

end Verif.Slice.Spec
