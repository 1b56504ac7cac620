import Verif.Dist.Spec
import Verif.Dist.Index

/-!
# What an index into a distributed array should mean
-/
namespace Verif.Dist

/-- `es` is the index `sel` spelled out for an array with `n` axes: `...`, or the end if there is none,
stands for as many `:` as are needed. -/
def SpelledOut (sel : List Idx) (n : Nat) (es : List Idx) : Prop :=
  .ellipsis ∉ es ∧ used es = n ∧
    ∃ l r k, es = l ++ List.replicate k .full ++ r ∧ (sel = l ++ .ellipsis :: r ∨ (r = [] ∧ sel = l))

/-- In the index spelled out, `e` is the entry for axis `a`, and `b` axes of the result come before what
it selects. -/
def EntryAt (es : List Idx) (a : Nat) (e : Idx) (b : Nat) : Prop :=
  ∃ pre post, es = pre ++ e :: post ∧ e ≠ .newaxis ∧ used pre = a ∧
    b = (pre.filter (!·.isInt)).length

end Verif.Dist
