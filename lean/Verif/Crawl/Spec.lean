import Verif.Crawl.Model

/-!
# What redistributing a container should do
-/
namespace Verif.Crawl

variable {δ : Type}


/-- The dataset `addr` is in the tree, at `path`. -/
inductive Holds : Tree → List Str → Nat → Prop
  | here (addr : Nat) : Holds (.dset addr) [] addr
  | inside (kids : Kids) (n : Str) (t : Tree) (p : List Str) (addr : Nat) : (n, t) ∈ kids.toList → Holds t p addr →
      Holds (.group kids) (n :: p) addr

/-- The argument stands for axis `k` of a dataset with `naxis` axes with those labels. -/
def Means (naxis : Nat) (labels : Option (List Str)) : AxisArg → Nat → Prop
  | .name s, k => ∃ l, labels = some l ∧ k < naxis ∧ l[k]? = some s ∧ ∀ j < k, l[j]? ≠ some s
  | .num z, k => k < naxis ∧ (z = k ∨ z = (k : Int) - naxis)

/-- The first argument that stands for an axis of the dataset stands for axis `k`. -/
def Chosen (naxis : Nat) (labels : Option (List Str)) (args : List AxisArg) (k : Nat) : Prop :=
  ∃ (i : Nat) (a : AxisArg), args[i]? = some a ∧ Means naxis labels a k ∧
    ∀ (j : Nat) b, j < i → args[j]? = some b → ∀ k', ¬ Means naxis labels b k'

/-- Numbers do not count back beyond the first axis. -/
def InReach (naxis : Nat) (args : List AxisArg) : Prop := ∀ z, .num z ∈ args → -(naxis : Int) ≤ z

/-- What a dataset should become. -/
def Becomes (move : Int → δ → δ) (args : List AxisArg) (d d' : Ds δ) : Prop :=
  d'.naxis = d.naxis ∧ d'.labels = d.labels ∧
  (d.dist = none → d'.dist = none) ∧
  ∀ x, d.dist = some x →
    (∀ k, Chosen d.naxis d.labels args k → d'.dist = some (move k x)) ∧
    ((∀ k, ¬ Chosen d.naxis d.labels args k) → d'.dist = some x)

/-- There is a dataset of that name in the tree, distributed, that has none of the axes. -/
def Missed (args : List AxisArg) (heap : Nat → Option (Ds δ)) (t : Tree) (p : List Str) : Prop :=
  ∃ addr d x, Holds t p addr ∧ heap addr = some d ∧ d.dist = some x ∧ ∀ k, ¬ Chosen d.naxis d.labels args k

end Verif.Crawl
