/-!
# Model of redistributing a container

Models `Container.redistribute` (`caput/containers/_core.py:202-266`): the walk over the tree of datasets,
the choice of an axis for each, and `MemDatasetDistributed.redistribute` (`caput/memdata/_memh5.py:1552-1571`)
for the datasets in the tree.

Datasets are objects: the tree has their addresses and the heap what they are. What
`MPIArray.redistribute` does to a distributed array (C04) is a parameter. Left out: that it can fail for
want of memory; containers on disk (which raise `AttributeError`); axes that are neither numbers nor strings.
-/
namespace Verif.Crawl

abbrev Str := List Char

mutual
/-- `_Storage` (`_memh5.py:104-127`) or a dataset, by its address. -/
inductive Tree where
  | group (kids : Kids)
  | dset (addr : Nat)
/-- The entries of a `_Storage`, in order. -/
inductive Kids where
  | nil
  | cons (name : Str) (t : Tree) (rest : Kids)
end

/-- `list(item.items())`. -/
def Kids.toList : Kids → List (Str × Tree)
  | .nil => []
  | .cons n t rest => (n, t) :: rest.toList

/-- A dataset: the number of its axes, its attribute "axis", and its array if it is distributed. -/
structure Ds (δ : Type) where
  naxis : Nat
  labels : Option (List Str)
  dist : Option δ

inductive AxisArg where
  | name (s : Str)
  | num (z : Int)
  deriving DecidableEq, Repr

variable {δ : Type}

/-- Lines 240-256: the axis that an entry of `dist_axis` stands for; `none` is `continue`. -/
def resolve (d : Ds δ) : AxisArg → Option Int
  | .name s =>
    match d.labels with
    | none => none
    | some l =>
      match l.idxOf? s with
      | none => none
      | some k => if d.naxis ≤ k then none else some k
  | .num z =>
    let axis := if z < 0 then d.naxis + z else z
    if d.naxis ≤ axis then none else some axis

/-- The state: the heap, and the datasets warned about. -/
structure St (δ : Type) where
  heap : Nat → Option (Ds δ)
  warned : List Str

/-- Lines 236-266: one dataset. `move` is `MPIArray.redistribute`. -/
def visit (move : Int → δ → δ) (args : List AxisArg) (s : St δ) (name : Str) (addr : Nat) : St δ :=
  match s.heap addr with
  | none => s
  | some d =>
    match d.dist with
    | none => s
    | some x =>
      match args.findSome? (resolve d) with
      | some k => { s with heap := fun a => if a = addr then some { d with dist := some (move k x) } else s.heap a }
      | none => { s with warned := s.warned ++ [name] }

mutual
/-- The number of nodes (for termination). -/
def Tree.count : Tree → Nat
  | .group kids => 1 + kids.count
  | .dset _ => 1
def Kids.count : Kids → Nat
  | .nil => 0
  | .cons _ t rest => t.count + rest.count
end

def countStack : List (Str × Tree) → Nat
  | [] => 0
  | x :: l => x.2.count + countStack l

theorem countStack_append (l l' : List (Str × Tree)) : countStack (l ++ l') = countStack l + countStack l' := by
  induction l with
  | nil => simp [countStack]
  | cons x l ih => rw [List.cons_append, countStack, countStack, ih, Nat.add_assoc]

theorem countStack_reverse (l : List (Str × Tree)) : countStack l.reverse = countStack l := by
  induction l with
  | nil => rfl
  | cons x l ih =>
    rw [List.reverse_cons, countStack_append, ih, countStack, countStack, countStack]
    omega

theorem countStack_kids (k : Kids) : countStack k.toList = k.count := by
  match k with
  | .nil => rfl
  | .cons n t rest => rw [Kids.toList, countStack, Kids.count, countStack_kids rest]

/-- Lines 228-266: the walk. The stack has its top in front. -/
def crawl (move : Int → δ → δ) (args : List AxisArg) : List (Str × Tree) → St δ → St δ
  | [], s => s
  | (name, t) :: stack, s =>
    match t with
    | .group kids => crawl move args (kids.toList.reverse ++ stack) s
    | .dset addr => crawl move args stack (visit move args s name addr)
termination_by stack => countStack stack
decreasing_by
  · rw [countStack_append, countStack_reverse, countStack_kids, countStack, Tree.count]
    omega
  · rw [countStack, Tree.count]
    omega

/-- A container: the tree it is stored in, and the path of the group that it is. -/
structure Box where
  root : Kids
  path : List Str

/-- Lines 218-266. The walk begins at the root of the storage. -/
def redistribute (move : Int → δ → δ) (args : List AxisArg) (b : Box) (s : St δ) : St δ :=
  crawl move args b.root.toList.reverse s

end Verif.Crawl
