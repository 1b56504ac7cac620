import Verif.Dist.Np

/-!
# `numpy`'s reductions and accumulations

Nothing here is code of the repository; see `Np.lean`.
-/
namespace Verif.Dist

open Verif.Reshape (prod)

variable {α β : Type}

/-- All multi-indices of a shape, in row-major order. -/
def indices : List Nat → List (List Nat)
  | [] => [[]]
  | n :: s => (List.range n).flatMap fun x => (indices s).map (x :: ·)

/-- The entries of a list at the places where the mask is `v`. -/
def sel : List Bool → Bool → List β → List β
  | m :: ms, v, x :: xs => if m = v then x :: sel ms v xs else sel ms v xs
  | _, _, _ => []

/-- The multi-index with the entries of `k` where the mask is true and those of `o` elsewhere. -/
def merge : List Bool → List Nat → List Nat → List Nat
  | true :: m, o, x :: k => x :: merge m o k
  | false :: m, y :: o, k => y :: merge m o k
  | _, _, _ => []

/-- The shape with reduced axes kept as axes of length one. -/
def keepShape (m : List Bool) (s : List Nat) : List Nat :=
  List.zipWith (fun b d => if b then 1 else d) m s

/-- A function of all values that are reduced, in row-major order, and its value for none of them (if
it has no identity, a reduction of nothing is refused). -/
structure Red (α : Type) where
  ident : Option α
  fold : List α → α

/-- Which axes are reduced: `none` stands for all. -/
def axesMask (n : Nat) : Option (List Int) → Except PyErr (List Bool)
  | none => .ok (List.replicate n true)
  | some l =>
    match l.mapM (normAxis n) with
    | .error e => .error e
    | .ok p => if p.Nodup then .ok ((List.range n).map fun (k : Nat) => decide (k ∈ p)) else .error .valueError

/-- The reduced array for a given mask. -/
def reduced (u : Red α) (A : NArr α) (m : List Bool) (keep : Bool) : NArr α :=
  { shape := if keep then keepShape m A.shape else sel m false A.shape
    val := fun j => u.fold ((indices (sel m true A.shape)).map fun k =>
      A.val (merge m (if keep then sel m false j else j) k)) }

/-- `ufunc.reduce(A, axis, keepdims)`. -/
def npReduce (u : Red α) (A : NArr α) (axis : Option (List Int)) (keep : Bool) : Except PyErr (NArr α) :=
  match axesMask A.shape.length axis with
  | .error e => .error e
  | .ok m =>
    if u.ident.isNone ∧ prod (sel m true A.shape) = 0 ∧ prod (sel m false A.shape) ≠ 0 then .error .valueError
    else .ok (reduced u A m keep)

/-- `ufunc.accumulate(A, axis)`; `acc` is the function of the values up to a place. -/
def npAccumulate (acc : List α → α) (A : NArr α) (axis : Int) : Except PyErr (NArr α) :=
  match normAxis A.shape.length axis with
  | .error e => .error e
  | .ok k => .ok
    { shape := A.shape
      val := fun i => acc ((List.range (i.getD k 0 + 1)).map fun (x : Nat) => A.val (i.set k x)) }

end Verif.Dist
