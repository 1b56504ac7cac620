import Verif.Dist.Model
import Verif.Dist.NpIndex

/-!
# Model of indexing of distributed arrays

Models `MPIArray.__getitem__` (`caput/mpiarray.py:435-499`) and `sanitize_slice` (2394-2484).
-/
namespace Verif.Dist

variable {α : Type}

/-- mpiarray.py:2465-2469 `axis_map`: the places of the entries that are not `np.newaxis`. -/
def axisMap : List Idx → Nat → List Nat
  | [], _ => []
  | s :: es, ii => if s ≠ .newaxis then ii :: axisMap es (ii + 1) else axisMap es (ii + 1)

/-- mpiarray.py:2472-2476 `final_positions`. -/
def finalMap : List Idx → Nat → List (Option Nat)
  | [], _ => []
  | .int _ :: es, out => none :: finalMap es out
  | _ :: es, out => some out :: finalMap es (out + 1)

/-- mpiarray.py:2394-2484 `sanitize_slice`. -/
def sanitize (sel : List Idx) (naxis : Nat) : Except PyErr (List Idx × List Nat × List (Option Nat)) :=
  if 1 < sel.count .ellipsis then .error .indexError
  else
    let sl := if sel.count .ellipsis = 0 then sel ++ [.ellipsis] else sel
    let numAdded := sl.count .newaxis
    let ellInd := sl.idxOf .ellipsis
    let ellLength : Int := naxis - sl.length + numAdded + 1
    if ellLength < 0 then .error .indexError
    else
      let es := sl.take ellInd ++ List.replicate ellLength.toNat .full ++ sl.drop (ellInd + 1)
      if naxis < (axisMap es 0).length then .error .indexError
      else .ok (es, axisMap es 0, finalMap es 0)

/-- What indexing returns: a distributed array, or (with a warning) a plain one. -/
inductive Got (α : Type) where
  | mpi (B : MArr α)
  | plain (R : NArr α)

/-- mpiarray.py:435-499 `__getitem__`. -/
def getitem (A : MArr α) (sel : List Idx) : Except PyErr (Got α) := do
  let (es, amap, fmap) ← sanitize sel A.arr.shape.length
  let d ← pyGet amap A.axis
  let entry ← pyGet es (d : Int)
  let len ← pyGet A.arr.shape A.axis
  if entry ≠ .full ∧ entry ≠ .sl (some 0) (some (len : Int)) none then
    let R ← npGetitem A.arr es
    pure (.plain R)
  else
    match ← pyGet fmap (d : Int) with
    | none => .error .indexError
    | some fin =>
      if (fin : Int) = A.axis then
        let R ← npGetitem A.arr es
        let B ← finalize A R.shape R
        pure (.mpi B)
      else
        let R ← npGetitem A.arr es
        if R.shape = [] then pure (.plain R)
        else
          let glen ← pyGet A.gshape A.axis
          let off ← pyGet A.loff A.axis
          let B ← viewFrom R fin glen off A.comm
          pure (.mpi B)

end Verif.Dist
