import Verif.Mem.Attrs

/-!
# Model of the copy of attributes in `copy_datasets_filter`

Models `caput/containers/_util.py:172-173` with `caput/memdata/_memh5.py:2341-2428` (`copyattrs` without
conversion of strings, from memory to memory). Attributes of a dataset are a dictionary, given as a list of
its items; values as in `Verif.Mem.Attrs`.
-/
namespace Verif.Cont
open Verif.Mem (Str Err)
open Verif.Mem.Attrs (Val Lib fromJson item)

variable {φ : Type}

/-- `d[k] = v`. -/
def putAttr (d : List (String × Val φ)) (k : String) (v : Val φ) : List (String × Val φ) :=
  if d.any (·.1 == k) then d.map fun p => if p.1 = k then (k, v) else p else d ++ [(k, v)]

/-- _memh5.py:2423-2428: the loop, over the sorted names. What has been assigned before an exception stays. -/
def copyAttrLoop (L : Lib φ) : List (String × Val φ) → List (String × Val φ) → Except Err Unit × List (String × Val φ)
  | [], d => (.ok (), d)
  | (k, v) :: rest, d =>
    match fromJson L v with
    | .error e => (.error e, d)
    | .ok w => copyAttrLoop L rest (putAttr d k (item w))

/-- _util.py:173 `copyattrs(item.attrs, dest_dset.attrs)`. -/
def copyAttrs (L : Lib φ) (src dst : List (String × Val φ)) : Except Err Unit × List (String × Val φ) :=
  copyAttrLoop L (src.mergeSort fun a b => decide (a.1 ≤ b.1)) dst

end Verif.Cont
