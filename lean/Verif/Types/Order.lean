/-!
# Model of the byte order of arrays

Models `caput/util/typeutils.py:156-195` (`check_byteorder`, `has_matching_byteorder`) and `251-271` (`ensure_native_byteorder`), and its use in
`caput/memdata/_memh5.py:1233-1244` (`MemDatasetCommon.from_numpy_array`) and `2938-2939` (process 0, before it sends a common dataset that it
has read from a file; how the array is sent is not modelled).

An array is the list of its bytes together with its type; shapes and strides are left out, and the fields of a compound type follow each other.
-/
namespace Verif.Types.ByteOrder

/-- `sys.byteorder`. -/
inductive Machine where
  | little
  | big
  deriving DecidableEq

/-- `dtype.byteorder`: `=`, `<`, `>` or `|` (does not apply). -/
inductive Mark where
  | native
  | little
  | big
  | none
  deriving DecidableEq

/-- A type: a simple one, whose elements have `parts` numbers of `width` bytes each (two for complex numbers, one for each character of a unicode
string), or a compound one. -/
inductive Ty where
  | simple (m : Mark) (width parts : Nat)
  | compound (fields : List (Mark × Nat × Nat))
  deriving DecidableEq

/-- What `numpy` reports as `dtype.byteorder`: for a compound type it is always `|`. -/
def Ty.mark : Ty → Mark
  | .simple m _ _ => m
  | .compound _ => .none

/-- `dtype.newbyteorder("=")`: all marks but `|` are replaced, in a compound type those of its fields. -/
def Ty.toNative : Ty → Ty
  | .simple m w p => .simple (if m = .none then .none else .native) w p
  | .compound fs => .compound (fs.map fun f => (if f.1 = .none then .none else .native, f.2))

/-- An array. -/
structure Arr where
  ty : Ty
  bytes : List Nat
  deriving DecidableEq

/-- typeutils.py:178-195 `has_matching_byteorder`. -/
def hasMatching (mc : Machine) (m : Mark) : Bool :=
  (m == .little && mc == .little) || (m == .big && mc == .big)

/-- typeutils.py:156-175 `check_byteorder`. -/
def checkOrder (mc : Machine) (m : Mark) : Bool :=
  if m = .native then false
  else if hasMatching mc m then true
  else false

/-- typeutils.py:251-271 `ensure_native_byteorder`: the same bytes, under another type. -/
def ensureNative (mc : Machine) (a : Arr) : Arr :=
  if checkOrder mc a.ty.mark then ⟨a.ty.toNative, a.bytes⟩ else a

end Verif.Types.ByteOrder
