/-!
# Model of array utilities

Models `caput/util/arraytools.py:135-152` (`unique_ordered`) and `28-47` (`LRUCache`). The cache inherits
everything but the size function from `cachetools.LRUCache`; its methods are modelled after the source of
`cachetools` (`Cache.__setitem__`, `LRUCache.__getitem__`, `__setitem__`, `__delitem__`, `popitem`), which is
not part of `/repo`.
-/
namespace Verif.Util

/-! ## `unique_ordered` -/

/-- arraytools.py:148-152: the comprehension, with the set `seen`; `none` is the `TypeError` of an element
that cannot be hashed. -/
def uniqueFrom {α : Type} [DecidableEq α] (hashable : α → Bool) : List α → List α → Option (List α)
  | _, [] => some []
  | seen, x :: xs =>
    if hashable x then
      if x ∈ seen then uniqueFrom hashable seen xs
      else (uniqueFrom hashable (x :: seen) xs).map (x :: ·)
    else none

/-- arraytools.py:135 `unique_ordered`. -/
def uniqueOrdered {α : Type} [DecidableEq α] (hashable : α → Bool) (xs : List α) : Option (List α) :=
  uniqueFrom hashable [] xs

/-! ## `LRUCache` -/

/-- What is stored: `size` is `none` if the value is not an array, otherwise its `nbytes`. -/
structure Value (V : Type) where
  val : V
  size : Option Nat

/-- The cache. The items are kept in the order of use, the least recently used first (in `cachetools` the
items and their order are two dictionaries with the same keys). -/
structure Cache (K V : Type) where
  maxsize : Nat
  curr : Nat
  items : List (K × V × Nat)

/-- Exceptions. -/
inductive CErr where
  | keyError
  | valueError
  deriving DecidableEq

variable {K V : Type} [DecidableEq K]

/-- arraytools.py:47 `LRUCache(size_bytes)`. -/
def Cache.empty (maxsize : Nat) : Cache K V := ⟨maxsize, 0, []⟩

/-- The item with a key. -/
def findItem (l : List (K × V × Nat)) (k : K) : Option (V × Nat) := (l.find? (·.1 = k)).map (·.2)

/-- The items without a key. -/
def without (l : List (K × V × Nat)) (k : K) : List (K × V × Nat) := l.filter (·.1 ≠ k)

/-- `key in cache`. -/
def Cache.contains (c : Cache K V) (k : K) : Bool := (findItem c.items k).isSome

/-- `cache[key]`. -/
def Cache.getItem (c : Cache K V) (k : K) : Except CErr V × Cache K V :=
  match findItem c.items k with
  | none => (.error .keyError, c)
  | some (v, n) => (.ok v, ⟨c.maxsize, c.curr, without c.items k ++ [(k, v, n)]⟩)

/-- `del cache[key]`. -/
def Cache.delItem (c : Cache K V) (k : K) : Except CErr Unit × Cache K V :=
  match findItem c.items k with
  | none => (.error .keyError, c)
  | some (_, n) => (.ok (), ⟨c.maxsize, c.curr - n, without c.items k⟩)

/-- `while currsize + size > maxsize: popitem()`, on the size and the items. (With no items left the loop
ends because the value alone fits.) -/
def evict (maxsize size : Nat) : Nat → List (K × V × Nat) → Nat × List (K × V × Nat)
  | curr, [] => (curr, [])
  | curr, (k, v, n) :: rest =>
    if curr + size > maxsize then evict maxsize size (curr - n) rest else (curr, (k, v, n) :: rest)

/-- The eviction step of `Cache.__setitem__`: skipped if the key is held with at least this size. -/
def makeRoom (c : Cache K V) (k : K) (size : Nat) : Nat × List (K × V × Nat) :=
  match findItem c.items k with
  | none => evict c.maxsize size c.curr c.items
  | some (_, old) => if old < size then evict c.maxsize size c.curr c.items else (c.curr, c.items)

/-- The storing step of `Cache.__setitem__` and the `__touch` of `LRUCache.__setitem__`. -/
def store (maxsize : Nat) (k : K) (v : V) (size : Nat) (r : Nat × List (K × V × Nat)) : Cache K V :=
  match findItem r.2 k with
  | none => ⟨maxsize, r.1 + size, r.2 ++ [(k, v, size)]⟩
  | some (_, old) => ⟨maxsize, r.1 + size - old, without r.2 k ++ [(k, v, size)]⟩

/-- `cache[key] = value`. -/
def Cache.setItem (c : Cache K V) (k : K) (v : Value V) : Except CErr Unit × Cache K V :=
  match v.size with
  | none => (.error .valueError, c)
  | some size =>
    if size > c.maxsize then (.error .valueError, c)
    else (.ok (), store c.maxsize k v.val size (makeRoom c k size))

/-- Operations. -/
inductive Op (K V : Type) where
  | get (k : K)
  | set (k : K) (v : Value V)
  | del (k : K)

/-- One operation. -/
def Cache.step (c : Cache K V) : Op K V → Cache K V
  | .get k => (c.getItem k).2
  | .set k v => (c.setItem k v).2
  | .del k => (c.delItem k).2

/-- A history. -/
def Cache.run (c : Cache K V) (ops : List (Op K V)) : Cache K V := ops.foldl Cache.step c

end Verif.Util
