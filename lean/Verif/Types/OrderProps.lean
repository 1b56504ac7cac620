import Verif.Types.Order

/-!
# C122: making the byte order native keeps every value

The specification reads numbers from bytes: byte `i` of `n` counts `256 ^ i` if the lowest comes first, and `256 ^ (n - 1 - i)` otherwise.
-/
namespace Verif.Types.ByteOrder

/-- The number that some bytes mean, the lowest first. -/
def lowFirst : List Nat → Nat
  | [] => 0
  | b :: l => b + 256 * lowFirst l

/-- The number that some bytes mean under a mark. -/
def number (mc : Machine) (m : Mark) (l : List Nat) : Nat :=
  match m, mc with
  | .little, _ => lowFirst l
  | .big, _ => lowFirst l.reverse
  | .native, .little => lowFirst l
  | .native, .big => lowFirst l.reverse
  -- single bytes, which are read in the order they have
  | .none, _ => lowFirst l

/-- Part `k` of `parts`, from byte `o` on, of a simple type. -/
def part (mc : Machine) (m : Mark) (w : Nat) (l : List Nat) (o k : Nat) : Nat := number mc m ((l.drop (o + k * w)).take w)

/-- The number of bytes of one element. -/
def Ty.size : Ty → Nat
  | .simple _ w p => w * p
  | .compound fs => (fs.map fun f => f.2.1 * f.2.2).sum

/-- `v` is the value of part `k` of field `j` of element `e` of the array (a simple type is its own field 0). -/
def IsValue (mc : Machine) (a : Arr) (e j k v : Nat) : Prop :=
  match a.ty with
  | .simple m w p => j = 0 ∧ k < p ∧ v = part mc m w a.bytes (e * a.ty.size) k
  | .compound fs => ∃ f, fs[j]? = some f ∧ k < f.2.2 ∧
      v = part mc f.1 f.2.1 a.bytes (e * a.ty.size + ((fs.take j).map fun f => f.2.1 * f.2.2).sum) k

/-- A mark that MPI can send: native, or there is no order. -/
def Sendable (a : Arr) : Prop :=
  match a.ty with
  | .simple m _ _ => m = .native ∨ m = .none
  | .compound fs => ∀ f ∈ fs, f.1 = .native ∨ f.1 = .none

/-- The mark means the order of the machine. -/
def OwnOrder (mc : Machine) (m : Mark) : Prop := (m = .little ∧ mc = .little) ∨ (m = .big ∧ mc = .big)

/-- C122: no value changes, for any type, mark and machine, and no byte. -/
theorem C122_values (mc : Machine) (a : Arr) (e j k v : Nat) :
    (IsValue mc (ensureNative mc a) e j k v ↔ IsValue mc a e j k v) ∧ (ensureNative mc a).bytes = a.bytes := by
  obtain ⟨ty, bytes⟩ := a
  cases ty with
  | compound fs => simp [ensureNative, Ty.mark, checkOrder, hasMatching]
  | simple m w p =>
    cases m <;> cases mc <;> simp [ensureNative, Ty.mark, checkOrder, hasMatching, Ty.toNative, IsValue, Ty.size, part, number]

/-- The value 258 = 2 + 256 of a number of two bytes with the lowest first, on a machine with that order: it is there before and after. -/
example : IsValue .little ⟨.simple .little 2 1, [7, 7, 2, 1]⟩ 1 0 0 258 ∧ IsValue .little (ensureNative .little ⟨.simple .little 2 1, [7, 7, 2, 1]⟩) 1 0 0 258 := by
  have h : IsValue .little ⟨.simple .little 2 1, [7, 7, 2, 1]⟩ 1 0 0 258 := ⟨rfl, by decide, rfl⟩
  exact ⟨h, (C122_values .little _ 1 0 0 258).1.2 h⟩

/-- C122: an array of a simple type that is in the order of the machine becomes native, and one that MPI can send already remains as it is.
Missing: compound types (`C122_compound_violated`) and the other order (`C122_other_violated`). -/
theorem C122_native_partial (mc : Machine) (m : Mark) (w p : Nat) (l : List Nat) (hm : OwnOrder mc m) :
    ensureNative mc ⟨.simple m w p, l⟩ = ⟨.simple .native w p, l⟩ ∧ Sendable (ensureNative mc ⟨.simple m w p, l⟩) := by
  rcases hm with ⟨rfl, rfl⟩ | ⟨rfl, rfl⟩ <;> exact ⟨rfl, .inl rfl⟩

example : OwnOrder .big .big := .inr ⟨rfl, rfl⟩

/-- C122: what can be sent is not touched, of any type. -/
theorem C122_kept (mc : Machine) (a : Arr) (h : Sendable a) : ensureNative mc a = a := by
  obtain ⟨ty, bytes⟩ := a
  cases ty with
  | compound fs => simp [ensureNative, Ty.mark, checkOrder, hasMatching]
  | simple m w p => rcases h with rfl | rfl <;> simp [ensureNative, Ty.mark, checkOrder, hasMatching]

example : Sendable ⟨.compound [(.native, 4, 1), (.none, 1, 5)], []⟩ := by
  intro f hf; simp at hf; rcases hf with rfl | rfl <;> simp

/-- C122 is violated: a compound type with any field that is marked with an order, be it the machine's own, is left as it is, and cannot be sent. -/
theorem C122_compound_violated (mc : Machine) (fs : List (Mark × Nat × Nat)) (l : List Nat) (f : Mark × Nat × Nat) (hf : f ∈ fs) (hm : f.1 = .little ∨ f.1 = .big) :
    ensureNative mc ⟨.compound fs, l⟩ = ⟨.compound fs, l⟩ ∧ ¬ Sendable (ensureNative mc ⟨.compound fs, l⟩) := by
  have h : ensureNative mc ⟨.compound fs, l⟩ = ⟨.compound fs, l⟩ := by simp [ensureNative, Ty.mark, checkOrder, hasMatching]
  refine ⟨h, ?_⟩
  rw [h]
  intro hs
  rcases hm with hm | hm <;> rcases hs f hf with h1 | h1 <;> rw [hm] at h1 <;> cases h1

example : ensureNative .little ⟨.compound [(.little, 4, 1)], [1, 0, 0, 0]⟩ = ⟨.compound [(.little, 4, 1)], [1, 0, 0, 0]⟩ := by decide

/-- C122 is violated: an array in the other order stays in it. -/
theorem C122_other_violated (mc : Machine) (m : Mark) (w p : Nat) (l : List Nat) (hm : m = .little ∨ m = .big) (ho : ¬ OwnOrder mc m) :
    ensureNative mc ⟨.simple m w p, l⟩ = ⟨.simple m w p, l⟩ ∧ ¬ Sendable (ensureNative mc ⟨.simple m w p, l⟩) := by
  rcases hm with rfl | rfl <;> cases mc <;> simp_all [OwnOrder, ensureNative, Ty.mark, checkOrder, hasMatching, Sendable]

example : (Mark.big = .little ∨ Mark.big = .big) ∧ ¬ OwnOrder .little .big := by
  simp [OwnOrder]

end Verif.Types.ByteOrder
