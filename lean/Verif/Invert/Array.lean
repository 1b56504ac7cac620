import Verif.Reshape.Lemmas

/-!
# C58: `invert_no_zero` of an array

Models `caput/algorithms/_invert_no_zero/__init__.py:11-52` and the loops in `_invert_no_zero.pyx:36-44`; the
inverse of one element (C47) is a parameter. An array is its shape, its elements by multi-index, and two
flags saying whether its memory is contiguous in row-major ("C") and in column-major ("F") order. The
element type of `out` is that of the input. For an `MPIArray` this is what happens on one process.
-/
namespace Verif.Invert

open Verif.Reshape

variable {α : Type}

/-- A `numpy` array. -/
structure NArr (α : Type) where
  shape : List Nat
  val : List Nat → α
  cFlag : Bool
  fFlag : Bool

/-- The order that `order="A"` stands for. -/
def NArr.order (a : NArr α) : Order := if a.fFlag && !a.cFlag then .f else .c

/-- Is `a.ravel(order="A")` a view of `a`? Otherwise it is a copy. -/
def NArr.ravelIsView (a : NArr α) : Bool := a.cFlag || a.fFlag

/-- Element `i` of `a.ravel(order="A")`. -/
def NArr.flat (a : NArr α) (i : Nat) : α := a.val (unravelO a.order a.shape i)

/-- `np.empty_like(x, order="A")`; what it contains is not known. -/
def emptyLike (x : NArr α) (junk : List Nat → α) : NArr α :=
  ⟨x.shape, junk, !(x.fFlag && !x.cFlag), x.fFlag && !x.cFlag⟩

/-- __init__.py:48-50: `out` after the loop over the flattened arrays. -/
def invertInto (inv : α → α) (x out : NArr α) : NArr α :=
  if out.ravelIsView then { out with val := fun i => inv (x.flat (ravelO out.order out.shape i)) } else out

/-- The first argument. -/
inductive Input (α : Type) where
  | floats (x : NArr α)
  | ints (x : NArr α)
  | list

/-- Exceptions. -/
inductive IErr where
  | valueError
  | typeError
  deriving DecidableEq

/-- __init__.py:11-52 `invert_no_zero`: the returned array and what is in `out` afterwards. -/
def invertArr (inv : α → α) (junk : List Nat → α) (x : Input α) (out : Option (NArr α)) :
    Except IErr (NArr α × Option (NArr α)) :=
  match x with
  | .list => .error .typeError
  | .ints x => .ok (⟨x.shape, fun i => inv (x.val i), true, false⟩, out)
  | .floats x =>
    match out with
    | none => .ok (invertInto inv x (emptyLike x junk), none)
    | some o =>
      if x.shape ≠ o.shape then .error .valueError
      else .ok (invertInto inv x o, some (invertInto inv x o))

/-! ## The property -/

/-- `r` has the shape of `x` and at each place the inverse of what `x` has there. -/
def IsInverse (inv : α → α) (x r : NArr α) : Prop :=
  r.shape = x.shape ∧ ∀ i, InShape i x.shape → r.val i = inv (x.val i)

theorem invertInto_spec (inv : α → α) (x o : NArr α) (hs : x.shape = o.shape) (hv : o.ravelIsView = true)
    (ho : o.order = x.order) : IsInverse inv x (invertInto inv x o) := by
  unfold invertInto
  rw [if_pos hv]
  refine ⟨hs.symm, ?_⟩
  intro i hi
  simp only [NArr.flat]
  rw [ho, ← hs, unravelO_ravelO _ hi]

/-- C58. Without `out`, the result is the inverse at each place, whatever the memory layout of the input. -/
theorem C58_new (inv : α → α) (junk : List Nat → α) (x : NArr α) :
    ∃ r, invertArr inv junk (.floats x) none = .ok (r, none) ∧ IsInverse inv x r := by
  refine ⟨_, rfl, invertInto_spec inv x _ rfl ?_ ?_⟩
  · simp only [NArr.ravelIsView, emptyLike]
    cases x.fFlag && !x.cFlag <;> rfl
  · obtain ⟨s, v, c, f⟩ := x
    cases c <;> cases f <;> rfl

/-- C58. Integers. -/
theorem C58_integers (inv : α → α) (junk : List Nat → α) (x : NArr α) :
    ∃ r, invertArr inv junk (.ints x) none = .ok (r, none) ∧ IsInverse inv x r :=
  ⟨_, rfl, rfl, fun _ _ => rfl⟩

/-- C58. A given `out` that is contiguous, in the same order as the input is read, is filled and returned. -/
theorem C58_out_partial (inv : α → α) (junk : List Nat → α) (x o : NArr α) (hs : x.shape = o.shape)
    (hv : o.cFlag = true ∨ o.fFlag = true) (ho : o.order = x.order) :
    ∃ r, invertArr inv junk (.floats x) (some o) = .ok (r, some r) ∧ IsInverse inv x r := by
  refine ⟨invertInto inv x o, ?_, invertInto_spec inv x o hs ?_ ho⟩
  · simp only [invertArr]
    rw [if_neg (not_not.2 hs)]
  · rcases hv with h | h <;> simp [NArr.ravelIsView, h]

/-- C58. An `out` of another shape is refused. -/
theorem C58_shape (inv : α → α) (junk : List Nat → α) (x o : NArr α) (hs : x.shape ≠ o.shape) :
    invertArr inv junk (.floats x) (some o) = .error .valueError := by
  simp only [invertArr]
  rw [if_pos hs]

/-- The numbers 0 to 3 in a square, in row-major order. -/
def square : NArr Nat := ⟨[2, 2], ravel [2, 2], true, false⟩

/-- C58 fails for a row-major input and a column-major `out`: the result is transposed. -/
theorem C58_layout_violated (inv : Nat → Nat) (h : inv 1 ≠ inv 2) (junk v : List Nat → Nat) :
    ∃ r, invertArr inv junk (.floats square) (some ⟨[2, 2], v, false, true⟩) = .ok (r, some r) ∧
      r.val [0, 1] = inv (square.val [1, 0]) ∧ ¬ IsInverse inv square r := by
  have hv : (invertInto inv square ⟨[2, 2], v, false, true⟩).val [0, 1] = inv (square.val [1, 0]) :=
    congrArg inv (show square.flat (ravelO .f [2, 2] [0, 1]) = square.val [1, 0] by decide +kernel)
  refine ⟨_, rfl, hv, ?_⟩
  rintro ⟨_, hr⟩
  have := hr [0, 1] (by simp [InShape, square])
  rw [hv] at this
  exact h this.symm

/-- C58 fails for an `out` that is not contiguous: it is returned as it was. -/
theorem C58_not_contiguous_violated (inv : α → α) (junk : List Nat → α) (x o : NArr α) (hs : x.shape = o.shape)
    (hc : o.cFlag = false) (hf : o.fFlag = false) :
    invertArr inv junk (.floats x) (some o) = .ok (o, some o) := by
  simp [invertArr, hs, invertInto, NArr.ravelIsView, hc, hf]

/-- C58 fails for integers: `out` is not filled. -/
theorem C58_integers_violated (inv : α → α) (junk : List Nat → α) (x o : NArr α) :
    ∃ r, invertArr inv junk (.ints x) (some o) = .ok (r, some o) := ⟨_, rfl⟩

/-- C58 fails for lists, although the documentation says array-like: an exception. -/
theorem C58_list_violated (inv : α → α) (junk : List Nat → α) (out : Option (NArr α)) :
    invertArr inv junk .list out = .error .typeError := rfl

/-- Arrays that meet the hypotheses of `C58_out_partial`: both in column-major order. -/
example : ∃ r, invertArr (· + 10) (fun _ => 0) (.floats ⟨[2, 3], ravel [2, 3], false, true⟩)
    (some ⟨[2, 3], fun _ => 0, false, true⟩) = .ok (r, some r) ∧ r.val [1, 0] = 13 := by
  obtain ⟨r, h1, h2⟩ := C58_out_partial (· + 10) (fun _ => 0) ⟨[2, 3], ravel [2, 3], false, true⟩
    ⟨[2, 3], fun _ => 0, false, true⟩ rfl (Or.inr rfl) rfl
  exact ⟨r, h1, h2.2 [1, 0] (by simp [InShape])⟩

end Verif.Invert
