import Mathlib.Analysis.SpecialFunctions.Complex.Circle
import Mathlib.Algebra.BigOperators.Ring.Finset
import Mathlib.Data.Fintype.Pi

/-!
# Model of Fourier transforms

Models of `caput/algorithms/fft/fftw.py` (all functions).

Numbers are exact complex numbers. An array with `d` axes is a function of its indices, of which those below the shape matter. What `pyfftw` computes is taken from its documentation: the
discrete Fourier transform over the axes, in the backward direction divided by the number of terms.

Left out: repeated axes, alignment in memory, numbers of threads, precision.
-/
namespace Verif.Fourier

open Complex

noncomputable section

/-- `exp(2 π i x)`. -/
def cis (x : ℝ) : ℂ := exp (2 * Real.pi * x * I)

inductive Err where
  | typeError
  | valueError
  | runtimeError
  | indexError
  | zeroDivision
  | attributeError
  deriving DecidableEq, Repr

/-- Kinds of `dtype`. -/
inductive Kind where
  | complex64
  | complex128
  | other
  deriving DecidableEq, Repr

variable {d : Nat}

/-- An array. -/
structure Arr (d : Nat) where
  shape : Fin d → Nat
  kind : Kind
  val : (Fin d → Nat) → ℂ

/-- The argument `axes` (fftw.py:89-92). -/
inductive Axes where
  | all
  | one (a : Int)
  | many (l : List Int)

/-- An axis by its number, which may count from the end. -/
def axisOf (d : Nat) (a : Int) : Option (Fin d) :=
  if h : 0 ≤ a ∧ a.toNat < d then some ⟨a.toNat, h.2⟩
  else if h : a < 0 ∧ 0 ≤ a + d ∧ (a + d).toNat < d then some ⟨(a + d).toNat, h.2.2⟩
  else none

def axesOf (d : Nat) : List Int → Except Err (List (Fin d))
  | [] => .ok []
  | a :: l =>
    match axisOf d a, axesOf d l with
    | some b, .ok bs => .ok (b :: bs)
    | none, _ => .error .valueError
    | _, .error e => .error e

/-- An object of the class `FFTW`. -/
structure Plan (d : Nat) where
  shape : Fin d → Nat
  kind : Kind
  axes : List (Fin d)
  forward : Bool
  backward : Bool

/-- fftw.py:77-116 `__init__`. -/
def mkPlan (shape : Fin d → Nat) (kind : Kind) (axes : Axes) (forward backward : Bool) : Except Err (Plan d) :=
  if kind = .other then .error .typeError
  else
    match axes with
    | .all => .ok ⟨shape, kind, List.finRange d, forward, backward⟩
    | .one a =>
      match axesOf d [a] with
      | .error e => .error e
      | .ok l => .ok ⟨shape, kind, l, forward, backward⟩
    | .many l =>
      match axesOf d l with
      | .error e => .error e
      | .ok l => .ok ⟨shape, kind, l, forward, backward⟩

/-- The transform along one axis of length `n a`. The sign is that of the exponent. -/
def alongAxis (sign : ℝ) (n : Fin d → Nat) (a : Fin d) (x : (Fin d → Nat) → ℂ) : (Fin d → Nat) → ℂ :=
  fun k => ∑ t ∈ Finset.range (n a), x (Function.update k a t) * cis (sign * ((k a : ℝ) * t / n a))

def alongAxes (sign : ℝ) (n : Fin d → Nat) (axes : List (Fin d)) (x : (Fin d → Nat) → ℂ) : (Fin d → Nat) → ℂ :=
  axes.foldr (alongAxis sign n) x

/-- The number of terms. -/
def terms (n : Fin d → Nat) (axes : List (Fin d)) : Nat := (axes.map n).prod

/-- An argument: an array, or something like an array that is none. -/
inductive Arg (d : Nat) where
  | arr (x : Arr d)
  | like

/-- fftw.py:130-154 `fft`: the result has the type of the argument, which must be that of the plan; what is no array has no attribute `shape`, which is caught with the same words as
a missing plan. -/
def fft (P : Plan d) : Arg d → Except Err (Arr d)
  | .like => .error .runtimeError
  | .arr x =>
    if P.forward = false then .error .runtimeError
    else if x.shape ≠ P.shape ∨ x.kind ≠ P.kind then .error .valueError
    else .ok ⟨x.shape, x.kind, alongAxes (-1) P.shape P.axes x.val⟩

/-- fftw.py:156-183 `ifft`. -/
def ifft (P : Plan d) : Arg d → Except Err (Arr d)
  | .like => .error .runtimeError
  | .arr x =>
    if P.backward = false then .error .runtimeError
    else if x.shape ≠ P.shape ∨ x.kind ≠ P.kind then .error .valueError
    else .ok ⟨x.shape, x.kind, fun k => alongAxes 1 P.shape P.axes x.val k / (terms P.shape P.axes : ℂ)⟩

/-- fftw.py:185-214 `fftconvolve`. -/
def fftconvolve (P : Plan d) (in1 in2 : Arg d) : Except Err (Arr d) :=
  match fft P in1 with
  | .error e => .error e
  | .ok X1 =>
    match fft P in2 with
    | .error e => .error e
    | .ok X2 => ifft P (.arr { X1 with val := fun k => X1.val k * X2.val k })

/-- fftw.py:216-245 `fftwindow`: a window of the same shape. -/
def fftwindow (P : Plan d) (x : Arg d) (window : (Fin d → Nat) → ℂ) : Except Err (Arr d) :=
  match fft P x with
  | .error e => .error e
  | .ok X => ifft P (.arr { X with val := fun k => X.val k * window k })

/-- fftw.py:248-269, the function. -/
def fftOf (x : Arr d) (axes : Axes) : Except Err (Arr d) :=
  match mkPlan x.shape x.kind axes true false with
  | .error e => .error e
  | .ok P => fft P (.arr x)

/-- fftw.py:272-293. -/
def ifftOf (x : Arr d) (axes : Axes) : Except Err (Arr d) :=
  match mkPlan x.shape x.kind axes false true with
  | .error e => .error e
  | .ok P => ifft P (.arr x)

/-- fftw.py:296-322. -/
def fftconvolveOf (in1 in2 : Arr d) (axes : Axes) : Except Err (Arr d) :=
  match mkPlan in1.shape in1.kind axes true true with
  | .error e => .error e
  | .ok P => fftconvolve P (.arr in1) (.arr in2)

/-- fftw.py:325-353. -/
def fftwindowOf (x : Arr d) (window : (Fin d → Nat) → ℂ) (axes : Axes) : Except Err (Arr d) :=
  match mkPlan x.shape x.kind axes true true with
  | .error e => .error e
  | .ok P => fftwindow P (.arr x) window

end

end Verif.Fourier
