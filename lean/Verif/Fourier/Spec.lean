import Verif.Fourier.Model

/-!
# Discrete Fourier transforms and convolutions
-/
namespace Verif.Fourier

noncomputable section

variable {d : Nat}

/-- All indices that agree with `k` except on the axes `S`, along which they go over the whole array. -/
def box (n : Fin d → Nat) (S : Finset (Fin d)) (k : Fin d → Nat) : Finset (Fin d → Nat) :=
  Fintype.piFinset fun a => if a ∈ S then Finset.range (n a) else {k a}

/-- The discrete Fourier transform over the axes `S`. -/
def dft (n : Fin d → Nat) (S : Finset (Fin d)) (x : (Fin d → Nat) → ℂ) (k : Fin d → Nat) : ℂ :=
  ∑ m ∈ box n S k, x m * Complex.exp (-2 * Real.pi * Complex.I * ∑ a ∈ S, (k a : ℂ) * (m a : ℂ) / (n a : ℂ))

/-- The index `k - m` along the axes `S`, going round at the ends. -/
def back (n : Fin d → Nat) (S : Finset (Fin d)) (k m : Fin d → Nat) : Fin d → Nat :=
  fun a => if a ∈ S then (((k a : Int) - m a) % n a).toNat else k a

/-- The convolution over the axes `S`, going round at the ends. -/
def convolution (n : Fin d → Nat) (S : Finset (Fin d)) (x y : (Fin d → Nat) → ℂ) (k : Fin d → Nat) : ℂ :=
  ∑ m ∈ box n S k, x m * y (back n S k m)

/-- An index of the array. -/
def Inside (n : Fin d → Nat) (k : Fin d → Nat) : Prop := ∀ a, k a < n a

/-- The number `a` names the axis `b`, from the start or from the end. -/
def Names (a : Int) (b : Fin d) : Prop := a = (b.val : Int) ∨ a + d = (b.val : Int)

/-- The argument `axes` names the axes `S`, each once. -/
def AxisSet (axes : Axes) (S : Finset (Fin d)) : Prop :=
  match axes with
  | .all => S = Finset.univ
  | .one a => ∃ b, Names a b ∧ S = {b}
  | .many l => ∃ bs, List.Forall₂ Names l bs ∧ bs.Nodup ∧ S = bs.toFinset

end

end Verif.Fourier
