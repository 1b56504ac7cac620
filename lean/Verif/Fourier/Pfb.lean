import Verif.Fourier.Model
import Mathlib.Order.Interval.Finset.Nat
import Mathlib.Algebra.Order.Floor.Ring

/-!
# Model of the polyphase filter bank

Models of `caput/util/pfb.py`: the class `PFB` (82-284).

Numbers are exact. An array with one axis is its length and a function of the index. The window is given by its values. Interpolation of the profile, by a cubic spline of `scipy`, is not modelled,
only which profile it is made from. A window of length one, which would be broadcast, is left out.
-/
namespace Verif.Fourier

open Complex

noncomputable section

/-- An array with one axis. -/
structure Sig (α : Type) where
  len : Nat
  val : Nat → α

/-- `x[a:b]`. -/
def Sig.cut {α : Type} (x : Sig α) (a b : Nat) : Sig α := ⟨min b x.len - min a x.len, fun t => x.val (a + t)⟩

/-- `x[:stop:step]`. -/
def Sig.every {α : Type} (x : Sig α) (stop step : Nat) : Sig α := ⟨(min stop x.len + step - 1) / step, fun k => x.val (k * step)⟩

/-- `np.fft.rfft`. -/
def rfft (x : Sig ℝ) : Sig ℂ := ⟨x.len / 2 + 1, fun k => ∑ t ∈ Finset.range x.len, (x.val t : ℂ) * cis (-((k : ℝ) * t / x.len))⟩

/-- pfb.py:140-148: one block. -/
def blockOf (ntap lblock : Nat) (w ts : Sig ℝ) (bi : Nat) : Except Err (Sig ℂ) :=
  let sec := ts.cut (bi * lblock) ((bi + ntap) * lblock)
  if sec.len ≠ w.len then .error .valueError
  else if sec.len = 0 ∨ ntap = 0 then .error .valueError
  else
    let ft := rfft ⟨sec.len, fun t => sec.val t * w.val t⟩
    let row := ft.every ((lblock / 2) * ntap) ntap
    if row.len ≠ lblock / 2 then .error .valueError else .ok row

/-- The loop over the blocks. -/
def blocks {β : Type} (f : Nat → Except Err β) : Nat → Except Err (List β)
  | 0 => .ok []
  | n + 1 =>
    match blocks f n with
    | .error e => .error e
    | .ok l =>
      match f n with
      | .error e => .error e
      | .ok r => .ok (l ++ [r])

/-- pfb.py:117-150 `apply`; `w` is what the window function gives. -/
def apply (ntap lblock : Nat) (w ts : Sig ℝ) : Except Err (List (Sig ℂ)) :=
  if lblock = 0 then .error .zeroDivision
  else
    let nblock : Int := (ts.len / lblock : Nat) - ((ntap : Int) - 1)
    if nblock < 0 then .error .valueError else blocks (blockOf ntap lblock w ts) nblock.toNat

/-! ### The profile of a channel -/

/-- `np.fft.fft(x, n)`, with zeros at the end. -/
def fftPad (x : Sig ℝ) (n : Nat) : Sig ℂ := ⟨n, fun k => ∑ t ∈ Finset.range (min x.len n), (x.val t : ℂ) * cis (-((k : ℝ) * t / n))⟩

/-- `np.fft.fftshift`. -/
def fftshift {α : Type} (x : Sig α) : Sig α := ⟨x.len, fun i => x.val (((i : Int) - (x.len / 2 : Nat)) % x.len).toNat⟩

/-- The numbers of frequencies: `np.fft.fftfreq` without the factor. -/
def freqNum (n i : Nat) : Int := if i < (n - 1) / 2 + 1 then i else (i : Int) - n

/-- `np.fft.fftfreq(n, d)`. -/
def fftfreq (n : Nat) (d : ℝ) : Sig ℝ := ⟨n, fun i => freqNum n i / (n * d)⟩

/-- The largest real part. -/
def maxRe (x : Sig ℂ) (h : 0 < x.len) : ℝ := (Finset.range x.len).sup' ⟨0, Finset.mem_range.2 h⟩ fun i => (x.val i).re

/-- pfb.py:152-195 `compute_channel_profile`. A transform of no points is an exception; division by zero gives `nan`. -/
def profile (ntap lblock oversample : Nat) (w : Sig ℝ) (norm : Bool) : Except Err (Sig ℝ × Sig (Option ℂ)) :=
  let n := ntap * lblock * oversample
  if h : 0 < n then
    let p := fftshift (fftPad w n)
    let m := maxRe p h
    .ok (fftshift (fftfreq n (1 / lblock)), ⟨n, fun i => if norm then (if m = 0 then none else some (p.val i / m)) else some (p.val i)⟩)
  else .error .valueError

/-- pfb.py:197-230 `evaluate_channel_profile`: the state is the profile that was kept, and the result is that for which the spline is evaluated, here by the value of `norm`. -/
def evaluate (kept : Option Bool) (norm : Bool) : Option Bool × Bool :=
  match kept with
  | some b => (some b, b)
  | none => (some norm, norm)

/-! ### Decorrelation -/

/-- pfb.py:252-263: the power spectrum of the window, with zeros at the end. -/
def power (N oversample : Nat) (w : Sig ℝ) (j : Nat) : ℝ :=
  if j ≤ N * oversample / 2 then normSq ((rfft ⟨N * oversample, fun t => if t < N then w.val t else 0⟩).val j) else 0

/-- `np.fft.irfft` of real numbers, for an even length `P` of the result. -/
def irfftAt (c : Nat → ℝ) (P t : Nat) : ℝ :=
  (c 0 + (∑ j ∈ Finset.Ico 1 (P / 2), 2 * c j * Real.cos (2 * Real.pi * ((j : ℝ) * t / P))) + c (P / 2) * Real.cos (Real.pi * t)) / P

/-- pfb.py:266-273: the ratio at the number `k` of the grid. -/
def ratioAt (N oversample : Nat) (w : Sig ℝ) (k : Int) : Option ℝ :=
  let P := N * oversample ^ 2
  let out := irfftAt (power N oversample w) P
  if out 0 = 0 then none else some (out (k % P).toNat / out 0)

/-- pfb.py:234-284 `decorrelation_ratio`, for one delay. The grid has the numbers between -P/2 and (P-1)/2 with absolute values up to `N * oversample`; between its points the ratio is
interpolated, outside it is zero. -/
def decorrelation (ntap lblock oversample : Nat) (w : Sig ℝ) (delay : ℝ) : Except Err (Option ℝ) :=
  let N := ntap * lblock
  let P := N * oversample ^ 2
  if w.len ≠ N ∨ oversample = 0 then .error .valueError
  else if P / 2 = 0 then .error .valueError
  else if P % 2 = 1 then .error .indexError
  else
    let lo : Int := max (-(N * oversample : Nat)) (-(P / 2 : Nat))
    let hi : Int := min (N * oversample : Nat) ((P - 1) / 2 : Nat)
    let u := delay * oversample
    if u < lo ∨ hi < u then .ok (some 0)
    else
      let j := ⌊u⌋
      match ratioAt N oversample w j, ratioAt N oversample w (j + 1) with
      | some r, some r' => .ok (some (if u = j then r else (1 - (u - j)) * r + (u - j) * r'))
      | _, _ => .ok none

end

end Verif.Fourier
