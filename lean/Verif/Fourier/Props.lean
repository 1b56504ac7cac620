import Verif.Fourier.Lemmas
import Mathlib.Data.List.Forall2
import Mathlib.Algebra.BigOperators.Field

/-!
# C81: Fourier transforms
-/
namespace Verif.Fourier

open Complex

variable {d : Nat}

theorem axisOf_names (a : Int) (b : Fin d) (h : Names a b) : axisOf d a = some b := by
  unfold axisOf
  have hb := b.isLt
  unfold Names at h
  by_cases h0 : 0 ≤ a ∧ a.toNat < d
  · rw [dif_pos h0]
    congr 1
    apply Fin.ext
    simp only
    omega
  · rw [dif_neg h0, dif_pos (by omega)]
    congr 1
    apply Fin.ext
    simp only
    omega

theorem axisOf_some (a : Int) (b : Fin d) (h : axisOf d a = some b) : Names a b := by
  unfold axisOf at h
  unfold Names
  split at h
  · rename_i h0
    cases h
    left
    simp only
    omega
  · split at h
    · rename_i h1
      cases h
      right
      simp only
      omega
    · cases h

theorem axesOf_names (l : List Int) (bs : List (Fin d)) (h : List.Forall₂ Names l bs) : axesOf d l = .ok bs := by
  induction h with
  | nil => rfl
  | cons h1 _ ih =>
    rw [axesOf, axisOf_names _ _ h1, ih]

theorem mkPlan_of (shape : Fin d → Nat) (kind : Kind) (axes : Axes) (S : Finset (Fin d)) (h : AxisSet axes S) (hk : kind ≠ .other) (f b : Bool) :
    ∃ l : List (Fin d), mkPlan shape kind axes f b = .ok ⟨shape, kind, l, f, b⟩ ∧ l.Nodup ∧ l.toFinset = S := by
  unfold mkPlan
  rw [if_neg hk]
  match axes, h with
  | .all, h =>
    refine ⟨_, rfl, List.nodup_finRange d, ?_⟩
    rw [show S = Finset.univ from h]
    ext a
    simp
  | .one a, ⟨b', hb, hS⟩ =>
    have := axesOf_names [a] [b'] (.cons hb .nil)
    refine ⟨[b'], ?_, List.nodup_singleton _, ?_⟩
    · simp only [this]
    · rw [hS]
      rfl
  | .many l, ⟨bs, hb, hn, hS⟩ =>
    have := axesOf_names l bs hb
    refine ⟨bs, ?_, hn, hS.symm⟩
    simp only [this]

/-- The axes do not depend on the directions. -/
theorem mkPlan_axes (shape : Fin d → Nat) (kind : Kind) (axes : Axes) (P : Plan d) (f b f' b' : Bool) (h : mkPlan shape kind axes f b = .ok P) :
    mkPlan shape kind axes f' b' = .ok { P with forward := f', backward := b' } := by
  unfold mkPlan at *
  split at h
  · cases h
  · rename_i hk
    rw [if_neg hk]
    cases axes with
    | all =>
      cases h
      rfl
    | one a =>
      simp only at *
      cases hl : axesOf d [a] with
      | error e => simp [hl] at h
      | ok l =>
        simp only [hl] at h
        cases h
        rfl
    | many l' =>
      simp only at *
      cases hl : axesOf d l' with
      | error e => simp [hl] at h
      | ok l =>
        simp only [hl] at h
        cases h
        rfl

theorem alongAxes_scale (s : ℝ) (n : Fin d → Nat) (l : List (Fin d)) (x : (Fin d → Nat) → ℂ) (c : ℂ) (k : Fin d → Nat) :
    alongAxes s n l (fun j => x j / c) k = alongAxes s n l x k / c := by
  induction l generalizing k with
  | nil => rfl
  | cons a l ih =>
    change alongAxis s n a (alongAxes s n l fun j => x j / c) k = alongAxis s n a (alongAxes s n l x) k / c
    unfold alongAxis
    rw [Finset.sum_div]
    apply Finset.sum_congr rfl
    intro t _
    rw [ih]
    ring

/-- The transform is the one of the specification. -/
theorem forward_eq (n : Fin d → Nat) (l : List (Fin d)) (h : l.Nodup) (x : (Fin d → Nat) → ℂ) (k : Fin d → Nat) : alongAxes (-1) n l x k = dft n l.toFinset x k := by
  rw [alongAxes_eq _ _ _ h]
  unfold dft
  apply Finset.sum_congr rfl
  intro m _
  congr 1
  unfold cis
  congr 1
  push_cast
  ring

/-- The transform back of a product of transforms. -/
theorem product_back (n : Fin d → Nat) (l : List (Fin d)) (h : l.Nodup) (x y : (Fin d → Nat) → ℂ) (k : Fin d → Nat) (hn : ∀ a ∈ l.toFinset, 0 < n a) :
    alongAxes 1 n l (fun j => dft n l.toFinset x j * dft n l.toFinset y j) k / (terms n l : ℂ) = convolution n l.toFinset x y k := by
  have hT : ((∏ a ∈ l.toFinset, n a : ℕ) : ℂ) ≠ 0 := by
    rw [Nat.cast_ne_zero, Finset.prod_ne_zero_iff]
    exact fun a ha => (hn a ha).ne'
  rw [terms_eq n l h, div_eq_iff hT, alongAxes_eq _ _ _ h]
  have hdft : ∀ (z : (Fin d → Nat) → ℂ) j, j ∈ box n l.toFinset k → dft n l.toFinset z j = ∑ m ∈ box n l.toFinset k, z m * cis (-∑ a ∈ l.toFinset, (j a : ℝ) * m a / n a) := by
    intro z j hj
    unfold dft
    rw [box_eq _ _ _ _ hj]
    apply Finset.sum_congr rfl
    intro m _
    congr 1
    unfold cis
    congr 1
    push_cast
    ring
  have h1 : ∑ j ∈ box n l.toFinset k, dft n l.toFinset x j * dft n l.toFinset y j * cis (1 * ∑ a ∈ l.toFinset, (k a : ℝ) * j a / n a) =
      ∑ j ∈ box n l.toFinset k, ∑ m ∈ box n l.toFinset k, ∑ p ∈ box n l.toFinset k,
        x m * y p * cis (∑ a ∈ l.toFinset, (j a : ℝ) * (((k a : ℤ) - m a - p a : ℤ) : ℝ) / n a) := by
    apply Finset.sum_congr rfl
    intro j hj
    rw [hdft x j hj, hdft y j hj, Finset.sum_mul_sum, Finset.sum_mul]
    apply Finset.sum_congr rfl
    intro m _
    rw [Finset.sum_mul]
    apply Finset.sum_congr rfl
    intro p _
    have : ∑ a ∈ l.toFinset, (j a : ℝ) * (((k a : ℤ) - m a - p a : ℤ) : ℝ) / n a =
        -(∑ a ∈ l.toFinset, (j a : ℝ) * m a / n a) + -(∑ a ∈ l.toFinset, (j a : ℝ) * p a / n a) + 1 * ∑ a ∈ l.toFinset, (k a : ℝ) * j a / n a := by
      rw [one_mul, ← Finset.sum_neg_distrib, ← Finset.sum_neg_distrib, ← Finset.sum_add_distrib, ← Finset.sum_add_distrib]
      apply Finset.sum_congr rfl
      intro a _
      push_cast
      ring
    rw [this, cis_add, cis_add]
    ring
  rw [h1, Finset.sum_comm]
  unfold convolution
  rw [Finset.sum_mul]
  apply Finset.sum_congr rfl
  intro m _
  rw [Finset.sum_comm]
  have h2 : ∀ p ∈ box n l.toFinset k, ∑ j ∈ box n l.toFinset k, x m * y p * cis (∑ a ∈ l.toFinset, (j a : ℝ) * (((k a : ℤ) - m a - p a : ℤ) : ℝ) / n a) =
      if p = back n l.toFinset k m then x m * y p * ((∏ a ∈ l.toFinset, n a : ℕ) : ℂ) else 0 := by
    intro p hp
    rw [← Finset.mul_sum, kernel n _ k (fun a => (k a : ℤ) - m a - p a) hn]
    by_cases hb : p = back n l.toFinset k m
    · rw [if_pos hb, if_pos ((back_unique n _ k m p hp hn).2 hb)]
    · rw [if_neg hb, if_neg (fun h => hb ((back_unique n _ k m p hp hn).1 h)), mul_zero]
  rw [Finset.sum_congr rfl h2, Finset.sum_ite_eq' , if_pos (back_mem n _ k m hn)]

/-- The transform back of the transform, in either direction. -/
theorem inverse (s : ℤ) (hs : s = 1 ∨ s = -1) (n : Fin d → Nat) (l : List (Fin d)) (h : l.Nodup) (x : (Fin d → Nat) → ℂ) (k : Fin d → Nat) (hk : Inside n k) :
    alongAxes (-s) n l (alongAxes s n l x) k = (terms n l : ℂ) * x k := by
  have hn : ∀ a ∈ l.toFinset, 0 < n a := fun a _ => Nat.lt_of_le_of_lt (Nat.zero_le _) (hk a)
  rw [terms_eq n l h, alongAxes_eq _ _ _ h]
  have h1 : ∑ j ∈ box n l.toFinset k, alongAxes s n l x j * cis (-s * ∑ a ∈ l.toFinset, (k a : ℝ) * j a / n a) =
      ∑ j ∈ box n l.toFinset k, ∑ m ∈ box n l.toFinset k, x m * cis (∑ a ∈ l.toFinset, (j a : ℝ) * ((s * ((m a : ℤ) - k a) : ℤ) : ℝ) / n a) := by
    apply Finset.sum_congr rfl
    intro j hj
    rw [alongAxes_eq _ _ _ h, box_eq _ _ _ _ hj, Finset.sum_mul]
    apply Finset.sum_congr rfl
    intro m _
    rw [mul_assoc, ← cis_add]
    congr 2
    rw [Finset.mul_sum, Finset.mul_sum, ← Finset.sum_add_distrib]
    apply Finset.sum_congr rfl
    intro a _
    push_cast
    ring
  rw [h1, Finset.sum_comm, Finset.sum_eq_single k]
  · rw [← Finset.mul_sum, kernel n _ k (fun a => s * ((k a : ℤ) - k a)) hn, if_pos]
    · ring
    · intro a _
      simp
  · intro m hm hne
    rw [← Finset.mul_sum, kernel n _ k (fun a => s * ((m a : ℤ) - k a)) hn, if_neg, mul_zero]
    intro hd
    apply hne
    funext a
    by_cases ha : a ∈ l.toFinset
    · have h2 := ((mem_box _ _ _ _).1 hm).1 a ha
      have h3 := hk a
      have h5 : (n a : ℤ) ∣ (m a : ℤ) - k a := by
        have := hd a ha
        rcases hs with rfl | rfl
        · simpa using this
        · rw [neg_one_mul, dvd_neg] at this
          exact this
      have h6 := Int.eq_zero_of_abs_lt_dvd h5 (by rw [abs_lt]; omega)
      omega
    · exact ((mem_box _ _ _ _).1 hm).2 a ha
  · intro h2
    exfalso
    apply h2
    rw [mem_box]
    exact ⟨fun a _ => hk a, fun _ _ => rfl⟩

/-! ### The transforms -/

/-- **C81** `fft` gives the discrete Fourier transform over the axes named, all of them if none are. -/
theorem C81_transform (x : Arr d) (axes : Axes) (S : Finset (Fin d)) (h : AxisSet axes S) (hk : x.kind ≠ .other) :
    ∃ y, fftOf x axes = .ok y ∧ y.shape = x.shape ∧ y.kind = x.kind ∧ ∀ k, y.val k = dft x.shape S x.val k := by
  obtain ⟨l, hP, hn, hS⟩ := mkPlan_of x.shape x.kind axes S h hk true false
  unfold fftOf
  rw [hP]
  simp only [fft]
  rw [if_neg (by simp), if_neg (by simp)]
  refine ⟨_, rfl, rfl, rfl, ?_⟩
  intro k
  rw [← hS]
  exact forward_eq _ _ hn _ _

theorem terms_ne (n : Fin d → Nat) (l : List (Fin d)) (k : Fin d → Nat) (hk : Inside n k) : (terms n l : ℂ) ≠ 0 := by
  unfold terms
  rw [Nat.cast_ne_zero]
  apply List.prod_ne_zero
  intro h
  obtain ⟨a, -, ha⟩ := List.mem_map.1 h
  have := hk a
  omega

/-- **C81** `ifft` over the same axes gives the array back, and so does `fft` of `ifft`. -/
theorem C81_back (x : Arr d) (axes : Axes) (S : Finset (Fin d)) (h : AxisSet axes S) (hk : x.kind ≠ .other) :
    (∃ y z, fftOf x axes = .ok y ∧ ifftOf y axes = .ok z ∧ z.shape = x.shape ∧ z.kind = x.kind ∧ ∀ k, Inside x.shape k → z.val k = x.val k) ∧
      ∃ y z, ifftOf x axes = .ok y ∧ fftOf y axes = .ok z ∧ z.shape = x.shape ∧ z.kind = x.kind ∧ ∀ k, Inside x.shape k → z.val k = x.val k := by
  obtain ⟨l, hP, hn, hS⟩ := mkPlan_of x.shape x.kind axes S h hk false true
  obtain ⟨l', hP', hn', hS'⟩ := mkPlan_of x.shape x.kind axes S h hk true false
  have hsame : l' = l := by
    have := mkPlan_axes x.shape x.kind axes _ _ _ true false hP
    rw [hP'] at this
    cases this
    rfl
  subst hsame
  have hf : ∀ v, fftOf ⟨x.shape, x.kind, v⟩ axes = .ok ⟨x.shape, x.kind, alongAxes (-1) x.shape l' v⟩ := by
    intro v
    unfold fftOf
    rw [hP']
    simp [fft]
  have hi : ∀ v, ifftOf ⟨x.shape, x.kind, v⟩ axes = .ok ⟨x.shape, x.kind, fun k => alongAxes 1 x.shape l' v k / (terms x.shape l' : ℂ)⟩ := by
    intro v
    unfold ifftOf
    rw [hP]
    simp [ifft]
  constructor
  · refine ⟨_, _, hf x.val, hi _, rfl, rfl, ?_⟩
    intro k hk
    have := inverse (-1) (.inr rfl) x.shape l' hn x.val k hk
    rw [show (-((-1 : ℤ) : ℝ)) = 1 by norm_num, show (((-1 : ℤ) : ℝ)) = -1 by norm_num] at this
    simp only
    rw [this, mul_div_cancel_left₀ _ (terms_ne _ _ k hk)]
  · refine ⟨_, _, hi x.val, hf _, rfl, rfl, ?_⟩
    intro k hk
    have := inverse 1 (.inl rfl) x.shape l' hn x.val k hk
    rw [show (((1 : ℤ) : ℝ)) = 1 by norm_num] at this
    simp only
    rw [alongAxes_scale, this, mul_div_cancel_left₀ _ (terms_ne _ _ k hk)]

/-- **C81** `fftconvolve` of two arrays of one shape and type is their convolution over the axes named, which goes round at the ends. -/
theorem C81_convolution (x y : Arr d) (axes : Axes) (S : Finset (Fin d)) (h : AxisSet axes S) (hk : x.kind ≠ .other) (hs : y.shape = x.shape) (ht : y.kind = x.kind) :
    ∃ z, fftconvolveOf x y axes = .ok z ∧ z.shape = x.shape ∧ z.kind = x.kind ∧ ∀ k, Inside x.shape k → z.val k = convolution x.shape S x.val y.val k := by
  obtain ⟨l, hP, hn, hS⟩ := mkPlan_of x.shape x.kind axes S h hk true true
  unfold fftconvolveOf
  rw [hP]
  simp only [fftconvolve, fft, ifft, hs, ht]
  simp only [ne_eq, not_true_eq_false, or_self, if_false, reduceCtorEq]
  refine ⟨_, rfl, rfl, rfl, ?_⟩
  intro k hk
  rw [← hS, ← product_back x.shape l hn x.val y.val k fun a _ => Nat.lt_of_le_of_lt (Nat.zero_le _) (hk a)]
  simp only [forward_eq _ _ hn]

/-- **C81** `fftwindow` with the transform of an array as the window is the convolution with that array. -/
theorem C81_window (x : Arr d) (y w : (Fin d → Nat) → ℂ) (axes : Axes) (S : Finset (Fin d)) (h : AxisSet axes S) (hk : x.kind ≠ .other) (hw : ∀ k, w k = dft x.shape S y k) :
    ∃ z, fftwindowOf x w axes = .ok z ∧ z.shape = x.shape ∧ z.kind = x.kind ∧ ∀ k, Inside x.shape k → z.val k = convolution x.shape S x.val y k := by
  obtain ⟨l, hP, hn, hS⟩ := mkPlan_of x.shape x.kind axes S h hk true true
  unfold fftwindowOf
  rw [hP]
  simp only [fftwindow, fft, ifft]
  simp only [ne_eq, not_true_eq_false, or_self, if_false, reduceCtorEq]
  refine ⟨_, rfl, rfl, rfl, ?_⟩
  intro k hk
  rw [← hS, ← product_back x.shape l hn x.val y k fun a _ => Nat.lt_of_le_of_lt (Nat.zero_le _) (hk a)]
  simp only [forward_eq _ _ hn, hw, hS]

theorem padded (n p q : Fin d → Nat) (S : Finset (Fin d)) (x y : (Fin d → Nat) → ℂ) (hx : ∀ m, (∃ a ∈ S, p a ≤ m a) → x m = 0) (hy : ∀ m, (∃ a ∈ S, q a ≤ m a) → y m = 0)
    (hn : ∀ a ∈ S, p a + q a ≤ n a + 1) (k : Fin d → Nat) (hk : Inside n k) :
    convolution n S x y k = ∑ m ∈ (box n S k).filter (fun m => ∀ a ∈ S, m a ≤ k a), x m * y (fun a => if a ∈ S then k a - m a else k a) := by
  unfold convolution
  rw [Finset.sum_filter]
  apply Finset.sum_congr rfl
  intro m hm
  have hm1 := ((mem_box _ _ _ _).1 hm).1
  by_cases h : ∀ a ∈ S, m a ≤ k a
  · rw [if_pos h]
    congr 2
    funext a
    unfold back
    by_cases ha : a ∈ S
    · rw [if_pos ha, if_pos ha]
      have h1 := h a ha
      have h2 := hk a
      rw [Int.emod_eq_of_lt (by omega) (by omega)]
      omega
    · rw [if_neg ha, if_neg ha]
  · rw [if_neg h]
    push Not at h
    obtain ⟨a, ha, hlt⟩ := h
    by_cases hp : p a ≤ m a
    · rw [hx m ⟨a, ha, hp⟩, zero_mul]
    · rw [hy, mul_zero]
      refine ⟨a, ha, ?_⟩
      unfold back
      rw [if_pos ha]
      have h1 := hm1 a ha
      have h2 := hk a
      have h3 := hn a ha
      have h4 : ((k a : ℤ) - m a) % n a = (k a : ℤ) - m a + n a := by
        rw [← Int.add_emod_right, Int.emod_eq_of_lt (by omega) (by omega)]
      rw [h4]
      omega

/-- **C81** With enough zeros at the ends the convolution does not go round: it is the sum over all pairs of indices that add up. -/
theorem C81_padded (x y : Arr d) (axes : Axes) (S : Finset (Fin d)) (h : AxisSet axes S) (hk : x.kind ≠ .other) (hs : y.shape = x.shape) (ht : y.kind = x.kind) (p q : Fin d → Nat)
    (hx : ∀ m, (∃ a ∈ S, p a ≤ m a) → x.val m = 0) (hy : ∀ m, (∃ a ∈ S, q a ≤ m a) → y.val m = 0) (hn : ∀ a ∈ S, p a + q a ≤ x.shape a + 1) :
    ∃ z, fftconvolveOf x y axes = .ok z ∧ z.shape = x.shape ∧
      ∀ k, Inside x.shape k → z.val k = ∑ m ∈ (box x.shape S k).filter (fun m => ∀ a ∈ S, m a ≤ k a), x.val m * y.val (fun a => if a ∈ S then k a - m a else k a) := by
  obtain ⟨z, h1, h2, -, h3⟩ := C81_convolution x y axes S h hk hs ht
  refine ⟨z, h1, h2, ?_⟩
  intro k hk
  rw [h3 k hk]
  exact padded x.shape p q S x.val y.val hx hy hn k hk

/-! ### What is refused -/

/-- **C81** Arrays of numbers that are not complex, numbers that name no axis, arrays of another shape or type than the object is for, and directions that it was not made for are exceptions. -/
theorem C81_refused (x y : Arr d) (axes : List Int) (a : Int) (ha : a ∈ axes) (hno : ∀ b : Fin d, ¬ Names a b) (P : Plan d) :
    (x.kind = .other → ∀ ax, fftOf x ax = .error .typeError ∧ ifftOf x ax = .error .typeError) ∧
      (x.kind ≠ .other → fftOf x (.many axes) = .error .valueError ∧ ifftOf x (.many axes) = .error .valueError) ∧
      (P.forward = true → (y.shape ≠ P.shape ∨ y.kind ≠ P.kind) → fft P (.arr y) = .error .valueError) ∧
      (P.forward = false → fft P (.arr y) = .error .runtimeError) ∧ (P.backward = false → ifft P (.arr y) = .error .runtimeError) := by
  have hax : axesOf d axes = .error .valueError := by
    induction axes with
    | nil => cases ha
    | cons b l ih =>
      rw [axesOf]
      cases hb : axisOf d b with
      | none => rfl
      | some c =>
        have hne : a ∈ l := by
          rcases List.mem_cons.1 ha with rfl | h
          · exact absurd (axisOf_some _ _ hb) (hno c)
          · exact h
        rw [ih hne]
  refine ⟨?_, ?_, ?_, ?_, ?_⟩
  · intro h ax
    simp [fftOf, ifftOf, mkPlan, h]
  · intro h
    simp [fftOf, ifftOf, mkPlan, h, hax]
  · intro h1 h2
    simp only [fft]
    rw [if_neg (by simp [h1]), if_pos h2]
  · intro h
    simp [fft, h]
  · intro h
    simp [ifft, h]

/-- **C81 fails** for what is like an array without being one, which the functions are said to take: the exception says that the transform is not initialised, though it is. -/
theorem C81_like_violated (P : Plan d) : fft P .like = .error .runtimeError ∧ ifft P .like = .error .runtimeError := ⟨rfl, rfl⟩

/-- **C81 fails** for a direction that the object was not made for: the exception is not the `AttributeError` of the documentation. -/
theorem C81_direction_violated (P : Plan d) (h : P.forward = false) (x : Arr d) : fft P (.arr x) ≠ .error .attributeError := by
  simp [fft, h]

/-! ### Cases -/

/-- The last of three axes. -/
example : AxisSet (d := 3) (.one (-1)) {2} := ⟨2, .inr rfl, rfl⟩

/-- The first and the last of three axes. -/
example : AxisSet (d := 3) (.many [-1, 0]) {2, 0} := ⟨[2, 0], .cons (.inr rfl) (.cons (.inl rfl) .nil), by decide, rfl⟩

/-- A number that names no axis. -/
example : ∀ b : Fin 3, ¬ Names 3 b := by
  intro b
  unfold Names
  omega

end Verif.Fourier
