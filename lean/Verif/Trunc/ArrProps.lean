import Verif.Trunc.FloatProps
import Verif.Trunc.ArrModel

/-!
Property theorems C14: truncation of arrays. The tolerance is computed by the code in floating point;
`rnd` (rounding of a product) and `isq` (reciprocal square root) stand for that computation, and the
bounds are stated with the computed tolerance and, from it, with a relative rounding error `δ`.
-/
namespace Verif.Trunc
open Fmt

/-- The region where the kernel of `float` respects the tolerance (see C13). -/
def Safe32 (v err : ℚ) : Prop :=
  |v| + err < 2 ^ 128 ∧ ¬ ((2 : ℚ) ^ (-105 : ℤ) ≤ |v| ∧ |v| < (2 : ℚ) ^ (-104 : ℤ))

/-- The region where the kernel of `double` respects the tolerance (see C13). -/
def Safe64 (v err : ℚ) : Prop :=
  |v| + err < 2 ^ 1024 ∧ ¬ ((2 : ℚ) ^ (-972 : ℤ) ≤ |v| ∧ |v| < (2 : ℚ) ^ (-971 : ℤ))

theorem finite_iff {F : Fmt} {b : BitVec F.w} {v : ℚ} :
    F.finite? b = some v ↔ F.decode b = .fin v := by
  unfold finite?
  cases h : F.decode b <;> simp

/-- C14, `bit_truncate_relative` on `float32` data: the array keeps its length, and each (finite)
element changes by at most the tolerance computed for it; if that computation has relative error at
most `δ`, by at most `(1 + δ) * prec * |element|`. -/
theorem C14_relative_float_partial (rnd : ℚ → ℚ) (δ prec : ℚ) (hprec : 0 ≤ prec)
    (hrnd : ∀ x, |rnd x| ≤ (1 + δ) * |x|) (vals : List (BitVec f32.w)) :
    (f32.relArr rnd prec vals).length = vals.length ∧
    ∀ (i : Nat) (b : BitVec f32.w) (v : ℚ), vals[i]? = some b → f32.decode b = .fin v →
      Safe32 v |rnd (prec * v)| →
      ∃ (b' : BitVec f32.w) (r : ℚ), (f32.relArr rnd prec vals)[i]? = some (some b') ∧
        f32.decode b' = .fin r ∧ |r - v| ≤ |rnd (prec * v)| ∧
        |r - v| ≤ (1 + δ) * (prec * |v|) ∧ 0 ≤ r * v := by
  refine ⟨by simp [relArr], ?_⟩
  intro i b v hb hv hsafe
  obtain ⟨r, h1, h2, h3⟩ := C13_float_partial b v _ hv (abs_nonneg _) hsafe.1 hsafe.2
  refine ⟨_, r, ?_, h1, h2, ?_, h3⟩
  · unfold relArr
    rw [List.getElem?_map, hb]
    simp only [Option.map_some, relElem, (finite_iff (F := f32)).2 hv]
  · refine le_trans h2 ?_
    have := hrnd (prec * v)
    rwa [abs_mul, abs_of_nonneg hprec] at this

/-- C14, `bit_truncate_relative` on `float64` data. -/
theorem C14_relative_double_partial (rnd : ℚ → ℚ) (δ prec : ℚ) (hprec : 0 ≤ prec)
    (hrnd : ∀ x, |rnd x| ≤ (1 + δ) * |x|) (vals : List (BitVec f64.w)) :
    (f64.relArr rnd prec vals).length = vals.length ∧
    ∀ (i : Nat) (b : BitVec f64.w) (v : ℚ), vals[i]? = some b → f64.decode b = .fin v →
      Safe64 v |rnd (prec * v)| →
      ∃ (b' : BitVec f64.w) (r : ℚ), (f64.relArr rnd prec vals)[i]? = some (some b') ∧
        f64.decode b' = .fin r ∧ |r - v| ≤ |rnd (prec * v)| ∧
        |r - v| ≤ (1 + δ) * (prec * |v|) ∧ 0 ≤ r * v := by
  refine ⟨by simp [relArr], ?_⟩
  intro i b v hb hv hsafe
  obtain ⟨r, h1, h2, h3⟩ := C13_double_partial b v _ hv (abs_nonneg _) hsafe.1 hsafe.2
  refine ⟨_, r, ?_, h1, h2, ?_, h3⟩
  · unfold relArr
    rw [List.getElem?_map, hb]
    simp only [Option.map_some, relElem, (finite_iff (F := f64)).2 hv]
  · refine le_trans h2 ?_
    have := hrnd (prec * v)
    rwa [abs_mul, abs_of_nonneg hprec] at this

example : ((f32.relArr id (1 / 100) [0x40490FDB#32, 0xC0490FDB#32]).map (Option.map BitVec.toNat)) =
    [some 0x40480000, some 0xC0480000] := by decide +kernel

/-- C14, `bit_truncate_weights` on `float32` data with equally many weights: an element with positive
weight `wt` changes by at most the computed `1/sqrt(wt)` (so `change² * wt ≤ (1+δ)²` when the computed
`1/sqrt(wt)` has relative error at most `δ`); an element with weight zero changes by at most the
computed `fallback * element` provided the element is not negative. The case missing from the full
property is a zero weight with a negative element. -/
theorem C14_weights_float_partial (rnd isq : ℚ → ℚ) (δ fallback : ℚ)
    (hfb : 0 ≤ fallback)
    (hrnd : ∀ x, 0 ≤ x → 0 ≤ rnd x ∧ rnd x ≤ (1 + δ) * x)
    (hisq : ∀ x, 0 < x → 0 ≤ isq x ∧ isq x ^ 2 * x ≤ (1 + δ) ^ 2)
    (vals : List (BitVec f32.w)) (wts : List ℚ) (hlen : wts.length = vals.length) :
    ∃ out, f32.weightArr rnd isq fallback vals wts = .ok out ∧ out.length = vals.length ∧
    ∀ (i : Nat) (b : BitVec f32.w) (v wt : ℚ), vals[i]? = some b → wts[i]? = some wt →
      f32.decode b = .fin v → Safe32 v (weightTol rnd isq fallback v wt) →
      (0 < wt → ∃ (b' : BitVec f32.w) (r : ℚ), out[i]? = some (some b') ∧
        f32.decode b' = .fin r ∧ |r - v| ≤ isq wt ∧ (r - v) ^ 2 * wt ≤ (1 + δ) ^ 2) ∧
      (wt = 0 → 0 ≤ v → ∃ (b' : BitVec f32.w) (r : ℚ), out[i]? = some (some b') ∧
        f32.decode b' = .fin r ∧ |r - v| ≤ (1 + δ) * (fallback * v)) := by
  refine ⟨_, by unfold weightArr; rw [if_neg (by simpa using hlen)], by simp [hlen], ?_⟩
  intro i b v wt hb hwt hv hsafe
  have hget : (List.zipWith (f32.weightElem rnd isq fallback) vals wts)[i]? =
      some (some (f32.bitTruncateFloat b (weightTol rnd isq fallback v wt))) := by
    rw [List.getElem?_zipWith, hb, hwt]
    simp only [weightElem, (finite_iff (F := f32)).2 hv, Option.map_some]
  constructor
  · intro hpos
    have htol : weightTol rnd isq fallback v wt = isq wt := by
      unfold weightTol; rw [if_pos (ne_of_gt hpos)]
    rw [htol] at hsafe hget
    obtain ⟨h0, hsq⟩ := hisq wt hpos
    obtain ⟨r, h1, h2, _⟩ := C13_float_partial b v _ hv h0 hsafe.1 hsafe.2
    refine ⟨_, r, hget, h1, h2, le_trans ?_ hsq⟩
    apply mul_le_mul_of_nonneg_right _ (le_of_lt hpos)
    rw [← sq_abs]
    exact pow_le_pow_left₀ (abs_nonneg _) h2 2
  · intro h0 hv0
    have htol : weightTol rnd isq fallback v wt = rnd (fallback * v) := by
      unfold weightTol; rw [if_neg (not_not.2 h0)]
    rw [htol] at hsafe hget
    obtain ⟨hr0, hr1⟩ := hrnd (fallback * v) (mul_nonneg hfb hv0)
    obtain ⟨r, h1, h2, _⟩ := C13_float_partial b v _ hv hr0 hsafe.1 hsafe.2
    exact ⟨_, r, hget, h1, le_trans h2 hr1⟩

/-- C14, `bit_truncate_weights` on `float64` data. -/
theorem C14_weights_double_partial (rnd isq : ℚ → ℚ) (δ fallback : ℚ)
    (hfb : 0 ≤ fallback)
    (hrnd : ∀ x, 0 ≤ x → 0 ≤ rnd x ∧ rnd x ≤ (1 + δ) * x)
    (hisq : ∀ x, 0 < x → 0 ≤ isq x ∧ isq x ^ 2 * x ≤ (1 + δ) ^ 2)
    (vals : List (BitVec f64.w)) (wts : List ℚ) (hlen : wts.length = vals.length) :
    ∃ out, f64.weightArr rnd isq fallback vals wts = .ok out ∧ out.length = vals.length ∧
    ∀ (i : Nat) (b : BitVec f64.w) (v wt : ℚ), vals[i]? = some b → wts[i]? = some wt →
      f64.decode b = .fin v → Safe64 v (weightTol rnd isq fallback v wt) →
      (0 < wt → ∃ (b' : BitVec f64.w) (r : ℚ), out[i]? = some (some b') ∧
        f64.decode b' = .fin r ∧ |r - v| ≤ isq wt ∧ (r - v) ^ 2 * wt ≤ (1 + δ) ^ 2) ∧
      (wt = 0 → 0 ≤ v → ∃ (b' : BitVec f64.w) (r : ℚ), out[i]? = some (some b') ∧
        f64.decode b' = .fin r ∧ |r - v| ≤ (1 + δ) * (fallback * v)) := by
  refine ⟨_, by unfold weightArr; rw [if_neg (by simpa using hlen)], by simp [hlen], ?_⟩
  intro i b v wt hb hwt hv hsafe
  have hget : (List.zipWith (f64.weightElem rnd isq fallback) vals wts)[i]? =
      some (some (f64.bitTruncateFloat b (weightTol rnd isq fallback v wt))) := by
    rw [List.getElem?_zipWith, hb, hwt]
    simp only [weightElem, (finite_iff (F := f64)).2 hv, Option.map_some]
  constructor
  · intro hpos
    have htol : weightTol rnd isq fallback v wt = isq wt := by
      unfold weightTol; rw [if_pos (ne_of_gt hpos)]
    rw [htol] at hsafe hget
    obtain ⟨h0, hsq⟩ := hisq wt hpos
    obtain ⟨r, h1, h2, _⟩ := C13_double_partial b v _ hv h0 hsafe.1 hsafe.2
    refine ⟨_, r, hget, h1, h2, le_trans ?_ hsq⟩
    apply mul_le_mul_of_nonneg_right _ (le_of_lt hpos)
    rw [← sq_abs]
    exact pow_le_pow_left₀ (abs_nonneg _) h2 2
  · intro h0 hv0
    have htol : weightTol rnd isq fallback v wt = rnd (fallback * v) := by
      unfold weightTol; rw [if_neg (not_not.2 h0)]
    rw [htol] at hsafe hget
    obtain ⟨hr0, hr1⟩ := hrnd (fallback * v) (mul_nonneg hfb hv0)
    obtain ⟨r, h1, h2, _⟩ := C13_double_partial b v _ hv hr0 hsafe.1 hsafe.2
    exact ⟨_, r, hget, h1, le_trans h2 hr1⟩

/-- weights 4 and 0 on the value 3.14159...: tolerance 1/2 and 0.01 * value. -/
example : (f32.weightArr id (fun x => 2 / x) (1 / 100) [0x40490FDB#32, 0x40490FDB#32] [4, 0]).toOption.map
    (List.map (Option.map BitVec.toNat)) = some [some 0x40400000, some 0x40480000] := by
  decide +kernel

/-- C14: wrong lengths and other element types are rejected. -/
theorem C14_rejects (F : Fmt) (rnd isq : ℚ → ℚ) (fallback : ℚ) (vals : List (BitVec F.w))
    (wts : List ℚ) :
    (wts.length ≠ vals.length → F.weightArr rnd isq fallback vals wts = .error .valueError) ∧
    (∀ d1 d2, ¬ (d1 = d2 ∧ d1 ≠ .other) → weightsDispatch d1 d2 = .error .runtimeError) ∧
    relativeDispatch .other = .error .runtimeError := by
  refine ⟨fun h => by unfold weightArr; rw [if_pos h], ?_, rfl⟩
  intro d1 d2 h
  cases d1 <;> cases d2 <;> first | rfl | simp at h

/-- C14 violated: with weight zero, the value `-1` and `fallback = 1/1000` the tolerance is negative,
and the element is replaced by zero: a change of 1 instead of at most 1/1000. -/
theorem C14_weights_negative_violated :
    f32.decode 0xBF800000#32 = .fin (-1) ∧
    (f32.weightArr id id (1 / 1000) [0xBF800000#32] [0]).toOption.map
      (List.map (Option.map f32.decode)) = some [some (.fin 0)] := by
  decide +kernel

theorem foldl_max_ge (row : List (ℚ × ℚ)) : ∀ a : ℚ,
    a ≤ row.foldl (fun acc z => if z.1 * z.1 + z.2 * z.2 > acc then z.1 * z.1 + z.2 * z.2 else acc) a ∧
    (∀ z ∈ row, z.1 * z.1 + z.2 * z.2 ≤
      row.foldl (fun acc z => if z.1 * z.1 + z.2 * z.2 > acc then z.1 * z.1 + z.2 * z.2 else acc) a) ∧
    (row.foldl (fun acc z => if z.1 * z.1 + z.2 * z.2 > acc then z.1 * z.1 + z.2 * z.2 else acc) a = a ∨
      ∃ z ∈ row, z.1 * z.1 + z.2 * z.2 =
        row.foldl (fun acc z => if z.1 * z.1 + z.2 * z.2 > acc then z.1 * z.1 + z.2 * z.2 else acc) a) := by
  induction row with
  | nil => intro a; simp
  | cons y ys ih =>
    intro a
    rw [List.foldl_cons]
    by_cases h : y.1 * y.1 + y.2 * y.2 > a
    · rw [if_pos h]
      obtain ⟨h1, h2, h3⟩ := ih (y.1 * y.1 + y.2 * y.2)
      refine ⟨by linarith, ?_, ?_⟩
      · intro z hz
        rcases List.mem_cons.1 hz with rfl | hz
        · exact h1
        · exact h2 z hz
      · rcases h3 with h3 | ⟨z, hz, h3⟩
        · exact Or.inr ⟨y, List.mem_cons_self, h3.symm⟩
        · exact Or.inr ⟨z, List.mem_cons_of_mem _ hz, h3⟩
    · rw [if_neg h]
      obtain ⟨h1, h2, h3⟩ := ih a
      refine ⟨h1, ?_, ?_⟩
      · intro z hz
        rcases List.mem_cons.1 hz with rfl | hz
        · linarith
        · exact h2 z hz
      · rcases h3 with h3 | ⟨z, hz, h3⟩
        · exact Or.inl h3
        · exact Or.inr ⟨z, List.mem_cons_of_mem _ hz, h3⟩

/-- C14: the row maximum used by `bit_truncate_max_complex` is the largest squared modulus of the
row (zero for an empty row). -/
theorem C14_row_max (row : List (ℚ × ℚ)) :
    (∀ z ∈ row, z.1 * z.1 + z.2 * z.2 ≤ rowMax2 row) ∧
    (row ≠ [] → ∃ z ∈ row, z.1 * z.1 + z.2 * z.2 = rowMax2 row) := by
  obtain ⟨h1, h2, h3⟩ := foldl_max_ge row 0
  refine ⟨h2, ?_⟩
  intro hne
  rcases h3 with h3 | h3
  · obtain ⟨z, hz⟩ := List.exists_mem_of_ne_nil row hne
    refine ⟨z, hz, ?_⟩
    have h4 := h2 z hz
    unfold rowMax2
    have : 0 ≤ z.1 * z.1 + z.2 * z.2 := by
      have := mul_self_nonneg z.1; have := mul_self_nonneg z.2; linarith
    linarith
  · exact h3

example : rowMax2 [(3, 4), (0, 1), (-5, 1)] = 26 := by decide +kernel

/-- C14, `bit_truncate_max_complex`: each real and imaginary part, after its cast to `float`, changes
by at most `max(prec * |z|, precMax * rowmax)` as computed. The cast itself is not covered: see
`C14_complex_violated`. -/
theorem C14_complex_partial (rnd sqrt : ℚ → ℚ) (cast : ℚ → BitVec 32) (prec precMax : ℚ)
    (hrnd : ∀ x, 0 ≤ x → 0 ≤ rnd x) (hsqrt : ∀ x, 0 ≤ sqrt x) (hprec : 0 ≤ prec)
    (row : List (ℚ × ℚ)) :
    (complexRow rnd sqrt cast prec precMax row).length = row.length ∧
    ∀ (i : Nat) (z : ℚ × ℚ) (cr ci tol : ℚ), row[i]? = some z →
      tol = rnd (max (sqrt (z.1 * z.1 + z.2 * z.2) * prec) (precMax * sqrt (rowMax2 row))) →
      f32.decode (cast z.1) = .fin cr → f32.decode (cast z.2) = .fin ci →
      Safe32 cr tol → Safe32 ci tol →
      ∃ (b1 b2 : BitVec 32) (r1 r2 : ℚ),
        (complexRow rnd sqrt cast prec precMax row)[i]? = some (b1, b2) ∧
        f32.decode b1 = .fin r1 ∧ f32.decode b2 = .fin r2 ∧ |r1 - cr| ≤ tol ∧ |r2 - ci| ≤ tol := by
  refine ⟨by simp [complexRow], ?_⟩
  intro i z cr ci tol hz htol hr hi hs1 hs2
  have h0 : 0 ≤ tol := by
    rw [htol]; apply hrnd
    exact le_max_of_le_left (mul_nonneg (hsqrt _) hprec)
  obtain ⟨r1, h1, h2, _⟩ := C13_float_partial _ _ _ hr h0 hs1.1 hs1.2
  obtain ⟨r2, h3, h4, _⟩ := C13_float_partial _ _ _ hi h0 hs2.1 hs2.2
  refine ⟨_, _, r1, r2, ?_, h1, h3, h2, h4⟩
  unfold complexRow
  simp only [List.getElem?_map, hz, Option.map_some, complexElem, complexTol, ← htol]

/-- `1 + 2^-30` is not a `float`. -/
theorem not_float (b : BitVec 32) : f32.decode b ≠ .fin (1 + 1 / 2 ^ 30) := by
  intro hv
  have hb : f32.bias = 127 := by decide
  have heb : f32.eb = 8 := by decide
  have hp : f32.p = 23 := by decide
  obtain ⟨s, e, m, hs, he, hm, rfl⟩ := exists_pack f32_ok b
  rw [decode_pack f32_ok hs he hm] at hv
  have hfin : e ≠ 2 ^ f32.eb - 1 := by
    intro hc; rw [if_pos hc] at hv; split at hv <;> simp at hv
  rw [if_neg hfin] at hv
  injection hv with hv
  have hmag : f32.mag e m = 1 + 1 / 2 ^ 30 := by
    rw [← abs_value s, hv]; norm_num
  have h1 := mag_lt (F := f32) e hm
  rw [hmag, hb] at h1
  have h2 : (2 : ℚ) ^ (0 : ℤ) < (2 : ℚ) ^ ((e : ℤ) + 1 - (127 : ℕ)) := by
    refine lt_of_le_of_lt ?_ h1; norm_num
  have h3 := (zpow_lt_zpow_iff_right₀ (by norm_num)).1 h2
  have h4 := le_mag (F := f32) (e := e) (by omega) m
  rw [hmag, hb] at h4
  have h5 : (2 : ℚ) ^ ((e : ℤ) - (127 : ℕ)) < (2 : ℚ) ^ (1 : ℤ) := by
    refine lt_of_le_of_lt h4 ?_; norm_num
  have h6 := (zpow_lt_zpow_iff_right₀ (by norm_num)).1 h5
  have he127 : e = 127 := by omega
  subst he127
  unfold mag at hmag
  rw [if_neg (by decide), hb, hp] at hmag
  have h7 : ((2 ^ 23 + m : ℕ) : ℚ) = (1 + 1 / 2 ^ 30) * 2 ^ 23 := by
    rw [← hmag]; norm_num; ring
  have h8 : ((128 * (2 ^ 23 + m) : ℕ) : ℚ) = ((2 ^ 30 + 1 : ℕ) : ℚ) := by
    push_cast at h7 ⊢; linarith
  have h9 : 128 * (2 ^ 23 + m) = 2 ^ 30 + 1 := by exact_mod_cast h8
  omega

/-- C14 violated: with both precisions zero no change is allowed, but the real part `1 + 2^-30` of a
double precision complex number cannot be returned, whatever the cast to `float` does. -/
theorem C14_complex_violated (rnd sqrt : ℚ → ℚ) (cast : ℚ → BitVec 32) :
    ∀ b1 b2, (complexRow rnd sqrt cast 0 0 [(1 + 1 / 2 ^ 30, 0)])[0]? = some (b1, b2) →
      f32.decode b1 ≠ .fin (1 + 1 / 2 ^ 30) :=
  fun b1 _ _ => not_float b1

end Verif.Trunc
