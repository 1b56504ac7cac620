import Verif.Shorten.MachineLemmas

/-!
# C71: truncating the datasets of a container
-/
namespace Verif.Shorten

/-- **C71** (the rest). Datasets that are not to be truncated do not change. -/
theorem C71_rest (T : Trunc) (conf : Option (Str → Option Given)) (cls : Str → Option (Option Given)) (names : List Str) (b b' : Box)
    (h : process T conf cls names b = .ok b') (a : Str) (ha : a ∉ names ∨ getParams conf cls a = none ∨ b a = none) :
    b' a = b a := steps_other T _ names b b' a h ha

/-- **C71** (which). The configuration decides, if it has an entry for the dataset; otherwise the specification of the
class. A dict replaces some of the standard parameters, a float the precision; anything else switches on or off. -/
theorem C71_which (conf : Str → Option Given) (cls : Str → Option (Option Given)) (d : Str) :
    (∀ q, conf d = some (.float q) → ∃ p, getParams (some conf) cls d = some p ∧ p.weight = none ∧ p.fixed = q) ∧
    (conf d = some (.flag false) → getParams (some conf) cls d = none) ∧
    (conf d = some (.flag true) → ∃ p, getParams (some conf) cls d = some p ∧ p.weight = none ∧ p.fixed = 1 / 10000) ∧
    (∀ w q v, conf d = some (.dict (some (some w)) (some q) (some (some v))) →
      ∃ p, getParams (some conf) cls d = some p ∧ p.weight = some w ∧ p.fixed = q ∧ p.var = some (v * 3)) ∧
    (conf d = none → getParams (some conf) cls d = getParams none cls d) ∧
    (cls d = none ∨ cls d = some none ∨ cls d = some (some (.flag false)) → getParams none cls d = none) := by
  refine ⟨?_, ?_, ?_, ?_, ?_, ?_⟩
  · intro q h
    refine ⟨_, by unfold getParams; simp only [h]; rfl, rfl, rfl⟩
  · intro h
    unfold getParams
    simp only [h]
    rfl
  · intro h
    refine ⟨_, by unfold getParams; simp only [h]; rfl, rfl, rfl⟩
  · intro w q v h
    refine ⟨_, by unfold getParams; simp only [h]; rfl, rfl, rfl, rfl⟩
  · intro h
    unfold getParams
    simp only [h]
  · intro h
    unfold getParams
    rcases h with h | h | h <;> simp [h, Given.truthy]

/-- **C71** (standard parameters). What a dict does not give is as for `True`: no weights, a precision of `1e-4`, and an increase of the variance of
`1e-3`, which is multiplied by 3. A dict that gives `None` for the increase is kept. This holds for the configuration and for the class. -/
theorem C71_standard (conf : Str → Option Given) (cls : Str → Option (Option Given)) (d : Str) :
    (conf d = some (.flag true) ∨ conf d = some (.dict none none none) ∨ conf d = none ∧ cls d = some (some (.flag true)) →
      getParams (some conf) cls d = some ⟨none, 1 / 10000, some (3 / 1000)⟩) ∧
    (∀ q, conf d = some (.float q) ∨ conf d = some (.dict none (some q) none) ∨ conf d = none ∧ q ≠ 0 ∧ cls d = some (some (.float q)) →
      getParams (some conf) cls d = some ⟨none, q, some (3 / 1000)⟩) ∧
    (∀ w, conf d = some (.dict (some w) none none) ∨ conf d = none ∧ cls d = some (some (.dict (some w) none none)) →
      getParams (some conf) cls d = some ⟨w, 1 / 10000, some (3 / 1000)⟩) ∧
    (∀ w q, conf d = some (.dict (some w) (some q) (some none)) → getParams (some conf) cls d = some ⟨w, q, none⟩) := by
  have e : (1 / 1000 : ℚ) * 3 = 3 / 1000 := by norm_num
  refine ⟨?_, ?_, ?_, ?_⟩
  · rintro (h | h | ⟨h, h'⟩) <;> simp [getParams, parse, scaled, defaults, Given.truthy, *]
    all_goals norm_num
  · rintro q (h | h | ⟨h, hq, h'⟩) <;> simp [getParams, parse, scaled, defaults, Given.truthy, *]
    all_goals norm_num
  · rintro w (h | ⟨h, h'⟩) <;> simp [getParams, parse, scaled, defaults, Given.truthy, *]
    all_goals norm_num
  · intro w q h
    simp [getParams, parse, scaled, h]

example : (fun d => if d = ['v'] then some (Given.dict (some (some ['w'])) none none) else none : Str → Option Given) ['v'] =
    some (.dict (some (some ['w'])) none none) := rfl

/-- **C71 does not hold for precisions written without a point**: a YAML document is loaded such that a scalar without a point is never a `float`, so that
`1e-6` is a text. It counts as `True`: whatever precision such a text names, the dataset is truncated to `1e-4`. Neither is a whole number a precision. -/
theorem C71_notation_violated (load : Str → Plain) (hload : ∀ s, '.' ∉ s → ∀ q, load s ≠ .float q) (htext : load "1e-6".toList = .text "1e-6".toList)
    (conf : Str → Option Given) (cls : Str → Option (Option Given)) (d : Str) :
    (conf d = some (load "1e-6".toList).given → getParams (some conf) cls d = some ⟨none, 1 / 10000, some (3 / 1000)⟩) ∧
    (∀ s, '.' ∉ s → conf d = some (load s).given →
      getParams (some conf) cls d = none ∨ getParams (some conf) cls d = some ⟨none, 1 / 10000, some (3 / 1000)⟩) := by
  have hs := (C71_standard conf cls d).1
  refine ⟨fun h => hs (.inl (by rw [h, htext]; rfl)), ?_⟩
  intro s hdot h
  have hflag : ∀ b, conf d = some (.flag b) →
      getParams (some conf) cls d = none ∨ getParams (some conf) cls d = some ⟨none, 1 / 10000, some (3 / 1000)⟩ := by
    intro b hb
    cases b with
    | false => exact .inl ((C71_which conf cls d).2.1 hb)
    | true => exact .inr (hs (.inl hb))
  cases hl : load s with
  | float q => exact absurd hl (hload s hdot q)
  | int n => exact hflag _ (by rw [h, hl]; rfl)
  | bool b => exact hflag _ (by rw [h, hl]; rfl)
  | text t => exact hflag _ (by rw [h, hl]; rfl)
  | null => exact hflag _ (by rw [h, hl]; rfl)

/-- Concrete case: a loader that takes all scalars for texts; the precision that was asked for is not the one that is used. -/
example : (∀ s : Str, '.' ∉ s → ∀ q, Plain.text s ≠ .float q) ∧ (1 / 1000000 : ℚ) ≠ 1 / 10000 := by
  exact ⟨fun _ _ _ h => (nomatch h), by norm_num⟩

/-- **C71** (fixed precision). A dataset without weights keeps its form, and every value changes by no more than the
precision times itself; for complex datasets this holds of both parts. The truncation is that of the code, on the bits of
numbers in single or double precision. -/
theorem C71_fixed_partial (A : Arith) (δ : ℚ) (hA : A.Close δ) (conf : Option (Str → Option Given)) (cls : Str → Option (Option Given))
    (names : List Str) (hn : names.Nodup) (b b' : Box) (h : process (machine A) conf cls names b = .ok b') (a : Str) (ha : a ∈ names)
    (p : Params) (hp : getParams conf cls a = some p) (hw : p.weight = none) (h0 : 0 ≤ p.fixed) (d : Dset) (hd : b a = some d) :
    ∃ d', b' a = some d' ∧ SameForm d d' ∧ (∀ i, WithinFixed d.kind δ p.fixed (d'.re i) (d.re i)) ∧
      (d.cplx = true → ∀ i, WithinFixed d.kind δ p.fixed (d'.im i) (d.im i)) := by
  obtain ⟨c, c', q1, q2, q3, -⟩ := steps_at (machine A) _ names hn b b' a h ha
  unfold step at q1
  rw [hp, q2, hd] at q1
  simp only [hw] at q1
  unfold truncRelative at q1
  by_cases hk : d.kind = .other
  · rw [if_pos hk] at q1; cases q1
  · rw [if_neg hk] at q1
    cases hc : d.cplx with
    | false =>
      rw [hc] at q1
      have q1 := Except.ok.inj q1
      refine ⟨{ d with cplx := false, re := fun i => (machine A).rel d.kind p.fixed (d.re i) }, ?_, ⟨rfl, rfl, rfl, hc.symm, fun _ => rfl⟩, fun i => machine_fixed A δ hA _ _ _ h0,
        by simp⟩
      rw [← q3, ← q1]
      exact if_pos rfl
    | true =>
      rw [hc] at q1
      have q1 := Except.ok.inj q1
      refine ⟨{ d with cplx := true, re := fun i => (machine A).rel d.kind p.fixed (d.re i), im := fun i => (machine A).rel d.kind p.fixed (d.im i) }, ?_,
        ⟨rfl, rfl, rfl, hc.symm, fun e => absurd (hc.symm.trans e) (by simp)⟩, fun i => machine_fixed A δ hA _ _ _ h0, fun _ i => machine_fixed A δ hA _ _ _ h0⟩
      rw [← q3, ← q1]
      exact if_pos rfl

/-- **C71** (axes). If the axes of the weights are among those of the data and in the same order, the weight used for an
element is the one at the same place along these axes; for complex data, twice that. -/
theorem C71_axes_partial (d w : Dset) (hnd : d.axes.Nodup) (hs : w.axes.Sublist d.axes) (hl : d.shape.length = d.axes.length)
    (hws : Restricts d.axes w.axes d.shape w.shape) :
    ∃ f, getWeights d w = .ok f ∧ ∀ i, InShape i d.shape → ∃ j, Restricts d.axes w.axes i j ∧
      f i = (if d.cplx = true then 2 else 1) * w.re j := by
  have hf := filter_sublist w.axes d.axes hs hnd
  have hshape : w.shape = pick w.axes d.axes d.shape := by
    have h1 := pick_along w.axes d.axes d.shape hl hnd
    rw [hf] at h1
    have : w.shape.map some = (pick w.axes d.axes d.shape).map some := hws.trans h1.symm
    exact (List.map_inj_right (fun _ _ h => Option.some.inj h)).1 this
  unfold getWeights
  rw [hshape, expandShape_eq _ _ _ hl]
  simp only [padded_length _ _ _ hl, Nat.lt_irrefl, if_false, Nat.sub_self, List.drop_zero, padded_fits _ _ _ hl, if_true]
  refine ⟨_, rfl, ?_⟩
  intro i hi
  refine ⟨pick w.axes d.axes i, ?_, ?_⟩
  · have h1 := pick_along w.axes d.axes i (by rw [List.Forall₂.length_eq hi, hl]) hnd
    rw [hf] at h1
    exact h1
  · rw [pick_squash _ _ _ _ hl hi]

/-- **C71** (weights). A dataset with weights keeps its form, and the error of every value increases its variance by no more
than the factor configured (the error is uniformly distributed, so that its variance is a third of the square of the largest
one). For complex data the weight is that of the sum of the parts, and each part has half of the variance. -/
theorem C71_weights_partial (A : Arith) (δ : ℚ) (hA : A.Close δ) (conf : Option (Str → Option Given)) (cls : Str → Option (Option Given))
    (names : List Str) (hn : names.Nodup) (b b' : Box) (h : process (machine A) conf cls names b = .ok b') (a wn : Str) (ha : a ∈ names)
    (p : Params) (hp : getParams conf cls a = some p) (hw : p.weight = some wn) (hwn : getParams conf cls wn = none)
    (h0 : 0 ≤ p.fixed) (inc : ℚ) (hinc : p.var = some (inc * 3)) (hpos : 0 < inc) (d w : Dset) (hd : b a = some d)
    (hwd : b wn = some w)
    (hnd : d.axes.Nodup) (hs : w.axes.Sublist d.axes) (hl : d.shape.length = d.axes.length)
    (hws : Restricts d.axes w.axes d.shape w.shape) :
    ∃ d', b' a = some d' ∧ SameForm d d' ∧ ∀ i, InShape i d.shape → ∃ j, Restricts d.axes w.axes i j ∧
      WithinVariance d.kind δ p.fixed inc ((if d.cplx = true then 2 else 1) * w.re j) (d'.re i) (d.re i) ∧
      (d.cplx = true → WithinVariance d.kind δ p.fixed inc (2 * w.re j) (d'.im i) (d.im i)) := by
  obtain ⟨c, c', q1, q2, q3, q4⟩ := steps_at (machine A) _ names hn b b' a h ha
  obtain ⟨f, hf, hfi⟩ := C71_axes_partial d w hnd hs hl hws
  have within : ∀ x wt : ℚ, WithinVariance d.kind δ p.fixed inc wt ((machine A).wt d.kind p.fixed wt (inc * 3) x) x :=
    fun x wt => machine_variance A δ hA d.kind p.fixed inc wt x h0 hpos
  have hd' : ∃ d', c' a = some d' ∧ truncWeights (machine A) p d w = .ok d' := by
    unfold step at q1
    rw [hp, q2, hd] at q1
    simp only [hw, q4 wn hwn, hwd] at q1
    cases ht : truncWeights (machine A) p d w with
    | error e => rw [ht] at q1; cases q1
    | ok d' =>
      rw [ht] at q1
      refine ⟨d', ?_, rfl⟩
      rw [← Except.ok.inj q1]
      exact if_pos rfl
  obtain ⟨d', e1, e2⟩ := hd'
  refine ⟨d', by rw [← q3, e1], ?_⟩
  unfold truncWeights at e2
  rw [hf, hinc] at e2
  simp only at e2
  by_cases hk : d.kind = .other ∨ d.kind ≠ w.kind
  · rw [if_pos hk] at e2; cases e2
  · rw [if_neg hk] at e2
    cases hc : d.cplx with
    | false =>
      rw [hc] at e2
      obtain rfl := Except.ok.inj e2
      refine ⟨⟨rfl, rfl, rfl, hc.symm, fun _ => rfl⟩, ?_⟩
      intro i hi
      obtain ⟨j, r1, r2⟩ := hfi i hi
      refine ⟨j, r1, ?_, by simp⟩
      rw [hc] at r2
      simp only [Bool.false_eq_true, if_false] at r2 ⊢
      rw [r2]
      exact within _ _
    | true =>
      rw [hc] at e2
      obtain rfl := Except.ok.inj e2
      refine ⟨⟨rfl, rfl, rfl, hc.symm, fun e => absurd (hc.symm.trans e) (by simp)⟩, ?_⟩
      intro i hi
      obtain ⟨j, r1, r2⟩ := hfi i hi
      rw [hc] at r2
      simp only [if_true] at r2 ⊢
      refine ⟨j, r1, ?_, fun _ => ?_⟩
      · rw [r2]; exact within _ _
      · rw [r2]; exact within _ _

/-! ### A case -/

/-- Exact products and quotients; something not larger than one over the square root. -/
def plain : Arith := ⟨fun _ x => x, fun _ x => if x ≤ 1 then 1 else 1 / x⟩

theorem plain_close : plain.Close 0 := by
  refine ⟨le_refl 0, fun k x => by simp [plain], fun k x h => h, fun k x _ _ => by simp [plain], fun k x hx => ?_⟩
  unfold plain
  simp only
  split
  · next h => exact ⟨by norm_num, by linarith⟩
  · next h =>
    have h1 : 1 < x := not_le.1 h
    refine ⟨by positivity, ?_⟩
    have : (1 / x) ^ 2 * x = 1 / x := by field_simp
    rw [this, div_le_iff₀ hx]
    linarith

/-- 3.140625 in single precision can be truncated to a precision of a hundredth. -/
example : Room .f32 (201 / 64) ((1 + 0) * (1 / 100 * |201 / 64|)) := by
  refine ⟨⟨0x40490000#32, by decide +kernel⟩, ?_, ?_⟩
  · simp only [Sound]
    rw [abs_of_pos (by norm_num : (0 : ℚ) < 201 / 64)]
    norm_num
  · rw [abs_of_pos (by norm_num : (0 : ℚ) < 201 / 64)]
    unfold top
    norm_num

/-- Halves the number (a tolerance of one half). -/
def halves : Trunc := ⟨fun _ _ v => v / 2, fun _ _ w inc v => if w / inc < 2 then v / 2 else v⟩

def vis : Dset := ⟨["f".toList, "t".toList], [2, 2], .f32, false, fun i => 1 + i.headD 0, fun _ => 0⟩
def wgt : Dset := ⟨["t".toList], [2], .f32, false, fun j => if j = [0] then 1 else 9, fun _ => 0⟩

def pair (v w : Dset) : Box := fun a => if a = "vis".toList then some v else if a = "w".toList then some w else none

/-- Truncate `vis` with the weights `w`, the increase being a third. -/
def useWeights : Option (Str → Option Given) :=
  some fun a => if a = "vis".toList then some (.dict (some (some "w".toList)) none (some (some (1 / 3)))) else none

def valuesOf (r : Except PyErr Box) : List ℚ :=
  match r with
  | .ok b => match b "vis".toList with
    | some d => [d.re [0, 0], d.re [0, 1], d.re [1, 0], d.re [1, 1]]
    | none => []
  | .error _ => []

example : valuesOf (process halves useWeights (fun _ => none) ["vis".toList, "w".toList] (pair vis wgt)) = [1 / 2, 1, 1, 2] := by
  decide +kernel

example : Restricts vis.axes wgt.axes vis.shape wgt.shape ∧ wgt.axes.Sublist vis.axes ∧ vis.axes.Nodup := by
  refine ⟨by unfold Restricts; decide, by decide, by decide⟩

/-! ### Where the property fails -/

/-- Weights with the axes of `vis` in the other order: large for the second `t` and the first `f`. -/
def turned : Dset := ⟨["t".toList, "f".toList], [2, 2], .f32, false, fun j => if j = [1, 0] then 9 else 1, fun _ => 0⟩

/-- C71: if the axes of the weights are in another order than those of the data, the weights of other elements are used:
the weight 9 of the element at `f = 0`, `t = 1` is taken for the one at `f = 1`, `t = 0`. -/
theorem C71_axes_violated :
    valuesOf (process halves useWeights (fun _ => none) ["vis".toList, "w".toList] (pair vis turned)) = [1 / 2, 1 / 2, 2, 1] := by
  decide +kernel

/-- C71: an empty dict in the specification of a class switches the truncation off, in the configuration on. -/
theorem C71_empty_violated :
    (getParams none (fun _ => some (some (.dict none none none))) "vis".toList).isSome = false ∧
    (getParams (some fun _ => some (.dict none none none)) (fun _ => none) "vis".toList).isSome = true := by
  decide +kernel

/-- C71: a dataset named in the configuration that is not in the specification of the container is not truncated. -/
theorem C71_unspecified_violated :
    valuesOf (process halves (some fun _ => some (.float (1 / 2))) (fun _ => none) [] (pair vis wgt)) = [1, 1, 2, 2] := by
  decide +kernel

/-- C71: data of double precision with weights of single precision cannot be truncated. -/
theorem C71_kinds_violated (T : Trunc) (p : Params) (d w : Dset) (hd : d.kind = .f64) (hw : w.kind = .f32) (d' : Dset) :
    truncWeights T p d w ≠ .ok d' := by
  unfold truncWeights
  cases getWeights d w with
  | error e => simp
  | ok f =>
    cases p.var with
    | none => simp
    | some v =>
      simp only
      rw [if_pos (.inr (by rw [hd, hw]; decide))]
      simp

example : vis.kind = .f32 ∧ ({ vis with kind := .f64 } : Dset).kind = .f64 := ⟨rfl, rfl⟩

/-- C71: in single precision, values from `2^-105` to `2^-104` become zero, whatever the precision asked for. -/
theorem C71_small_violated (A : Arith) (p : ℚ) (d : Dset) (hk : d.kind = .f32) (i : List Nat) (hv : Holds .f32 (d.re i))
    (hg : (2 : ℚ) ^ (-105 : ℤ) ≤ |d.re i| ∧ |d.re i| < (2 : ℚ) ^ (-104 : ℤ)) :
    ∃ d', truncRelative (machine A) p d = .ok d' ∧ d'.re i = 0 := by
  have h0 : (machine A).rel .f32 p (d.re i) = 0 := by
    have hm : (machine A).rel .f32 p (d.re i) =
        through Verif.Trunc.f32 (Verif.Trunc.f32.relElem (A.rnd .f32) p) (d.re i) := by simp only [machine]
    have hh : ∃ b, Verif.Trunc.f32.decode b = .fin (d.re i) := hv
    rw [hm]
    unfold through
    rw [dif_pos hh]
    have hc := hh.choose_spec
    unfold Verif.Trunc.Fmt.relElem
    rw [(Verif.Trunc.finite_iff (F := Verif.Trunc.f32)).2 hc]
    have hz := Verif.Trunc.C13_float_gap_all_violated hh.choose (d.re i) |A.rnd .f32 (p * d.re i)| hc hg
    simp only [Option.map_some, (Verif.Trunc.finite_iff (F := Verif.Trunc.f32)).2 hz, Option.getD_some]
  unfold truncRelative
  rw [if_neg (by rw [hk]; decide)]
  by_cases hc : d.cplx = true
  · rw [if_pos hc]
    refine ⟨_, rfl, ?_⟩
    simp only [hk, h0]
  · rw [if_neg hc]
    refine ⟨_, rfl, ?_⟩
    simp only [hk, h0]

example : Holds .f32 (1 / 2 ^ 105) ∧ (2 : ℚ) ^ (-105 : ℤ) ≤ |1 / 2 ^ 105| ∧ |(1 : ℚ) / 2 ^ 105| < (2 : ℚ) ^ (-104 : ℤ) := by
  refine ⟨⟨0x0B000000#32, Verif.Trunc.C13_float_gap_violated.1⟩, ?_, ?_⟩
  · rw [abs_of_pos (by positivity)]; norm_num
  · rw [abs_of_pos (by positivity)]; norm_num

end Verif.Shorten
