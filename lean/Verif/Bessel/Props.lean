import Verif.Bessel.Accuracy

/-!
# C104, C105: spherical Bessel functions

`sp` is `scipy.special.spherical_jn`, which is taken to be exact.
-/
namespace Verif.Bessel

open Real

/-! ### The specification says what it should -/

/-- There is exactly one family of spherical Bessel functions as the specification has it; each of them solves the spherical
Bessel equation. -/
theorem C104_family :
    (∃! j, IsSphericalBessel j) ∧
    ∀ j, IsSphericalBessel j → ∀ (l : ℕ) (z : ℝ), z ≠ 0 →
      z ^ 2 * deriv (deriv (j l)) z + 2 * z * deriv (j l) z + (z ^ 2 - l * (l + 1)) * j l z = 0 := by
  refine ⟨⟨bes, bes_is, fun k hk => bes_unique hk bes_is⟩, ?_⟩
  intro j hj l z hz
  rw [(j_deriv2 hj l hz).deriv, (j_deriv hj l hz).deriv, hj.step l z hz]
  field_simp
  ring

/-! ### C104: derivatives -/

/-- Where no approximation is used for `l` and `l + 1`, `jl_d` is the derivative. -/
theorem C104_first_partial (sp : ℕ → ℝ → ℝ) (hsp : IsSphericalBessel sp) (l : ℕ) (z : ℝ) (hz : z ≠ 0)
    (h0 : Plain l z) (h1 : Plain (l + 1) z) :
    ∃ d, jld sp (.num l) (.num z) = .ok (.num (some d)) ∧ HasDerivAt (sp l) d z := by
  refine ⟨l / z * sp l z - sp (l + 1) z, ?_, j_deriv hsp l hz⟩
  have e0 := jlAt_plain sp (fun _ h => j_origin hsp h) h0
  have e1 := jlAt_plain sp (fun _ h => j_origin hsp h) h1
  simp [jld, combine, jl_num, Arg.isList, Arg.isArray, Arg.vals, broadcast, jldAt, hz, e0, e1]
  ring

example : Plain 3 2 ∧ Plain 4 2 ∧ Plain 100 300 ∧ Plain 101 300 ∧ (2 : ℝ) ≠ 0 := by
  refine ⟨.inr ⟨by norm_num, by norm_num⟩, .inr ⟨by norm_num, by norm_num⟩, .inr ⟨by norm_num, by norm_num⟩,
    .inr ⟨by norm_num, by norm_num⟩, by norm_num⟩

/-- Everywhere else but at zero it is off by no more than the errors of the two values of `jl`. -/
theorem C104_first_error (sp : ℕ → ℝ → ℝ) (hsp : IsSphericalBessel sp) (l : ℕ) (z : ℝ) (hz : z ≠ 0) (a b : ℝ)
    (ha : jl sp (.num l) (.num z) = .ok (.num a)) (hb : jl sp (.num (l + 1)) (.num z) = .ok (.num b)) :
    ∃ d, jld sp (.num l) (.num z) = .ok (.num (some d)) ∧
      |d - deriv (sp l) z| ≤ |b - sp (l + 1) z| + |l / z| * |a - sp l z| := by
  rw [jl_num] at ha hb
  simp only [Except.ok.injEq, Res.num.injEq] at ha hb
  subst ha hb
  refine ⟨-jlAt sp (l + 1) z + l / z * jlAt sp l z, ?_, ?_⟩
  · simp [jld, combine, jl_num, Arg.isList, Arg.isArray, Arg.vals, broadcast, jldAt, hz]
  · rw [(j_deriv hsp l hz).deriv, ← abs_mul]
    calc |-jlAt sp (l + 1) z + l / z * jlAt sp l z - (l / z * sp l z - sp (l + 1) z)|
        = |-(jlAt sp (l + 1) z - sp (l + 1) z) + l / z * (jlAt sp l z - sp l z)| := by congr 1; ring
      _ ≤ |-(jlAt sp (l + 1) z - sp (l + 1) z)| + |l / z * (jlAt sp l z - sp l z)| := abs_add_le _ _
      _ = |jlAt sp (l + 1) z - sp (l + 1) z| + |l / z * (jlAt sp l z - sp l z)| := by rw [abs_neg]

example (sp : ℕ → ℝ → ℝ) : ∃ a b, jl sp (.num 100) (.num 5) = .ok (.num a) ∧
    jl sp (.num (100 + 1)) (.num 5) = .ok (.num b) := ⟨_, _, jl_num .., jl_num ..⟩

/-- Both functions work on arrays element by element; an element is `nan` if for a number there is an exception. -/
theorem C104_arrays (sp : ℕ → ℝ → ℝ) (ls : List ℕ) (zs : List ℝ) (h : ls.length = zs.length) (f : Arg ℕ → Arg ℝ → Except Err (Res (Option ℝ)))
    (hf : f = jld sp ∨ f = jld2 sp) :
    ∃ ds, f (.array ls) (.array zs) = .ok (.array ds) ∧ ds.length = ls.length ∧
      ∀ i (hi : i < ls.length) (hz : i < zs.length) (hd : i < ds.length),
        (∀ d, ds[i] = some d ↔ f (.num ls[i]) (.num zs[i]) = .ok (.num (some d))) ∧
        (ds[i] = none ↔ f (.num ls[i]) (.num zs[i]) = .error .zeroDivision) := by
  obtain ⟨e, rfl⟩ : ∃ e, f = combine sp e := by
    rcases hf with rfl | rfl
    · exact ⟨_, rfl⟩
    · exact ⟨_, rfl⟩
  refine ⟨(ls.zip zs).map fun p => e p.1 p.2, ?_, ?_, ?_⟩
  · simp [combine, jl_arrays sp ls zs h, Arg.isList, Arg.isArray, Arg.vals, broadcast, h]
  · simp [h]
  · intro i hi hz hd
    simp only [List.getElem_map, List.getElem_zip]
    have hn : combine sp e (.num ls[i]) (.num zs[i]) =
        match e ls[i] zs[i] with
        | some d => .ok (.num (some d))
        | none => .error .zeroDivision := by
      simp only [combine, jl_num, Arg.isList, Arg.isArray, Arg.vals, broadcast]
      cases h' : e ls[i] zs[i] <;> simp [h']
    rw [hn]
    cases h' : e ls[i] zs[i] <;> simp

example (sp : ℕ → ℝ → ℝ) : ∃ ds, jld sp (.array [0, 3]) (.array [1, 0]) = .ok (.array ds) ∧ ds.length = 2 :=
  (C104_arrays sp [0, 3] [1, 0] rfl _ (.inl rfl)).imp fun _ h => ⟨h.1, h.2.1⟩

/-- A number stands for as many elements as the other argument has; lists are refused. -/
theorem C104_broadcast (sp : ℕ → ℝ → ℝ) (l : ℕ) (z : ℝ) (ls : List ℕ) (zs : List ℝ) (f : Arg ℕ → Arg ℝ → Except Err (Res (Option ℝ)))
    (hf : f = jld sp ∨ f = jld2 sp) :
    f (.num l) (.array zs) = f (.array (zs.map fun _ => l)) (.array zs) ∧
    f (.array ls) (.num z) = f (.array ls) (.array (ls.map fun _ => z)) ∧
    (ls.length ≠ zs.length → ls.length ≠ 1 → zs.length ≠ 1 → f (.array ls) (.array zs) = .error .valueError) ∧
    f (.num l) (.list (z :: zs)) = .error .typeError ∧ f (.list (l :: ls)) (.num z) = .error .typeError := by
  obtain ⟨e, rfl⟩ : ∃ e, f = combine sp e := by
    rcases hf with rfl | rfl
    · exact ⟨_, rfl⟩
    · exact ⟨_, rfl⟩
  refine ⟨?_, ?_, ?_, ?_, ?_⟩
  · have hl : (zs.map fun _ => l).length = zs.length := List.length_map _
    have ha : jl sp (.num l) (.array zs) = .ok (.array (zs.map fun z => jlAt sp l z)) := by
      simp [jl, Arg.vals, Arg.isArray, broadcast_num_left, Function.comp_def]
    simp only [combine, ha, jl_arrays sp _ _ hl, Arg.isList, Arg.isArray, Arg.vals, broadcast_num_left, Bool.false_or, Bool.or_false, Bool.true_or,
      Bool.false_eq_true, if_true, if_false]
    rw [show broadcast (zs.map fun _ => l) zs = .ok ((zs.map fun _ => l).zip zs) by simp [broadcast]]
    simp only []
    congr 2
    apply List.ext_getElem <;> simp
  · have hl : ls.length = (ls.map fun _ => z).length := (List.length_map _).symm
    have ha : jl sp (.array ls) (.num z) = .ok (.array (ls.map fun l => jlAt sp l z)) := by
      simp [jl, Arg.vals, Arg.isArray, broadcast_num_right, Function.comp_def]
    simp only [combine, ha, jl_arrays sp _ _ hl, Arg.isList, Arg.isArray, Arg.vals, broadcast_num_right, Bool.false_or, Bool.or_false, Bool.true_or,
      Bool.false_eq_true, if_true, if_false]
    rw [show broadcast ls (ls.map fun _ => z) = .ok (ls.zip (ls.map fun _ => z)) by simp [broadcast]]
    simp only []
    congr 2
    apply List.ext_getElem <;> simp
  · intro h hl hz
    simp [combine, jl, Arg.vals, broadcast_error ls zs h hl hz]
  · simp [combine, jl, Arg.vals, Arg.isArray, Arg.isList, broadcast_num_left]
  · simp [combine, jl, Arg.vals, Arg.isArray, Arg.isList, broadcast_num_right]

example (sp : ℕ → ℝ → ℝ) : ∃ ds, jld sp (.num 2) (.array [1, 3]) = .ok (.array ds) ∧ ds.length = 2 := by
  rw [(C104_broadcast sp 2 0 [] [1, 3] _ (.inl rfl)).1]
  exact (C104_arrays sp [2, 2] [1, 3] rfl _ (.inl rfl)).imp fun _ h => ⟨h.1, h.2.1⟩

/-- `jl_d2` is the second derivative only for arguments at which a certain combination of two of the functions is zero. -/
theorem C104_second_partial (sp : ℕ → ℝ → ℝ) (hsp : IsSphericalBessel sp) (l : ℕ) (z : ℝ) (hz : z ≠ 0)
    (h0 : Plain l z) (h1 : Plain (l + 1) z) (h2 : Plain (l + 2) z) :
    ∃ d, jld2 sp (.num l) (.num z) = .ok (.num (some d)) ∧
      (d = deriv (deriv (sp l)) z ↔ z * sp (l + 1) z + (l - 1) * sp l z = 0) := by
  have e0 := jlAt_plain sp (fun _ h => j_origin hsp h) h0
  have e1 := jlAt_plain sp (fun _ h => j_origin hsp h) h1
  have e2 := jlAt_plain sp (fun _ h => j_origin hsp h) h2
  refine ⟨sp (l + 2) z - 2 * l / z * sp (l + 1) z + ((l : ℝ) ^ 2 - 1) / z ^ 2 * sp l z, ?_, ?_⟩
  · simp [jld2, combine, jl_num, Arg.isList, Arg.isArray, Arg.vals, broadcast, jld2At, hz, e0, e1, e2]
  · rw [(j_deriv2 hsp l hz).deriv]
    have key : sp (l + 2) z - 2 * l / z * sp (l + 1) z + ((l : ℝ) ^ 2 - 1) / z ^ 2 * sp l z -
        (((l : ℝ) ^ 2 - l) / z ^ 2 * sp l z - (2 * l + 1) / z * sp (l + 1) z + sp (l + 2) z) =
        (z * sp (l + 1) z + (l - 1) * sp l z) / z ^ 2 := by
      field_simp
      ring
    rw [← sub_eq_zero, key, div_eq_zero_iff]
    simp [hz]

/-- At order zero and the argument `π` the second derivative is `2 / π²`; `jl_d2` gives `3 / π²`. -/
theorem C104_second_violated :
    ∀ sp, IsSphericalBessel sp →
      jld2 sp (.num 0) (.num π) = .ok (.num (some (3 / π ^ 2))) ∧ deriv (deriv (sp 0)) π = 2 / π ^ 2 ∧
      (3 / π ^ 2 : ℝ) ≠ 2 / π ^ 2 := by
  intro sp hsp
  have hpi : π ≠ 0 := pi_ne_zero
  have h3 := two_le_pi
  have p0 : Plain 0 π := .inr ⟨by simp [pi_pos.le], by simp⟩
  have p1 : Plain (0 + 1) π := .inr ⟨by push_cast; linarith, by simp⟩
  have p2 : Plain (0 + 2) π := .inr ⟨by push_cast; linarith, by simp⟩
  have v0 : sp 0 π = 0 := by rw [hsp.zero π hpi]; simp
  have v1 : sp 1 π = 1 / π := by rw [hsp.one π hpi]; simp; field_simp
  have v2 : sp 2 π = 3 / π ^ 2 := by
    have := hsp.step 0 π hpi
    simp only [zero_add] at this
    rw [this, v0, v1]; field_simp; simp
  have hj0 : ∀ l, 0 < l → sp l 0 = 0 := fun _ h => j_origin hsp h
  refine ⟨?_, ?_, ?_⟩
  · have e0 := jlAt_plain sp hj0 p0
    have e1 := jlAt_plain sp hj0 p1
    have e2 := jlAt_plain sp hj0 p2
    simp only [zero_add] at e1 e2
    simp [jld2, combine, jl_num, Arg.isList, Arg.isArray, Arg.vals, broadcast, jld2At, hpi, e0, e2, v0, v2]
  · rw [(j_deriv2 hsp 0 hpi).deriv]
    simp only [zero_add]
    rw [v0, v1, v2]
    field_simp
    norm_num
  · intro h
    rw [div_left_inj' (by positivity)] at h
    norm_num at h

example : ∃ sp, IsSphericalBessel sp := ⟨bes, bes_is⟩

/-- At zero the functions have derivatives, but there `jl_d` and `jl_d2` raise an exception, and give `nan` for arrays. -/
theorem C104_origin_violated (sp : ℕ → ℝ → ℝ) (hsp : IsSphericalBessel sp) (l : ℕ) (hl : 2 ≤ l) :
    HasDerivAt (sp l) 0 0 ∧
    jld sp (.num l) (.num 0) = .error .zeroDivision ∧ jld2 sp (.num l) (.num 0) = .error .zeroDivision ∧
    jld sp (.array [l]) (.array [0]) = .ok (.array [none]) ∧
    jld2 sp (.array [l]) (.array [0]) = .ok (.array [none]) := by
  refine ⟨?_, ?_, ?_, ?_, ?_⟩
  · rw [hasDerivAt_iff_tendsto_slope]
    have h3 : Filter.Tendsto (fun z : ℝ => |z| ^ (l - 1)) (nhdsWithin 0 {0}ᶜ) (nhds 0) := by
      have : Continuous fun z : ℝ => |z| ^ (l - 1) := by fun_prop
      have h := (this.tendsto 0).mono_left (nhdsWithin_le_nhds (s := {0}ᶜ))
      simpa [show l - 1 ≠ 0 by omega] using h
    refine squeeze_zero_norm' ?_ h3
    filter_upwards [self_mem_nhdsWithin] with z hz
    have hz' : z ≠ 0 := hz
    rw [slope_def_field, j_origin hsp (by omega), sub_zero, sub_zero, norm_div, Real.norm_eq_abs,
      Real.norm_eq_abs, div_le_iff₀ (by positivity), ← pow_succ, show l - 1 + 1 = l by omega]
    exact j_bound hsp l hz'
  · simp [jld, combine, jl_num, Arg.isList, Arg.isArray, Arg.vals, broadcast, jldAt]
  · simp [jld2, combine, jl_num, Arg.isList, Arg.isArray, Arg.vals, broadcast, jld2At]
  · simp [jld, combine, jl, Arg.isList, Arg.isArray, Arg.vals, broadcast, jldAt]
  · simp [jld2, combine, jl, Arg.isList, Arg.isArray, Arg.vals, broadcast, jld2At]

/-! ### C105: values -/

/-- Where no approximation is used the value is that of the spherical Bessel function, also at zero. -/
theorem C105_exact_partial (sp : ℕ → ℝ → ℝ) (hsp : IsSphericalBessel sp) (l : ℕ) (z : ℝ) (h : Plain l z) :
    jl sp (.num l) (.num z) = .ok (.num (sp l z)) := by
  rw [jl_num, jlAt_plain sp (fun _ h => j_origin hsp h) h]

example : Plain 5 0 ∧ Plain 0 0 ∧ Plain 7 (-3) ∧ Plain 20 1000 ∧ ¬ Plain 21 1000 := by
  refine ⟨.inl (by norm_num), .inl (by norm_num), .inl (by norm_num), .inr ⟨by norm_num, by norm_num⟩, ?_⟩
  rintro (h | ⟨_, h⟩)
  · norm_num at h
  · have := (h (by norm_num)).2; norm_num at this

/-- Everywhere else it is that of one of two asymptotic expansions: for arguments below `l + 1/2` the one for these, for
arguments above it the other; so they are used where they are defined. -/
theorem C105_expansions (sp : ℕ → ℝ → ℝ) (l : ℕ) (z : ℝ) (h : ¬ Plain l z) :
    ∃ v, jl sp (.num l) (.num z) = .ok (.num v) ∧
      ((0 < z ∧ z < l + 1 / 2 ∧ ∃ α, 0 < α ∧ z * cosh α = l + 1 / 2 ∧ v = debyeLow l z α) ∨
       ((l : ℝ) + 1 / 2 < z ∧ 20 < l ∧ ∃ β, 0 < β ∧ β < π / 2 ∧ z * cos β = l + 1 / 2 ∧ v = debyeHigh l z β)) := by
  refine ⟨jlAt sp l z, jl_num .., ?_⟩
  unfold Plain at h
  push Not at h
  obtain ⟨hz, h⟩ := h
  by_cases hh : isHigh l z
  · right
    have hd := high_domain hh
    refine ⟨hd, hh.1, ?_⟩
    obtain ⟨β, h1, h2, h3, h4⟩ := highz_eq l hd
    refine ⟨β, h1, h2, h3, ?_⟩
    rw [← h4]; unfold jlAt
    rw [if_neg (by simp [hh]), if_pos hh]
  · left
    have hlow : isLow l z := by
      refine ⟨?_, hz⟩
      by_cases ha : (l : ℝ) / 1000000 ≤ z
      · obtain ⟨hl, hb⟩ := h ha
        left
        refine ⟨hl, ?_⟩
        by_contra hc
        exact hh ⟨hl, hb (not_lt.mp hc)⟩
      · right; norm_num; linarith
    obtain ⟨d0, d1⟩ := low_domain hlow
    refine ⟨d0, d1, ?_⟩
    obtain ⟨α, h1, h2, h3⟩ := lowz_eq l d0 d1
    refine ⟨α, h1, h2, ?_⟩
    rw [← h3]; unfold jlAt
    rw [if_neg (by simp [hlow]), if_neg hh, if_pos hlow]

/-- The expansion for small arguments is used for small orders, too, where it is bad: at order one its values are too small by more
than a tenth, for all arguments it is used for. -/
theorem C105_accuracy_violated (sp : ℕ → ℝ → ℝ) (hsp : IsSphericalBessel sp) (z : ℝ) (h0 : 0 < z) (h1 : z < 1 / 1000000) :
    ∃ v, jl sp (.num 1) (.num z) = .ok (.num v) ∧ 0 < sp 1 z ∧ v < 9 / 10 * sp 1 z := by
  have hj := j_one_lower hsp h0 h1
  have hu := lowz_one_upper h0 h1
  have hlow : isLow 1 z := ⟨.inr (by norm_num; linarith), h0⟩
  have hhigh : ¬ isHigh 1 z := by rintro ⟨h, _⟩; omega
  refine ⟨lowz 1 z, ?_, ?_, ?_⟩
  · rw [jl_num]; unfold jlAt
    rw [if_neg (by simp [hlow]), if_neg hhigh, if_pos hlow]
  · norm_num at hj; linarith
  · norm_num at hj hu; linarith

example : (0 : ℝ) < 1 / 10000000 ∧ (1 / 10000000 : ℝ) < 1 / 1000000 := by norm_num

/-- Arrays of the same length are worked on element by element. -/
theorem C105_elementwise (sp : ℕ → ℝ → ℝ) (ls : List ℕ) (zs : List ℝ) (h : ls.length = zs.length) :
    ∃ js, jl sp (.array ls) (.array zs) = .ok (.array js) ∧ js.length = ls.length ∧
      ∀ i (hi : i < ls.length) (hz : i < zs.length) (hd : i < js.length),
        jl sp (.num ls[i]) (.num zs[i]) = .ok (.num js[i]) := by
  refine ⟨_, jl_arrays sp ls zs h, by simp [h], ?_⟩
  intro i hi hz hd
  rw [jl_num]
  simp

example : [3, 25, 25].length = [(1 : ℝ), 2, 400].length := rfl

/-- A number stands for as many elements as the other argument has; other lengths do not go together. -/
theorem C105_broadcast (sp : ℕ → ℝ → ℝ) (l : ℕ) (z : ℝ) (ls : List ℕ) (zs : List ℝ) :
    jl sp (.num l) (.array zs) = jl sp (.array (zs.map fun _ => l)) (.array zs) ∧
    jl sp (.array ls) (.num z) = jl sp (.array ls) (.array (ls.map fun _ => z)) ∧
    jl sp (.array [l]) (.array zs) = jl sp (.num l) (.array zs) ∧
    jl sp (.array ls) (.array [z]) = jl sp (.array ls) (.num z) ∧
    (ls.length ≠ zs.length → ls.length ≠ 1 → zs.length ≠ 1 → jl sp (.array ls) (.array zs) = .error .valueError) := by
  refine ⟨?_, ?_, ?_, ?_, ?_⟩
  · rw [jl_arrays _ _ _ (by simp)]
    simp only [jl, Arg.vals, broadcast_num_left]
    simp only [Arg.isArray, Bool.false_or, if_true]
    congr 2
    rw [List.zip_map_left]
    apply List.ext_getElem <;> simp
  · rw [jl_arrays _ _ _ (by simp)]
    simp only [jl, Arg.vals, broadcast_num_right]
    simp only [Arg.isArray, Bool.true_or, if_true]
    congr 2
    rw [List.zip_map_right]
    apply List.ext_getElem <;> simp
  · simp [jl, Arg.vals, Arg.isArray]
  · simp [jl, Arg.vals, Arg.isArray]
  · intro h hl hz
    simp [jl, Arg.vals, broadcast_error ls zs h hl hz]

/-- Lists are taken, but only the value for the first elements is returned. -/
theorem C105_list_violated (sp : ℕ → ℝ → ℝ) (l : ℕ) (z : ℝ) (ls : List ℕ) (zs : List ℝ) (h : ls.length = zs.length) :
    jl sp (.list (l :: ls)) (.list (z :: zs)) = jl sp (.num l) (.num z) ∧
    jl sp (.num l) (.list (z :: zs)) = jl sp (.num l) (.num z) := by
  rw [jl_num]
  constructor
  · simp [jl, Arg.vals, Arg.isArray, broadcast, h]
  · simp [jl, Arg.vals, Arg.isArray, broadcast_num_left]

example : ([1, 2] : List ℕ).length = ([3, 4] : List ℝ).length := rfl

end Verif.Bessel
