import Verif.Roots.TransitModel
import Verif.Roots.Props
import Mathlib.Tactic.Common
import Mathlib.Analysis.SpecialFunctions.Trigonometric.Basic

/-! # C91: transits, risings and settings -/
namespace Verif.Roots

/-! ## Specification -/

/-- The angle `theta` (without wrapping) turns forwards and takes every value between two it takes. -/
structure Turns (theta : ℚ → ℚ) : Prop where
  mono : ∀ a b, a < b → theta a < theta b
  between : ∀ a b v, a ≤ b → theta a ≤ v → v ≤ theta b → ∃ t, a ≤ t ∧ t ≤ b ∧ theta t = v

/-- A transit: the angle is a whole number of turns; for the lower transit half a turn more. -/
def IsTransit (theta : ℚ → ℚ) (lower : Bool) (t : ℚ) : Prop :=
  ∃ k : ℤ, theta t = 360 * k + if lower then 180 else 0

/-- What is documented of `brentq`, for a stretch over which the function increases: it finds the root. -/
def FindsIncreasing (f : ℚ → ℚ) (brentq : ℚ → ℚ → Option ℚ) : Prop :=
  ∀ a b r, a < b → (∀ x y, a ≤ x → x < y → y ≤ b → f x < f y) → a ≤ r → r ≤ b → f r = 0 → brentq a b = some r

/-! ## The wrapped angle -/

/-- The angle wrapped to the half turn around zero. -/
def wrap (x : ℚ) : ℚ := pmod (x + 180) 360 - 180

theorem wrap_eq (x : ℚ) : wrap x = x - 360 * ⌊(x + 180) / 360⌋ := by
  unfold wrap pmod
  ring

theorem wrap_of (x : ℚ) (k : ℤ) (h1 : 360 * k - 180 ≤ x) (h2 : x < 360 * k + 180) : wrap x = x - 360 * k := by
  rw [wrap_eq]
  have : ⌊(x + 180) / 360⌋ = k := by
    rw [Int.floor_eq_iff]
    constructor
    · rw [le_div_iff₀ (by norm_num)]; linarith
    · rw [div_lt_iff₀ (by norm_num)]; linarith
  rw [this]

theorem wrap_exists (x : ℚ) : ∃ k : ℤ, 360 * (k : ℚ) - 180 ≤ x ∧ x < 360 * k + 180 ∧ wrap x = x - 360 * k := by
  refine ⟨⌊(x + 180) / 360⌋, ?_, ?_, wrap_eq x⟩
  · have := Int.floor_le ((x + 180) / 360)
    rw [le_div_iff₀ (by norm_num)] at this
    linarith
  · have := Int.lt_floor_add_one ((x + 180) / 360)
    rw [div_lt_iff₀ (by norm_num)] at this
    linarith

theorem wrap_add (x : ℚ) (n : ℤ) : wrap (x + 360 * n) = wrap x := by
  obtain ⟨k, h1, h2, h3⟩ := wrap_exists x
  rw [h3, wrap_of (x + 360 * n) (k + n) (by push_cast; linarith) (by push_cast; linarith)]
  push_cast
  ring

theorem wrap_zero (x : ℚ) : wrap x = 0 ↔ ∃ k : ℤ, x = 360 * k := by
  constructor
  · intro h
    obtain ⟨k, _, _, h3⟩ := wrap_exists x
    exact ⟨k, by linarith⟩
  · rintro ⟨k, rfl⟩
    rw [wrap_of _ k (by linarith) (by linarith)]
    ring

/-- The function of the transits is the wrapped angle, for the lower transit shifted by half a turn. -/
theorem transitFn_eq (lst ra theta : ℚ → ℚ) (n : ℚ → ℤ) (h : ∀ t, lst t - ra t = theta t + 360 * n t) (lower : Bool)
    (t : ℚ) : transitFn (sourceHa lst ra) lower t = wrap (theta t - if lower then 180 else 0) := by
  have e : sourceHa lst ra t = wrap (theta t) := by
    rw [← wrap_add (theta t) (n t), ← h]
    rfl
  cases lower with
  | false => simp [transitFn, e]
  | true =>
    simp only [transitFn, if_true, e]
    obtain ⟨k, h1, h2, h3⟩ := wrap_exists (theta t)
    have : pmod (wrap (theta t)) 360 - 180 = wrap (wrap (theta t) - 180) := by
      unfold wrap
      congr 2
      ring
    rw [this, h3]
    have e2 : theta t - 360 * (k : ℚ) - 180 = (theta t - 180) + 360 * ((-k : ℤ) : ℚ) := by push_cast; ring
    rw [e2, wrap_add]

/-- C91. The hour angle is always from -180 degrees (included) to 180 (excluded) and differs from sidereal time minus
right ascension by whole turns. -/
theorem C91_hour_angle (lst ra : ℚ → ℚ) (t : ℚ) :
    -180 ≤ sourceHa lst ra t ∧ sourceHa lst ra t < 180 ∧ ∃ k : ℤ, sourceHa lst ra t = lst t - ra t - 360 * k := by
  obtain ⟨k, h1, h2, h3⟩ := wrap_exists (lst t - ra t)
  have e : sourceHa lst ra t = wrap (lst t - ra t) := rfl
  rw [e, h3]
  exact ⟨by linarith, by linarith, k, rfl⟩

/-- Sidereal time 350 and right ascension 10: the source is 20 degrees before its transit. -/
example : sourceHa (fun _ => 350) (fun _ => 10) 0 = -20 := by
  decide +kernel

/-! ## Transits -/

/-- In a cell over which the angle turns less than half a turn, the sign changes upwards exactly when there is a
transit in it; then the function increases over the cell. -/
theorem cell_transit (phi : ℚ → ℚ) (ht : Turns phi) (a b : ℚ) (hab : a < b) (hw : phi b - phi a < 180) :
    ((wrap (phi a) < 0 ∧ 0 < wrap (phi b)) ↔ ∃ t, a < t ∧ t < b ∧ ∃ k : ℤ, phi t = 360 * k) ∧
    ((wrap (phi a) < 0 ∧ 0 < wrap (phi b)) → ∀ x y, a ≤ x → x < y → y ≤ b → wrap (phi x) < wrap (phi y)) := by
  have hm := ht.mono a b hab
  obtain ⟨i, hi1, hi2, hi3⟩ := wrap_exists (phi a)
  obtain ⟨j, hj1, hj2, hj3⟩ := wrap_exists (phi b)
  have hle : ∀ x y, x ≤ y → phi x ≤ phi y := by
    intro x y hxy
    rcases lt_or_eq_of_le hxy with h | h
    · exact le_of_lt (ht.mono x y h)
    · rw [h]
  have key : (wrap (phi a) < 0 ∧ 0 < wrap (phi b)) → i = j := by
    rintro ⟨h1, h2⟩
    rw [hi3] at h1
    rw [hj3] at h2
    have l1 : (j : ℚ) < i + 1 := by linarith
    have l2 : (i : ℚ) < j + 1 := by linarith
    have l1' : j < i + 1 := by exact_mod_cast l1
    have l2' : i < j + 1 := by exact_mod_cast l2
    omega
  refine ⟨⟨?_, ?_⟩, ?_⟩
  · intro h
    have hij := key h
    subst hij
    obtain ⟨h1, h2⟩ := h
    rw [hi3] at h1
    rw [hj3] at h2
    obtain ⟨t, t1, t2, t3⟩ := ht.between a b (360 * i) (le_of_lt hab) (by linarith) (by linarith)
    refine ⟨t, lt_of_le_of_ne t1 ?_, lt_of_le_of_ne t2 ?_, i, t3⟩
    · rintro rfl; linarith
    · rintro rfl; linarith
  · rintro ⟨t, t1, t2, k, t3⟩
    have m1 := ht.mono a t t1
    have m2 := ht.mono t b t2
    rw [wrap_of (phi a) k (by linarith) (by linarith), wrap_of (phi b) k (by linarith) (by linarith)]
    exact ⟨by linarith, by linarith⟩
  · intro h x y hx hxy hy
    have hij := key h
    subst hij
    have x1 := hle a x hx
    have x2 := ht.mono x y hxy
    have x3 := hle y b hy
    rw [wrap_of (phi x) i (by linarith) (by linarith), wrap_of (phi y) i (by linarith) (by linarith)]
    linarith

/-- The search over a grid whose cells turn less than half a turn. -/
theorem search_transits (mul : ℚ → ℚ → ℚ) (hm : SignMul mul) (phi : ℚ → ℚ) (ht : Turns phi)
    (brentq : ℚ → ℚ → Option ℚ) (hb : FindsIncreasing (fun t => wrap (phi t)) brentq) (g : List ℚ)
    (a : ℚ) (hinc : Increasing (a :: g)) (hne : ∀ x ∈ a :: g, wrap (phi x) ≠ 0)
    (hw : ∀ c ∈ cells (a :: g), phi c.2 - phi c.1 < 180) :
    ∃ rs, search mul (fun t => wrap (phi t)) brentq false true (a :: g) = .ok rs ∧
      (∀ t, t ∈ rs.map Prod.fst ↔ (a ≤ t ∧ t ≤ (a :: g).getLast (by simp) ∧ ∃ k : ℤ, phi t = 360 * k)) ∧
      (rs.map Prod.fst).Pairwise (· < ·) ∧ a ≤ (a :: g).getLast (by simp) := by
  induction g generalizing a with
  | nil =>
    refine ⟨[], rfl, ?_, by simp, le_refl _⟩
    intro t
    simp only [List.map_nil, List.not_mem_nil, List.getLast_singleton, false_iff]
    rintro ⟨h1, h2, k, h3⟩
    have : t = a := le_antisymm h2 h1
    subst this
    exact hne t (by simp) ((wrap_zero _).2 ⟨k, h3⟩)
  | cons b rest ih =>
    have hab : a < b := hinc (a, b) (by simp [cells])
    obtain ⟨rs, r1, r2, r3, r4⟩ := ih b (fun c hc => hinc c (by simp [cells, hc]))
      (fun x hx => hne x (List.mem_cons_of_mem _ hx)) (fun c hc => hw c (by simp [cells, hc]))
    have hna := hne a (by simp)
    have hnb := hne b (by simp)
    obtain ⟨hc1, hc2⟩ := cell_transit phi ht a b hab (hw (a, b) (by simp [cells]))
    have hlast : (a :: b :: rest).getLast (by simp) = (b :: rest).getLast (by simp) := by simp
    rw [hlast]
    have hnotb : ¬ ∃ k : ℤ, phi b = 360 * k := fun h => hnb ((wrap_zero _).2 h)
    have hnota : ¬ ∃ k : ℤ, phi a = 360 * k := fun h => hna ((wrap_zero _).2 h)
    by_cases hwant : wrap (phi a) < 0 ∧ 0 < wrap (phi b)
    · obtain ⟨t, t1, t2, k, t3⟩ := hc1.1 hwant
      have hroot : wrap (phi t) = 0 := (wrap_zero _).2 ⟨k, t3⟩
      have hbt : brentq a b = some t := hb a b t hab (hc2 hwant) (le_of_lt t1) (le_of_lt t2) hroot
      have hmul : ¬ mul (wrap (phi a)) (wrap (phi b)) > 0 := fun h =>
        absurd ((hm _ _).1 h) (not_lt.2 (le_of_lt (mul_neg_of_neg_of_pos hwant.1 hwant.2)))
      have hlt : wrap (phi a) < wrap (phi b) := lt_trans hwant.1 hwant.2
      refine ⟨(t, true) :: rs, ?_, ?_, ?_, by linarith⟩
      · rw [search]
        simp only [visit, if_neg hmul, hbt, hlt, decide_true, Bool.not_true, Bool.and_false, Bool.false_and,
          Bool.false_eq_true, if_false, r1]
      · intro s
        simp only [List.map_cons, List.mem_cons, r2 s]
        constructor
        · rintro (rfl | ⟨s1, s2, s3⟩)
          · exact ⟨by linarith, by linarith, k, t3⟩
          · exact ⟨by linarith, s2, s3⟩
        · rintro ⟨s1, s2, s3⟩
          by_cases hs : b ≤ s
          · exact Or.inr ⟨hs, s2, s3⟩
          · left
            have hs' : s < b := not_le.1 hs
            have hmono := hc2 hwant
            have hz : wrap (phi s) = 0 := (wrap_zero _).2 s3
            rcases lt_trichotomy s t with h | h | h
            · have := hmono s t s1 h (le_of_lt t2)
              rw [hz, hroot] at this
              exact absurd this (lt_irrefl _)
            · exact h
            · have := hmono t s (le_of_lt t1) h (le_of_lt hs')
              rw [hz, hroot] at this
              exact absurd this (lt_irrefl _)
      · simp only [List.map_cons, List.pairwise_cons]
        refine ⟨?_, r3⟩
        intro s hs
        have := ((r2 s).1 hs).1
        linarith
    · have hnone : visit mul (fun t => wrap (phi t)) brentq false true a b = .ok none := by
        unfold visit
        by_cases hp : mul (wrap (phi a)) (wrap (phi b)) > 0
        · rw [if_pos hp]
        · rw [if_neg hp]
          have hlt : ¬ wrap (phi a) < wrap (phi b) := by
            intro hlt
            apply hwant
            have hp' : ¬ wrap (phi a) * wrap (phi b) > 0 := fun h => hp ((hm _ _).2 h)
            rcases lt_or_gt_of_ne hna with h1 | h1
            · refine ⟨h1, ?_⟩
              rcases lt_or_gt_of_ne hnb with h2 | h2
              · exact absurd (mul_pos_of_neg_of_neg h1 h2) hp'
              · exact h2
            · exact absurd (mul_pos h1 (lt_trans h1 hlt)) hp'
          simp [hlt]
      refine ⟨rs, ?_, ?_, r3, by linarith⟩
      · rw [search, hnone]
        exact r1
      · intro s
        rw [r2 s]
        constructor
        · rintro ⟨s1, s2, s3⟩
          exact ⟨by linarith, s2, s3⟩
        · rintro ⟨s1, s2, s3⟩
          refine ⟨?_, s2, s3⟩
          by_contra hs
          have hs' : s < b := not_le.1 hs
          have hs1 : a < s := lt_of_le_of_ne s1 (by rintro rfl; exact hnota s3)
          exact hwant (hc1.2 ⟨s, hs1, hs', s3⟩)

theorem covers_getLast {g : List ℚ} {x0 x1 : ℚ} {k : Nat} {w : ℚ} (h : Covers g x0 x1 k w) (hne : g ≠ []) :
    g.getLast hne = x1 := by
  have h1 := h.last
  rw [List.getLast_eq_getElem]
  have hl := h.length
  have : g[g.length - 1]? = some x1 := by
    rw [hl]
    exact h1
  exact (List.getElem?_eq_some_iff.1 this).2

theorem covers_cell {g : List ℚ} {x0 x1 : ℚ} {k : Nat} {w : ℚ} (h : Covers g x0 x1 k w) (c : ℚ × ℚ)
    (hc : c ∈ cells g) : c.2 = c.1 + w := by
  obtain ⟨i, h1, h2⟩ := cells_getElem g c hc
  have hi : i + 1 ≤ k := by
    have := (List.getElem?_eq_some_iff.1 h2).1
    rw [h.length] at this
    omega
  rw [h.point i (by omega)] at h1
  rw [h.point (i + 1) hi] at h2
  have e1 := Option.some.inj h1
  have e2 := Option.some.inj h2
  rw [← e1, ← e2]
  push_cast
  ring

/-- The transits over a covering grid. -/
theorem solve_transits (mul : ℚ → ℚ → ℚ) (hm : SignMul mul) (lst ra theta : ℚ → ℚ) (n : ℚ → ℤ)
    (hth : ∀ t, lst t - ra t = theta t + 360 * n t) (ht : Turns theta) (lower : Bool) (brentq : ℚ → ℚ → Option ℚ)
    (hb : FindsIncreasing (transitFn (sourceHa lst ra) lower) brentq) (g : List ℚ) (x0 x1 : ℚ) (k : Nat) (w : ℚ)
    (hg : Covers g x0 x1 k w) (hw : ∀ x, theta (x + w) - theta x < 180)
    (hne : ∀ x ∈ g, ¬ IsTransit theta lower x) :
    ∃ rs, search mul (transitFn (sourceHa lst ra) lower) brentq false true g = .ok rs ∧
      (∀ t, t ∈ rs.map Prod.fst ↔ (x0 ≤ t ∧ t ≤ x1 ∧ IsTransit theta lower t)) ∧
      (rs.map Prod.fst).Pairwise (· < ·) := by
  have hf : transitFn (sourceHa lst ra) lower = fun t => wrap (theta t - if lower then 180 else 0) := by
    funext t
    exact transitFn_eq lst ra theta n hth lower t
  generalize hcs : (if lower then (180 : ℚ) else 0) = cst at hf
  have hiff : ∀ t, IsTransit theta lower t ↔ ∃ k : ℤ, theta t - cst = 360 * k := by
    intro t
    unfold IsTransit
    rw [hcs]
    constructor
    · rintro ⟨k, hk⟩; exact ⟨k, by linarith⟩
    · rintro ⟨k, hk⟩; exact ⟨k, by linarith⟩
  have hphi : Turns fun t => theta t - cst := by
    refine ⟨fun a b h => by have := ht.mono a b h; linarith, ?_⟩
    intro a b v hab h1 h2
    obtain ⟨t, t1, t2, t3⟩ := ht.between a b (v + cst) hab (by linarith) (by linarith)
    exact ⟨t, t1, t2, by linarith⟩
  cases g with
  | nil => exact absurd hg.length (by simp)
  | cons a rest =>
    have ha : a = x0 := by
      have := hg.point 0 (Nat.zero_le k)
      simpa using this
    rw [hf] at hb ⊢
    obtain ⟨rs, r1, r2, r3, _⟩ := search_transits mul hm (fun t => theta t - cst) hphi brentq hb rest a hg.increasing
      (fun x hx h => hne x hx ((hiff x).2 ((wrap_zero _).1 h)))
      (fun c hc => by
        rw [covers_cell hg c hc]
        have := hw c.1
        linarith)
    rw [covers_getLast hg] at r2
    refine ⟨rs, r1, ?_, r3⟩
    intro t
    rw [r2 t, ha, hiff t]

/-- C91. With the step left to the function: if the source turns by less than two turns a day, and no point of the
grid is itself a transit, the times returned are exactly the transits from `t0` to `t1`, each once and in order. -/
theorem C91_transits_partial (mul : ℚ → ℚ → ℚ) (hm : SignMul mul) (lst ra theta : ℚ → ℚ) (n : ℚ → ℤ)
    (hth : ∀ t, lst t - ra t = theta t + 360 * n t) (ht : Turns theta) (lower : Bool) (brentq : Brentq)
    (hb : FindsIncreasing (transitFn (sourceHa lst ra) lower) (brentq (transitFn (sourceHa lst ra) lower)))
    (hrate : ∀ x w, 0 < w → theta (x + w) - theta x < 720 * w)
    (day t0 : ℚ) (hday : 0 < day) (t1 : Option ℚ) (a b s : ℚ) (hfix : fixup day t0 t1 none = .ok (a, b, s))
    (g : List ℚ) (hg : grid a b s = .ok g) (hne : ∀ x ∈ g, ¬ IsTransit theta lower x) :
    ∃ ts, transitTimes mul brentq lst ra lower day t0 t1 none = .ok ts ∧
      (∀ t, t ∈ ts ↔ (a * 86400 ≤ t ∧ t ≤ b * 86400 ∧ IsTransit theta lower (t / 86400))) ∧
      ts.Pairwise (· < ·) := by
  obtain ⟨_, g', k, w, hg', _, hc, hw⟩ := C53_default_step day t0 hday t1 a b s hfix
  rw [hg] at hg'
  have hgg := Except.ok.inj hg'
  subst hgg
  obtain ⟨rs, r1, r2, r3⟩ := solve_transits mul hm lst ra theta n hth ht lower _ hb g a b k w hc
    (fun x => by have := hrate x w hc.pos; linarith) hne
  refine ⟨rs.map fun r => r.1 * 86400, ?_, ?_, ?_⟩
  · unfold transitTimes
    rw [hfix]
    simp only [solveAll, hg, r1]
  · intro t
    have : t ∈ (rs.map fun r => r.1 * 86400) ↔ t / 86400 ∈ rs.map Prod.fst := by
      simp only [List.mem_map]
      constructor
      · rintro ⟨r, h1, rfl⟩
        exact ⟨r, h1, by ring⟩
      · rintro ⟨r, h1, h2⟩
        exact ⟨r, h1, by rw [h2]; ring⟩
    rw [this, r2, le_div_iff₀ (by norm_num), div_le_iff₀ (by norm_num)]
  · have : (rs.map fun r => r.1 * 86400) = (rs.map Prod.fst).map (· * 86400) := by simp
    rw [this, List.pairwise_map]
    exact r3.imp (fun h => by linarith)

/-- C91. With a step of the caller: the same, if the source turns less than half a turn in twice the step. -/
theorem C91_step_partial (mul : ℚ → ℚ → ℚ) (hm : SignMul mul) (lst ra theta : ℚ → ℚ) (n : ℚ → ℤ)
    (hth : ∀ t, lst t - ra t = theta t + 360 * n t) (ht : Turns theta) (lower : Bool) (brentq : Brentq)
    (hb : FindsIncreasing (transitFn (sourceHa lst ra) lower) (brentq (transitFn (sourceHa lst ra) lower)))
    (day t0 t1 s : ℚ) (hs : 0 < s) (hs1 : s * 86400 < t1 - t0) (hrate : ∀ x, theta (x + 2 * s) - theta x < 180)
    (g : List ℚ) (hg : grid (t0 / 86400) (t1 / 86400) s = .ok g) (hne : ∀ x ∈ g, ¬ IsTransit theta lower x) :
    ∃ ts, transitTimes mul brentq lst ra lower day t0 (some t1) (some s) = .ok ts ∧
      (∀ t, t ∈ ts ↔ (t0 ≤ t ∧ t ≤ t1 ∧ IsTransit theta lower (t / 86400))) ∧ ts.Pairwise (· < ·) := by
  have hlt : s < t1 / 86400 - t0 / 86400 := by
    have e : t1 / 86400 - t0 / 86400 = (t1 - t0) / 86400 := by ring
    rw [e, lt_div_iff₀ (by norm_num)]
    exact hs1
  have hpos : 0 < s * 86400 := by positivity
  obtain ⟨g', k, w, hg', hk, hc, hw⟩ := C53_grid_partial (t0 / 86400) (t1 / 86400) s hs hlt
  rw [hg] at hg'
  have hgg := Except.ok.inj hg'
  subst hgg
  have hk1 : (1 : ℚ) ≤ k := by exact_mod_cast hk
  have hw2 : w ≤ 2 * s := by
    have : s / k ≤ s := div_le_self (le_of_lt hs) hk1
    linarith
  have hle : ∀ x y, x ≤ y → theta x ≤ theta y := by
    intro x y hxy
    rcases lt_or_eq_of_le hxy with h | h
    · exact le_of_lt (ht.mono x y h)
    · rw [h]
  obtain ⟨rs, r1, r2, r3⟩ := solve_transits mul hm lst ra theta n hth ht lower _ hb g _ _ k w hc
    (fun x => by
      have h1 := hrate x
      have h2 := hle (x + w) (x + 2 * s) (by linarith)
      linarith) hne
  refine ⟨rs.map fun r => r.1 * 86400, ?_, ?_, ?_⟩
  · unfold transitTimes
    rw [C53_given_step, if_pos ⟨by linarith, hs1⟩]
    simp only [solveAll, hg, r1]
  · intro t
    have : t ∈ (rs.map fun r => r.1 * 86400) ↔ t / 86400 ∈ rs.map Prod.fst := by
      simp only [List.mem_map]
      constructor
      · rintro ⟨r, h1, rfl⟩
        exact ⟨r, h1, by ring⟩
      · rintro ⟨r, h1, h2⟩
        exact ⟨r, h1, by rw [h2]; ring⟩
    rw [this, r2, div_le_div_iff_of_pos_right (by norm_num), div_le_div_iff_of_pos_right (by norm_num)]
  · have : (rs.map fun r => r.1 * 86400) = (rs.map Prod.fst).map (· * 86400) := by simp
    rw [this, List.pairwise_map]
    exact r3.imp (fun h => by linarith)

/-- A root finder for functions that are one straight line over the interval. -/
def secant : Brentq := fun f a b => if f a = f b then none else some (a - f a * (b - a) / (f b - f a))

/-- A star that turns once a day and is on the meridian at noon, watched for two days from midnight: two upper
transits. -/
example : transitTimes (· * ·) secant (fun t => 360 * t) (fun _ => 180) false 86164 0 (some 172800) none =
    .ok [43200, 129600] := by
  decide +kernel

/-- The lower transits of the same star, from an hour after midnight. -/
example : transitTimes (· * ·) secant (fun t => 360 * t) (fun _ => 180) true 86164 3600 (some 180000) none =
    .ok [86400, 172800] := by
  decide +kernel

/-- The star's angle satisfies the hypotheses of the theorems. -/
example : Turns (fun t => 360 * t - 180) ∧ ∀ x w : ℚ, 0 < w → (360 * (x + w) - 180) - (360 * x - 180) < 720 * w := by
  refine ⟨⟨fun a b h => by linarith, ?_⟩, fun x w h => by linarith⟩
  intro a b v _ h1 h2
  exact ⟨(v + 180) / 360, by linarith, by linarith, by ring⟩

/-- C91 fails for a step below the documented bound: the star has a transit every day (the spacing between the events
is 1) and the step is 0.6 days, yet of the transits at times 0 and 86400 only the second is returned. -/
theorem C91_step_violated :
    transitTimes (· * ·) secant (fun t => 360 * t) (fun _ => 0) false 86164 (-8640) (some 99360) (some (3 / 5)) =
      .ok [86400] ∧
    sourceHa (fun t => 360 * t) (fun _ => 0) 0 = 0 ∧ (-8640 : ℚ) < 0 ∧ (3 / 5 : ℚ) < 1 := by
  decide +kernel

/-- C91 fails when a transit is a point of the grid: it is returned twice. -/
theorem C91_twice_violated :
    transitTimes (· * ·) secant (fun t => 360 * t) (fun _ => 180) false 86164 21600 (some 64800) (some (1 / 6)) =
      .ok [43200, 43200] := by
  decide +kernel

/-- C91. The default interval is one turn of the stars, `day` seconds, not one day. -/
theorem C91_default_interval (mul : ℚ → ℚ → ℚ) (brentq : Brentq) (lst ra : ℚ → ℚ) (lower : Bool) (day t0 : ℚ)
    (hday : 0 < day) (step : Option ℚ) :
    transitTimes mul brentq lst ra lower day t0 none step =
      transitTimes mul brentq lst ra lower day t0 (some (t0 + day)) step := by
  unfold transitTimes fixup
  have : ¬ t0 + day ≤ t0 := by linarith
  simp only [this, if_false]

/-- C91. The moon comes back to the meridian only after more than a day: there are starting times for which the
default interval has no transit. -/
example : transitTimes (· * ·) secant (fun t => 348 * t) (fun _ => 0) false 86164 100 none none = .ok [] := by
  decide +kernel

/-- C91. The declinations are those at the times returned, one for each. -/
theorem C91_dec (mul : ℚ → ℚ → ℚ) (brentq : Brentq) (lst ra dec : ℚ → ℚ) (lower : Bool) (day t0 : ℚ)
    (t1 step : Option ℚ) :
    transitTimesDec mul brentq lst ra dec lower day t0 t1 step =
      (transitTimes mul brentq lst ra lower day t0 t1 step).map fun ts => (ts, ts.map dec) := by
  unfold transitTimesDec
  cases transitTimes mul brentq lst ra lower day t0 t1 step with
  | error e => rfl
  | ok ts => cases ts <;> simp [Except.map]

example : transitTimesDec (· * ·) secant (fun t => 360 * t) (fun _ => 180) (fun t => t / 1000) false 86164 0
    (some 172800) none = .ok ([43200, 129600], [216 / 5, 648 / 5]) := by
  decide +kernel

/-! ## Risings and settings -/

/-- Dropping the risings or settings from the search is the same as not reporting them. -/
theorem search_filter (mul : ℚ → ℚ → ℚ) (f : ℚ → ℚ) (brentq : ℚ → ℚ → Option ℚ) (i d : Bool) (g : List ℚ)
    (rs : List (ℚ × Bool)) (h : search mul f brentq false false g = .ok rs) :
    search mul f brentq i d g = .ok (rs.filter fun r => if r.2 then !i else !d) := by
  induction g generalizing rs with
  | nil => simp only [search, Except.ok.injEq] at h ⊢; subst h; rfl
  | cons a g ih =>
    cases g with
    | nil => simp only [search, Except.ok.injEq] at h ⊢; subst h; rfl
    | cons b rest =>
      rw [search] at h ⊢
      unfold visit at h ⊢
      by_cases hp : mul (f a) (f b) > 0
      · simp only [hp, if_true] at h ⊢
        exact ih rs h
      · simp only [hp, if_false, Bool.false_and, Bool.false_eq_true] at h ⊢
        cases hb : brentq a b with
        | none => rw [hb] at h; simp at h
        | some r =>
          rw [hb] at h
          simp only at h
          cases hs : search mul f brentq false false (b :: rest) with
          | error e => rw [hs] at h; simp at h
          | ok rs' =>
            rw [hs] at h
            simp only [Except.ok.injEq] at h
            subst h
            have hi := ih rs' hs
            by_cases hlt : f a < f b
            · cases i <;> simp [hlt, hi]
            · cases d <;> simp [hlt, hi]

theorem solveAll_filter (mul : ℚ → ℚ → ℚ) (f : ℚ → ℚ) (brentq : ℚ → ℚ → Option ℚ) (i d : Bool) (a b s : ℚ)
    (rs : List (ℚ × Bool)) (h : solveAll mul f brentq false false a b s = .ok rs) :
    solveAll mul f brentq i d a b s = .ok (rs.filter fun r => if r.2 then !i else !d) := by
  unfold solveAll at h ⊢
  cases hg : grid a b s with
  | error e => rw [hg] at h; simp at h
  | ok g =>
    rw [hg] at h
    exact search_filter mul f brentq i d g rs h

/-- C91. The risings are the entries of `rise_set_times` marked as risings, the settings are the others. -/
theorem C91_rise_set (mul : ℚ → ℚ → ℚ) (brentq : Brentq) (alt : ℚ → ℚ) (day t0 : ℚ) (t1 step : Option ℚ)
    (diameter : ℚ) (rs : List (ℚ × Bool)) (h : riseSetTimes mul brentq alt day t0 t1 step diameter = .ok rs) :
    riseTimes mul brentq alt day t0 t1 step diameter = .ok ((rs.filter fun r => r.2).map Prod.fst) ∧
    setTimes mul brentq alt day t0 t1 step diameter = .ok ((rs.filter fun r => !r.2).map Prod.fst) := by
  unfold riseSetTimes at h
  unfold riseTimes setTimes
  unfold srWork at h ⊢
  cases hf : fixup day t0 t1 step with
  | error e => rw [hf] at h; simp at h
  | ok v =>
    obtain ⟨a, b, s⟩ := v
    rw [hf] at h
    simp only at h ⊢
    cases hs : solveAll mul (horizonFn alt diameter) (brentq (horizonFn alt diameter)) false false a b s with
    | error e => rw [hs] at h; simp at h
    | ok rs' =>
      rw [hs] at h
      simp only [Except.ok.injEq] at h
      subst h
      rw [solveAll_filter _ _ _ false true _ _ _ _ hs, solveAll_filter _ _ _ true false _ _ _ _ hs]
      simp only [Except.ok.injEq]
      constructor
      · have : (fun r : ℚ × Bool => if r.2 = true then !false else !true) = fun r => r.2 := by
          funext r; cases r.2 <;> rfl
        rw [this, List.filter_map]
        simp [Function.comp_def]
      · have : (fun r : ℚ × Bool => if r.2 = true then !true else !false) = fun r => !r.2 := by
          funext r; cases r.2 <;> rfl
        rw [this, List.filter_map]
        simp [Function.comp_def]

/-- Directions alternate, beginning with `up`. -/
def Alternate : Bool → List Bool → Prop
  | _, [] => True
  | up, b :: bs => b = up ∧ Alternate (!up) bs

theorem search_alternate (mul : ℚ → ℚ → ℚ) (hm : SignMul mul) (f : ℚ → ℚ) (brentq : ℚ → ℚ → Option ℚ) (a : ℚ)
    (g : List ℚ) (hne : ∀ x ∈ a :: g, f x ≠ 0) (rs : List (ℚ × Bool))
    (h : search mul f brentq false false (a :: g) = .ok rs) :
    Alternate (decide (f a < 0)) (rs.map Prod.snd) := by
  induction g generalizing a rs with
  | nil => simp only [search, Except.ok.injEq] at h; subst h; trivial
  | cons b rest ih =>
    rw [search] at h
    unfold visit at h
    have hna := hne a (by simp)
    have hnb := hne b (by simp)
    have ih' := ih b (fun x hx => hne x (List.mem_cons_of_mem _ hx))
    by_cases hp : mul (f a) (f b) > 0
    · simp only [hp, if_true] at h
      have hpp := (hm _ _).1 hp
      have hsame : decide (f a < 0) = decide (f b < 0) := by
        rcases lt_or_gt_of_ne hna with h1 | h1 <;> rcases lt_or_gt_of_ne hnb with h2 | h2
        · simp [h1, h2]
        · exact absurd hpp (not_lt.2 (le_of_lt (mul_neg_of_neg_of_pos h1 h2)))
        · exact absurd hpp (not_lt.2 (le_of_lt (mul_neg_of_pos_of_neg h1 h2)))
        · simp [not_lt.2 (le_of_lt h1), not_lt.2 (le_of_lt h2)]
      rw [hsame]
      exact ih' rs h
    · simp only [hp, if_false, Bool.false_and, Bool.false_eq_true] at h
      cases hb : brentq a b with
      | none => rw [hb] at h; simp at h
      | some r =>
        rw [hb] at h
        simp only at h
        cases hs : search mul f brentq false false (b :: rest) with
        | error e => rw [hs] at h; simp at h
        | ok rs' =>
          rw [hs] at h
          simp only [Except.ok.injEq] at h
          subst h
          have hi := ih' rs' hs
          have hpp : ¬ f a * f b > 0 := fun hc => hp ((hm _ _).2 hc)
          rcases lt_or_gt_of_ne hna with h1 | h1 <;> rcases lt_or_gt_of_ne hnb with h2 | h2
          · exact absurd (mul_pos_of_neg_of_neg h1 h2) hpp
          · have : f a < f b := by linarith
            simpa [Alternate, h1, this, not_lt.2 (le_of_lt h2)] using hi
          · have : ¬ f a < f b := by linarith
            simpa [Alternate, not_lt.2 (le_of_lt h1), this, h2] using hi
          · exact absurd (mul_pos h1 h2) hpp

/-- C91. Risings and settings alternate, beginning with a rising when the source is below the horizon at the start:
if no point of the grid is itself a rising or setting. -/
theorem C91_alternate_partial (mul : ℚ → ℚ → ℚ) (hm : SignMul mul) (brentq : Brentq) (alt : ℚ → ℚ) (day t0 : ℚ)
    (t1 step : Option ℚ) (diameter a b s : ℚ) (hfix : fixup day t0 t1 step = .ok (a, b, s)) (x0 : ℚ) (g : List ℚ)
    (hg : grid a b s = .ok (x0 :: g)) (hne : ∀ x ∈ x0 :: g, alt x ≠ -(diameter / 2)) (rs : List (ℚ × Bool))
    (h : riseSetTimes mul brentq alt day t0 t1 step diameter = .ok rs) :
    Alternate (decide (alt x0 < -(diameter / 2))) (rs.map Prod.snd) := by
  unfold riseSetTimes srWork solveAll at h
  rw [hfix] at h
  simp only [hg] at h
  cases hs : search mul (horizonFn alt diameter) (brentq (horizonFn alt diameter)) false false (x0 :: g) with
  | error e => rw [hs] at h; simp at h
  | ok rs' =>
    rw [hs] at h
    simp only [Except.ok.injEq] at h
    subst h
    have := search_alternate mul hm _ _ x0 g (fun x hx hz => hne x hx (by unfold horizonFn at hz; linarith)) rs' hs
    have e : decide (horizonFn alt diameter x0 < 0) = decide (alt x0 < -(diameter / 2)) := by
      apply decide_eq_decide.2
      unfold horizonFn
      constructor <;> intro _ <;> linarith
    rw [e] at this
    simpa [Function.comp_def] using this

theorem forall₂_right {α β : Type} {R : α → β → Prop} {l : List α} {m : List β} (h : List.Forall₂ R l m) (y : β)
    (hy : y ∈ m) : ∃ x, R x y := by
  induction h with
  | nil => simp at hy
  | cons h1 _ ih =>
    rcases List.mem_cons.1 hy with rfl | h
    · exact ⟨_, h1⟩
    · exact ih h

/-- C91. At each time reported the centre of the source is half the diameter below the horizon. -/
theorem C91_altitude_partial (mul : ℚ → ℚ → ℚ) (hm : SignMul mul) (brentq : Brentq) (alt : ℚ → ℚ) (diameter : ℚ)
    (hb : IsBrentq (horizonFn alt diameter) (brentq (horizonFn alt diameter))) (day t0 : ℚ) (t1 step : Option ℚ)
    (a b s : ℚ) (hfix : fixup day t0 t1 step = .ok (a, b, s)) (g : List ℚ) (hg : grid a b s = .ok g)
    (hinc : Increasing g) (hne : ∀ x ∈ g, alt x ≠ -(diameter / 2)) :
    ∃ rs, riseSetTimes mul brentq alt day t0 t1 step diameter = .ok rs ∧
      ∀ r ∈ rs, alt (r.1 / 86400) = -(diameter / 2) := by
  obtain ⟨rs, r1, r2⟩ := C53_search_partial mul hm _ _ hb false false g hinc
    (fun x hx hz => hne x hx (by unfold horizonFn at hz; linarith))
  refine ⟨rs.map fun r => (r.1 * 86400, r.2), ?_, ?_⟩
  · unfold riseSetTimes srWork
    rw [hfix]
    simp only [solveAll, hg, r1]
  · intro r hr
    rw [List.mem_map] at hr
    obtain ⟨q, hq, rfl⟩ := hr
    obtain ⟨c, hc⟩ := forall₂_right r2 q hq
    have := hc.2.2.1
    unfold horizonFn at this
    have e : q.1 * 86400 / 86400 = q.1 := by ring
    simp only [e]
    linarith

/-- A source whose altitude goes up and down in straight lines. -/
def zigzag (t : ℚ) : ℚ := if t < 1 / 2 then 40 * t - 10 else 30 - 40 * t

/-- It rises at 6 and sets at 18 o'clock; the upper edge of a source of 4 degrees rises earlier. -/
example : riseSetTimes (· * ·) secant zigzag 86164 0 (some 86400) (some (1 / 4)) 0 =
      .ok [(21600, true), (64800, false)] ∧
    riseTimes (· * ·) secant zigzag 86164 0 (some 86400) (some (1 / 4)) 4 = .ok [17280] := by
  decide +kernel

/-- C91 fails for a step below the documented bound: the source rises at 6 and sets at 18 o'clock, and the step is
0.4 days, yet neither is reported in the interval from 4:48 to 19:12. -/
theorem C91_rise_missed_violated :
    riseSetTimes (· * ·) secant zigzag 86164 17280 (some 69120) (some (2 / 5)) 0 = .ok [] ∧
    zigzag (21600 / 86400) = 0 ∧ zigzag (64800 / 86400) = 0 ∧ (17280 : ℚ) < 21600 ∧ (64800 : ℚ) < 69120 ∧
    (2 / 5 : ℚ) < (64800 - 21600) / 86400 := by
  decide +kernel

/-! ## The place of the observer -/

/-- C91. As long as the attributes are not changed after the first question, positions are for the place of the
observer. -/
theorem C91_place_partial (p : Place) (moves : List Place) (n : Nat) :
    ∀ q ∈ (Obs.new p).run (moves.map ObsOp.move ++ List.replicate n .ask), q.1 = q.2 := by
  have h1 : ∀ (n : Nat) (o : Obs), (o.cached = none ∨ o.cached = some o.place) →
      ∀ q ∈ o.run (List.replicate n .ask), q.1 = q.2 := by
    intro n
    induction n with
    | zero => intro o _ q hq; simp [Obs.run] at hq
    | succ n ih =>
      intro o ho q hq
      rw [List.replicate_succ, Obs.run, List.mem_cons] at hq
      rcases hq with rfl | hq
      · unfold Obs.location
        rcases ho with h | h <;> simp [h]
      · refine ih _ ?_ q hq
        unfold Obs.location
        rcases ho with h | h <;> simp [h]
  have h2 : ∀ (moves : List Place) (o : Obs), o.cached = none →
      ∀ q ∈ o.run (moves.map ObsOp.move ++ List.replicate n .ask), q.1 = q.2 := by
    intro moves
    induction moves with
    | nil => intro o ho; exact h1 n o (Or.inl ho)
    | cons m rest ih => intro o ho; exact ih { o with place := m } ho
  exact h2 moves _ rfl

/-- C91 fails for an observer that is moved after the first question: all later positions are for the place it had at
the first question, wherever it is by then. -/
theorem C91_place_violated (o : Obs) (p : Place) (h : o.cached = some p) (ops : List ObsOp) :
    ∀ q ∈ o.run ops, q.1 = p := by
  induction ops generalizing o with
  | nil => intro q hq; simp [Obs.run] at hq
  | cons op rest ih =>
    cases op with
    | move r => exact ih { o with place := r } h
    | ask =>
      intro q hq
      rw [Obs.run, List.mem_cons] at hq
      rcases hq with rfl | hq
      · simp [Obs.location, h]
      · refine ih _ ?_ q hq
        simp [Obs.location, h]

/-- From Penticton to Cambridge: the second question is still answered for Penticton. -/
example : (Obs.new ⟨-120, 49, 555⟩).run [.ask, .move ⟨0, 52, 20⟩, .ask] =
    [(⟨-120, 49, 555⟩, ⟨-120, 49, 555⟩), (⟨-120, 49, 555⟩, ⟨0, 52, 20⟩)] := by
  decide +kernel

/-- The direction at azimuth `az` (from north through east) and elevation `el`, seen from latitude `lat`, in the frame
whose first axis is the meridian at the equator of the sky and whose third axis is the pole. -/
noncomputable def skyDirection (lat az el : ℝ) : ℝ × ℝ × ℝ :=
  (Real.sin el * Real.cos lat - Real.cos el * Real.sin lat * Real.cos az, -(Real.cos el * Real.sin az),
    Real.sin el * Real.sin lat + Real.cos el * Real.cos lat * Real.cos az)

/-- C91. observer.py:310-317: the direction used for the transiting right ascension, due south at 90 degrees minus the
latitude, is on the meridian and on the equator of the sky, at every latitude. -/
theorem C91_equator (lat : ℝ) : skyDirection lat Real.pi (Real.pi / 2 - lat) = (1, 0, 0) := by
  unfold skyDirection
  rw [Real.sin_pi_div_two_sub, Real.cos_pi_div_two_sub, Real.cos_pi, Real.sin_pi]
  refine Prod.ext ?_ (Prod.ext ?_ ?_)
  · have := Real.sin_sq_add_cos_sq lat
    simp only
    nlinarith
  · simp
  · simp only
    ring

/-- From the north pole it is the point on the horizon. -/
example : skyDirection (Real.pi / 2) Real.pi 0 = (1, 0, 0) := by
  have := C91_equator (Real.pi / 2)
  simpa using this

end Verif.Roots
