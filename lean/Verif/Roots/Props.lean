import Verif.Roots.Model
import Verif.Invert.Lemmas
import Mathlib.Data.List.Forall2
import Mathlib.Tactic.Linarith
import Mathlib.Tactic.FieldSimp
import Mathlib.Tactic.NormNum

/-! # C53: the root search of the observer -/
namespace Verif.Roots

/-! ## Specification -/

/-- `g` is an evenly spaced grid from `x0` to `x1` with `k` cells of width `h`. -/
structure Covers (g : List ℚ) (x0 x1 : ℚ) (k : Nat) (h : ℚ) : Prop where
  length : g.length = k + 1
  pos : 0 < h
  point : ∀ i ≤ k, g[i]? = some (x0 + i * h)
  last : g[k]? = some x1

/-- The sign of `f` changes strictly between `a` and `b`. -/
def Changes (f : ℚ → ℚ) (a b : ℚ) : Prop := (f a < 0 ∧ 0 < f b) ∨ (0 < f a ∧ f b < 0)

/-- The neighbouring pairs of a list. -/
def cells : List ℚ → List (ℚ × ℚ)
  | a :: b :: rest => (a, b) :: cells (b :: rest)
  | _ => []

/-- What is documented of `brentq`: for values of opposite sign at the ends (or zero at one of them) it returns a
root between them. -/
def IsBrentq (f : ℚ → ℚ) (brentq : ℚ → ℚ → Option ℚ) : Prop :=
  ∀ a b, a < b → f a * f b ≤ 0 → ∃ r, brentq a b = some r ∧ a ≤ r ∧ r ≤ b ∧ f r = 0

/-- The product is positive when it should be. -/
def SignMul (mul : ℚ → ℚ → ℚ) : Prop := ∀ a b, mul a b > 0 ↔ a * b > 0

/-- The reported root belongs to the cell and has the direction of the sign change there. -/
def Reports (f : ℚ → ℚ) (c : ℚ × ℚ) (r : ℚ × Bool) : Prop :=
  c.1 < r.1 ∧ r.1 < c.2 ∧ f r.1 = 0 ∧ (r.2 = true ↔ f c.1 < 0)

/-! ## The grid -/

theorem linspace_getElem (x0 x1 : ℚ) (n i : Nat) (h : i < n) :
    (linspace x0 x1 n)[i]? = some (if n = 1 then x0 else x0 + i * ((x1 - x0) / (n - 1 : Nat))) := by
  simp [linspace, h]

theorem linspace_covers (x0 x1 : ℚ) (hx : x0 < x1) (k : Nat) (hk : 0 < k) :
    Covers (linspace x0 x1 (k + 1)) x0 x1 k ((x1 - x0) / k) := by
  have hk' : (0 : ℚ) < k := by exact_mod_cast hk
  have hne : k + 1 ≠ 1 := by omega
  have hp : ∀ i ≤ k, (linspace x0 x1 (k + 1))[i]? = some (x0 + i * ((x1 - x0) / k)) := by
    intro i hi
    rw [linspace_getElem x0 x1 (k + 1) i (by omega), if_neg hne]
    simp
  refine ⟨by simp [linspace], div_pos (by linarith) hk', hp, ?_⟩
  rw [hp k (Nat.le_refl k)]
  congr 1
  field_simp
  ring

theorem gridCount_bounds (x0 x1 dx : ℚ) (hd : 0 < dx) (h : dx < x1 - x0) :
    ∃ k : Nat, 0 < k ∧ gridCount x0 x1 dx = k + 1 ∧ (k : ℚ) * dx < x1 - x0 ∧ x1 - x0 ≤ (k + 1) * dx := by
  have h1 : (1 : ℚ) < (x1 - x0) / dx := by rw [lt_div_iff₀ hd]; linarith
  have h2 : 1 < gridCount x0 x1 dx := by
    unfold gridCount
    rw [Int.lt_ceil]
    exact_mod_cast h1
  refine ⟨(gridCount x0 x1 dx - 1).toNat, by omega, by omega, ?_, ?_⟩
  · have hlt := Int.ceil_lt_add_one ((x1 - x0) / dx)
    have e : (((gridCount x0 x1 dx - 1).toNat : ℕ) : ℚ) = (gridCount x0 x1 dx : ℚ) - 1 := by
      have : (((gridCount x0 x1 dx - 1).toNat : ℕ) : ℤ) = gridCount x0 x1 dx - 1 := by omega
      have := congrArg (Int.cast : ℤ → ℚ) this
      push_cast at this
      exact this
    rw [e, ← lt_div_iff₀ hd]
    unfold gridCount
    linarith
  · have hle := Int.le_ceil ((x1 - x0) / dx)
    have e : (((gridCount x0 x1 dx - 1).toNat : ℕ) : ℚ) = (gridCount x0 x1 dx : ℚ) - 1 := by
      have : (((gridCount x0 x1 dx - 1).toNat : ℕ) : ℤ) = gridCount x0 x1 dx - 1 := by omega
      have := congrArg (Int.cast : ℤ → ℚ) this
      push_cast at this
      exact this
    rw [e, ← div_le_iff₀ hd]
    unfold gridCount
    linarith

theorem grid_eq (x0 x1 dx : ℚ) (hd : 0 < dx) (k : Nat) (h : gridCount x0 x1 dx = k + 1) :
    grid x0 x1 dx = .ok (linspace x0 x1 (k + 1)) := by
  unfold grid
  rw [if_neg (ne_of_gt hd), if_neg (by omega), h]
  rfl

/-- C53. For a step shorter than the interval the grid covers the interval, from one end to the other, with evenly
spaced points that are less than twice the step apart. -/
theorem C53_grid_partial (x0 x1 dx : ℚ) (hd : 0 < dx) (h : dx < x1 - x0) :
    ∃ g k w, grid x0 x1 dx = .ok g ∧ 0 < k ∧ Covers g x0 x1 k w ∧ w ≤ dx + dx / k := by
  obtain ⟨k, hk, hc, _, hle⟩ := gridCount_bounds x0 x1 dx hd h
  have hk' : (0 : ℚ) < k := by exact_mod_cast hk
  refine ⟨_, k, _, grid_eq x0 x1 dx hd k hc, hk, linspace_covers x0 x1 (by linarith) k hk, ?_⟩
  rw [div_le_iff₀ hk']
  have : (dx + dx / k) * k = (k + 1) * dx := by field_simp
  linarith

/-- C53 fails for every step shorter than the interval: the points are more than `dx` apart. -/
theorem C53_spacing_violated (x0 x1 dx : ℚ) (hd : 0 < dx) (h : dx < x1 - x0) (g : List ℚ) (k : Nat) (w : ℚ)
    (hg : grid x0 x1 dx = .ok g) (hc : Covers g x0 x1 k w) : dx < w := by
  obtain ⟨k', hk', hcnt, hlt, _⟩ := gridCount_bounds x0 x1 dx hd h
  rw [grid_eq x0 x1 dx hd k' hcnt] at hg
  have hgl : g = linspace x0 x1 (k' + 1) := (Except.ok.inj hg).symm
  have hkk : k = k' := by
    have := hc.length
    rw [hgl] at this
    simp [linspace] at this
    omega
  subst hkk
  have h1 := hc.point k (Nat.le_refl k)
  rw [hc.last] at h1
  have h2 : x1 = x0 + k * w := Option.some.inj h1
  have hkp : (0 : ℚ) < k := by exact_mod_cast hk'
  by_contra hle
  have : (k : ℚ) * w ≤ k * dx := mul_le_mul_of_nonneg_left (not_lt.1 hle) (le_of_lt hkp)
  linarith

/-- C53 fails for a step as long as the interval or longer: the grid is the single point `x0`, so no root is found.
The callers refuse such steps, except for the difference between UNIX time and dynamical time. -/
theorem C53_long_step_violated (mul : ℚ → ℚ → ℚ) (f : ℚ → ℚ) (brentq : ℚ → ℚ → Option ℚ) (i d : Bool)
    (x0 x1 dx : ℚ) (hx : x0 < x1) (h : x1 - x0 ≤ dx) :
    grid x0 x1 dx = .ok [x0] ∧ solveAll mul f brentq i d x0 x1 dx = .ok [] := by
  have hd : 0 < dx := by linarith
  have hc : gridCount x0 x1 dx = 1 := by
    unfold gridCount
    rw [Int.ceil_eq_iff]
    constructor
    · push_cast
      have : 0 < (x1 - x0) / dx := div_pos (by linarith) hd
      linarith
    · push_cast
      rw [div_le_one hd]
      exact h
  have hg : grid x0 x1 dx = .ok [x0] := by
    unfold grid
    rw [if_neg (ne_of_gt hd), hc]
    rfl
  refine ⟨hg, ?_⟩
  unfold solveAll
  rw [hg]
  rfl

/-- C53. Without a step the interval is cut into at least four cells, and at least one every quarter of a day. -/
theorem C53_default_step (day t0 : ℚ) (hday : 0 < day) (t1 : Option ℚ) (a b s : ℚ)
    (h : fixup day t0 t1 none = .ok (a, b, s)) :
    a < b ∧ ∃ g k w, grid a b s = .ok g ∧ 4 ≤ k ∧ Covers g a b k w ∧ w ≤ 1 / 4 := by
  have main : ∀ t, t0 < t → (t0 / 86400, t / 86400, if t - t0 ≥ 86400 then 1 / 5 else (t - t0) / (5 * 86400)) =
      (a, b, s) → a < b ∧ ∃ g k w, grid a b s = .ok g ∧ 4 ≤ k ∧ Covers g a b k w ∧ w ≤ 1 / 4 := by
    intro t ht he
    simp only [Prod.mk.injEq] at he
    obtain ⟨rfl, rfl, rfl⟩ := he
    have hlt : t0 / 86400 < t / 86400 := by linarith
    refine ⟨hlt, ?_⟩
    have hs : 0 < (if t - t0 ≥ 86400 then (1 : ℚ) / 5 else (t - t0) / (5 * 86400)) := by
      split
      · norm_num
      · apply div_pos (by linarith) (by norm_num)
    have hs5 : 5 * (if t - t0 ≥ 86400 then (1 : ℚ) / 5 else (t - t0) / (5 * 86400)) ≤ t / 86400 - t0 / 86400 := by
      split
      · linarith
      · linarith
    have hs1 : (if t - t0 ≥ 86400 then (1 : ℚ) / 5 else (t - t0) / (5 * 86400)) ≤ 1 / 5 := by
      split
      · exact le_refl _
      · linarith
    generalize (if t - t0 ≥ 86400 then (1 : ℚ) / 5 else (t - t0) / (5 * 86400)) = s at *
    obtain ⟨k, hk, hc, h1, h2⟩ := gridCount_bounds (t0 / 86400) (t / 86400) s hs (by linarith)
    have hk4 : 4 ≤ k := by
      by_contra hlt4
      have : (k : ℚ) ≤ 3 := by exact_mod_cast (by omega : k ≤ 3)
      have : ((k : ℚ) + 1) * s ≤ 4 * s := mul_le_mul_of_nonneg_right (by linarith) (le_of_lt hs)
      linarith
    have hk' : (4 : ℚ) ≤ k := by exact_mod_cast hk4
    refine ⟨_, k, _, grid_eq _ _ _ hs k hc, hk4, linspace_covers _ _ hlt k (by omega), ?_⟩
    rw [div_le_iff₀ (by linarith)]
    have : ((k : ℚ) + 1) * s ≤ ((k : ℚ) + 1) * (1 / 5) := mul_le_mul_of_nonneg_left hs1 (by linarith)
    linarith
  unfold fixup at h
  cases t1 with
  | none =>
    simp only [Except.ok.injEq] at h
    exact main _ (by linarith) h
  | some t =>
    by_cases ht : t ≤ t0
    · simp [ht] at h
    · simp only [ht, if_false, Except.ok.injEq] at h
      exact main t (not_le.1 ht) h

/-- C53. Intervals that end before they begin, and steps as long as the interval, are refused; other steps are used
as they are. -/
theorem C53_given_step (day t0 t1 s : ℚ) :
    fixup day t0 (some t1) (some s) =
      if t0 < t1 ∧ s * 86400 < t1 - t0 then .ok (t0 / 86400, t1 / 86400, s) else .error .valueError := by
  unfold fixup
  by_cases h : t1 ≤ t0
  · rw [if_neg (fun hc => absurd hc.1 (not_lt.2 h))]
    simp [h]
  · simp only [h, if_false]
    have e : s * 24 * 3600 = s * 86400 := by ring
    by_cases h2 : s * 86400 < t1 - t0
    · have h3 : ¬ s * 24 * 3600 ≥ t1 - t0 := by rw [e]; exact not_le.2 h2
      rw [if_neg h3, if_pos ⟨not_le.1 h, h2⟩]
    · have h3 : s * 24 * 3600 ≥ t1 - t0 := by rw [e]; exact not_lt.1 h2
      rw [if_pos h3, if_neg (fun hc => h2 hc.2)]

/-! ## The search -/

/-- Strictly increasing, in neighbouring points. -/
def Increasing (g : List ℚ) : Prop := ∀ c ∈ cells g, c.1 < c.2

/-- The cells in which a root is to be reported. -/
def wanted (f : ℚ → ℚ) (skipInc skipDec : Bool) (c : ℚ × ℚ) : Bool :=
  (decide (f c.1 < 0) && decide (0 < f c.2) && !skipInc) || (decide (0 < f c.1) && decide (f c.2 < 0) && !skipDec)

theorem visit_spec (mul : ℚ → ℚ → ℚ) (hm : SignMul mul) (f : ℚ → ℚ) (brentq : ℚ → ℚ → Option ℚ)
    (hb : IsBrentq f brentq) (i d : Bool) (a b : ℚ) (hab : a < b) (ha : f a ≠ 0) (hfb : f b ≠ 0) :
    if wanted f i d (a, b) = true then ∃ r, visit mul f brentq i d a b = .ok (some r) ∧ Reports f (a, b) r
    else visit mul f brentq i d a b = .ok none := by
  have hbr : f a * f b < 0 → ∃ r, brentq a b = some r ∧ a < r ∧ r < b ∧ f r = 0 := by
    intro h
    obtain ⟨r, h1, h2, h3, h4⟩ := hb a b hab (le_of_lt h)
    refine ⟨r, h1, ?_, ?_, h4⟩
    · rcases lt_or_eq_of_le h2 with h | h
      · exact h
      · rw [← h] at h4; exact absurd h4 ha
    · rcases lt_or_eq_of_le h3 with h | h
      · exact h
      · rw [h] at h4; exact absurd h4 hfb
  rcases lt_or_gt_of_ne ha with ha' | ha' <;> rcases lt_or_gt_of_ne hfb with hb' | hb'
  · have hp : mul (f a) (f b) > 0 := (hm _ _).2 (mul_pos_of_neg_of_neg ha' hb')
    rw [if_neg (by simp [wanted, not_lt.2 (le_of_lt ha'), not_lt.2 (le_of_lt hb')])]
    simp [visit, hp]
  · have hneg : f a * f b < 0 := mul_neg_of_neg_of_pos ha' hb'
    have hp : ¬ mul (f a) (f b) > 0 := fun h => absurd ((hm _ _).1 h) (not_lt.2 (le_of_lt hneg))
    have hlt : f a < f b := lt_trans ha' hb'
    obtain ⟨r, h1, h2, h3, h4⟩ := hbr hneg
    cases i with
    | true =>
      rw [if_neg (by simp [wanted, not_lt.2 (le_of_lt ha')])]
      simp only [visit, if_neg hp, hlt]
      simp
    | false =>
      rw [if_pos (by simp [wanted, ha', hb'])]
      refine ⟨(r, true), ?_, h2, h3, h4, by simp [ha']⟩
      simp only [visit, if_neg hp, hlt, h1]
      simp
  · have hneg : f a * f b < 0 := mul_neg_of_pos_of_neg ha' hb'
    have hp : ¬ mul (f a) (f b) > 0 := fun h => absurd ((hm _ _).1 h) (not_lt.2 (le_of_lt hneg))
    have hlt : ¬ f a < f b := not_lt.2 (le_of_lt (lt_trans hb' ha'))
    obtain ⟨r, h1, h2, h3, h4⟩ := hbr hneg
    cases d with
    | true =>
      rw [if_neg (by simp [wanted, not_lt.2 (le_of_lt ha')])]
      simp only [visit, if_neg hp, hlt]
      simp
    | false =>
      rw [if_pos (by simp [wanted, ha', hb'])]
      refine ⟨(r, false), ?_, h2, h3, h4, by simp [not_lt.2 (le_of_lt ha')]⟩
      simp only [visit, if_neg hp, hlt, h1]
      simp
  · have hp : mul (f a) (f b) > 0 := (hm _ _).2 (mul_pos ha' hb')
    rw [if_neg (by simp [wanted, not_lt.2 (le_of_lt ha'), not_lt.2 (le_of_lt hb')])]
    simp [visit, hp]

/-- C53. If the function is not exactly zero at a point of the grid (and products do not underflow), the roots
reported are one for each cell over which the sign changes, in order: inside the cell, a zero of the function, and
with the direction of the change. With `skip_increasing` or `skip_decreasing` only the cells of the other
direction count. -/
theorem C53_search_partial (mul : ℚ → ℚ → ℚ) (hm : SignMul mul) (f : ℚ → ℚ) (brentq : ℚ → ℚ → Option ℚ)
    (hb : IsBrentq f brentq) (i d : Bool) (g : List ℚ) (hinc : Increasing g) (hne : ∀ x ∈ g, f x ≠ 0) :
    ∃ rs, search mul f brentq i d g = .ok rs ∧ List.Forall₂ (Reports f) ((cells g).filter (wanted f i d)) rs := by
  induction g with
  | nil => exact ⟨[], rfl, by simp [cells]⟩
  | cons a g ih =>
    cases g with
    | nil => exact ⟨[], rfl, by simp [cells]⟩
    | cons b rest =>
      have hv := visit_spec mul hm f brentq hb i d a b (hinc (a, b) (by simp [cells])) (hne a (by simp))
        (hne b (by simp))
      obtain ⟨rs, h1, h2⟩ := ih (fun c hc => hinc c (by simp [cells, hc])) (fun x hx => hne x (by simp [hx]))
      by_cases hw : wanted f i d (a, b) = true
      · rw [if_pos hw] at hv
        obtain ⟨r, hr1, hr2⟩ := hv
        refine ⟨r :: rs, ?_, ?_⟩
        · simp only [search, hr1, h1]
        · simp only [cells, List.filter_cons, hw, if_true]
          exact List.Forall₂.cons hr2 h2
      · rw [if_neg hw] at hv
        refine ⟨rs, ?_, ?_⟩
        · simp only [search, hv, h1]
        · simp only [cells, List.filter_cons, if_neg hw]
          exact h2

theorem wanted_iff (f : ℚ → ℚ) (c : ℚ × ℚ) : wanted f false false c = true ↔ Changes f c.1 c.2 := by
  simp [wanted, Changes]

theorem cells_getElem (g : List ℚ) (c : ℚ × ℚ) (h : c ∈ cells g) :
    ∃ i : Nat, g[i]? = some c.1 ∧ g[i + 1]? = some c.2 := by
  induction g with
  | nil => simp [cells] at h
  | cons a g ih =>
    cases g with
    | nil => simp [cells] at h
    | cons b rest =>
      simp only [cells, List.mem_cons] at h
      rcases h with rfl | h
      · exact ⟨0, by simp, by simp⟩
      · obtain ⟨i, h1, h2⟩ := ih h
        exact ⟨i + 1, by simpa using h1, by simpa using h2⟩

theorem Covers.increasing {g : List ℚ} {x0 x1 : ℚ} {k : Nat} {w : ℚ} (h : Covers g x0 x1 k w) : Increasing g := by
  intro c hc
  obtain ⟨i, h1, h2⟩ := cells_getElem g c hc
  have hi : i + 1 ≤ k := by
    have := (List.getElem?_eq_some_iff.1 h2).1
    rw [h.length] at this
    omega
  rw [h.point i (by omega)] at h1
  rw [h.point (i + 1) hi] at h2
  have e1 := Option.some.inj h1
  have e2 := Option.some.inj h2
  rw [← e1, ← e2]
  push_cast
  have := h.pos
  linarith

/-- C53. The whole function: over a grid that covers the interval, each sign change between neighbouring grid points
is reported once. -/
theorem C53_solve_partial (mul : ℚ → ℚ → ℚ) (hm : SignMul mul) (f : ℚ → ℚ) (brentq : ℚ → ℚ → Option ℚ)
    (hb : IsBrentq f brentq) (x0 x1 dx : ℚ) (hd : 0 < dx) (h : dx < x1 - x0) :
    ∃ g k w, Covers g x0 x1 k w ∧ w ≤ dx + dx / k ∧ ((∀ x ∈ g, f x ≠ 0) →
      ∃ rs, solveAll mul f brentq false false x0 x1 dx = .ok rs ∧
        List.Forall₂ (Reports f) ((cells g).filter (wanted f false false)) rs) := by
  obtain ⟨g, k, w, hg, hk, hc, hw⟩ := C53_grid_partial x0 x1 dx hd h
  refine ⟨g, k, w, hc, hw, ?_⟩
  intro hne
  unfold solveAll
  rw [hg]
  exact C53_search_partial mul hm f brentq hb false false g hc.increasing hne

/-- C53 fails when a grid point between the ends is an exact root: it is reported twice. -/
theorem C53_twice_violated (mul : ℚ → ℚ → ℚ) (hm : SignMul mul) (f : ℚ → ℚ) (brentq : ℚ → ℚ → Option ℚ)
    (hb : IsBrentq f brentq) (a b c : ℚ) (hab : a < b) (hbc : b < c) (h0 : f b = 0)
    (hu : ∀ x, a ≤ x → x ≤ c → f x = 0 → x = b) (hda : f a < 0) (hdc : 0 < f c) :
    search mul f brentq false false [a, b, c] = .ok [(b, true), (b, true)] := by
  have hp1 : ¬ mul (f a) (f b) > 0 := fun h => by have := (hm _ _).1 h; rw [h0] at this; simp at this
  have hp2 : ¬ mul (f b) (f c) > 0 := fun h => by have := (hm _ _).1 h; rw [h0] at this; simp at this
  obtain ⟨r1, e1, l1, u1, z1⟩ := hb a b hab (by rw [h0]; simp)
  obtain ⟨r2, e2, l2, u2, z2⟩ := hb b c hbc (by rw [h0]; simp)
  have hr1 : r1 = b := hu r1 l1 (by linarith) z1
  have hr2 : r2 = b := hu r2 (by linarith) u2 z2
  rw [hr1] at e1
  rw [hr2] at e2
  have ht1 : decide (f a < f b) = true := by rw [h0]; simpa using hda
  have ht2 : decide (f b < f c) = true := by rw [h0]; simpa using hdc
  simp only [search, visit, if_neg hp1, if_neg hp2, e1, e2, ht1, ht2, Bool.false_and, Bool.false_eq_true, if_false]

/-- The function `(x - 1/4) (x - 7/4)`, with two roots that are 3/2 apart. -/
def parabola (x : ℚ) : ℚ := (x - 1 / 4) * (x - 7 / 4)

/-- C53 fails: with `dx = 1`, less than the distance of the roots, on the interval from 0 to 2, the grid has only
two points, and none of the two roots is found. -/
theorem C53_missed_violated (mul : ℚ → ℚ → ℚ) (hm : SignMul mul) (brentq : ℚ → ℚ → Option ℚ) :
    solveAll mul parabola brentq false false 0 2 1 = .ok [] ∧ parabola (1 / 4) = 0 ∧ parabola (7 / 4) = 0 ∧
      (1 : ℚ) < 7 / 4 - 1 / 4 := by
  refine ⟨?_, by norm_num [parabola], by norm_num [parabola], by norm_num⟩
  have hc : gridCount 0 2 1 = (1 : Nat) + 1 := by
    unfold gridCount
    norm_num
  have hp : mul (parabola 0) (parabola 2) > 0 := (hm _ _).2 (by norm_num [parabola])
  unfold solveAll
  rw [grid_eq 0 2 1 (by norm_num) 1 hc]
  have hl : linspace 0 2 (1 + 1) = [0, 2] := by decide +kernel
  rw [hl]
  simp [search, visit, hp]

/-- The product of two numbers in double precision (without overflow). -/
def mulDouble (a b : ℚ) : ℚ := Verif.Invert.dbl.round (a * b)

/-- C53 fails for tiny values of the same sign: their product underflows to 0, so `brentq` is called, which raises
a `ValueError`. `brentq` is any function that refuses values of the same sign. -/
theorem C53_underflow_violated (brentq : ℚ → ℚ → Option ℚ)
    (hb : ∀ a b, (2 : ℚ) ^ (-600 : ℤ) * 2 ^ (-600 : ℤ) > 0 → brentq a b = none) :
    search mulDouble (fun _ => 2 ^ (-600 : ℤ)) brentq false false [0, 1] = .error .valueError := by
  have hu : mulDouble (2 ^ (-600 : ℤ)) (2 ^ (-600 : ℤ)) = 0 := by
    unfold mulDouble
    decide +kernel
  have hbn : brentq 0 1 = none := hb 0 1 (mul_pos (zpow_pos (by norm_num) _) (zpow_pos (by norm_num) _))
  simp only [search, visit, hu, gt_iff_lt, lt_irrefl, if_false, Bool.false_and, Bool.false_eq_true, hbn]

/-- A line through 1/2 on a grid of three cells: one root, increasing. -/
example : search (· * ·) (fun x => x - 1 / 2) (fun _ _ => some (1 / 2)) false false
    [0, 1 / 3, 2 / 3, 1] = .ok [(1 / 2, true)] := by
  decide +kernel

end Verif.Roots
