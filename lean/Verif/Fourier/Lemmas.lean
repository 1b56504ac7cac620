import Verif.Fourier.Spec
import Mathlib.Algebra.BigOperators.Pi
import Mathlib.Algebra.Field.GeomSum
import Mathlib.Tactic.Ring
import Mathlib.Tactic.Linarith
import Mathlib.Tactic.FieldSimp
import Mathlib.Tactic.LinearCombination
import Mathlib.Tactic.Positivity

/-!
# Sums of roots of unity
-/
namespace Verif.Fourier

open Complex

theorem cis_add (x y : ℝ) : cis (x + y) = cis x * cis y := by
  unfold cis
  rw [← exp_add]
  congr 1
  push_cast
  ring

theorem cis_zero : cis 0 = 1 := by
  unfold cis
  simp

theorem cis_int (n : ℤ) : cis n = 1 := by
  unfold cis
  rw [exp_eq_one_iff]
  refine ⟨n, ?_⟩
  push_cast
  ring

theorem cis_nat_mul (n : Nat) (x : ℝ) : cis (n * x) = cis x ^ n := by
  unfold cis
  rw [← exp_nat_mul]
  congr 1
  push_cast
  ring

theorem cis_one_iff (x : ℝ) : cis x = 1 ↔ ∃ n : ℤ, x = n := by
  constructor
  · intro h
    unfold cis at h
    obtain ⟨n, hn⟩ := (exp_eq_one_iff).1 h
    refine ⟨n, ?_⟩
    have h2 : (2 * (Real.pi : ℂ) * I) ≠ 0 := two_pi_I_ne_zero
    have : (x : ℂ) = n := by
      apply mul_right_cancel₀ h2
      linear_combination hn
    exact_mod_cast this
  · rintro ⟨n, rfl⟩
    exact cis_int n

theorem cis_sum {ι : Type} (s : Finset ι) (f : ι → ℝ) : cis (∑ i ∈ s, f i) = ∏ i ∈ s, cis (f i) := by
  classical
  induction s using Finset.induction_on with
  | empty => simp [cis_zero]
  | insert a s ha ih => rw [Finset.sum_insert ha, Finset.prod_insert ha, cis_add, ih]

/-- The sum of a root of unity over a period. -/
theorem period_sum (n : Nat) (hn : 0 < n) (m : ℤ) : ∑ k ∈ Finset.range n, cis ((k : ℝ) * m / n) = if (n : ℤ) ∣ m then (n : ℂ) else 0 := by
  have hn' : (n : ℝ) ≠ 0 := by exact_mod_cast hn.ne'
  have hpow : ∀ k : Nat, cis ((k : ℝ) * m / n) = cis ((m : ℝ) / n) ^ k := by
    intro k
    rw [← cis_nat_mul]
    congr 1
    ring
  simp only [hpow]
  by_cases h : (n : ℤ) ∣ m
  · obtain ⟨c, rfl⟩ := h
    have h1 : cis ((((n : ℤ) * c : ℤ) : ℝ) / n) = 1 := by
      rw [cis_one_iff]
      refine ⟨c, ?_⟩
      push_cast
      field_simp
    rw [h1, if_pos (Dvd.intro c rfl)]
    simp
  · rw [if_neg h]
    have h1 : cis ((m : ℝ) / n) ≠ 1 := by
      intro h1
      obtain ⟨c, hc⟩ := (cis_one_iff _).1 h1
      apply h
      refine ⟨c, ?_⟩
      have : (m : ℝ) = n * c := by
        rw [div_eq_iff hn'] at hc
        linarith
      exact_mod_cast this
    have h2 : cis ((m : ℝ) / n) ^ n = 1 := by
      rw [← cis_nat_mul, mul_div_cancel₀ _ hn']
      exact cis_int m
    rw [geom_sum_eq h1, h2, sub_self, zero_div]

variable {d : Nat}

theorem mem_box (n : Fin d → Nat) (S : Finset (Fin d)) (k m : Fin d → Nat) : m ∈ box n S k ↔ (∀ a ∈ S, m a < n a) ∧ ∀ a, a ∉ S → m a = k a := by
  unfold box
  rw [Fintype.mem_piFinset]
  constructor
  · intro h
    constructor
    · intro a ha
      have := h a
      rw [if_pos ha, Finset.mem_range] at this
      exact this
    · intro a ha
      have := h a
      rw [if_neg ha, Finset.mem_singleton] at this
      exact this
  · rintro ⟨h1, h2⟩ a
    by_cases ha : a ∈ S
    · rw [if_pos ha, Finset.mem_range]
      exact h1 a ha
    · rw [if_neg ha, Finset.mem_singleton]
      exact h2 a ha

theorem box_eq (n : Fin d → Nat) (S : Finset (Fin d)) (k m : Fin d → Nat) (h : m ∈ box n S k) : box n S m = box n S k := by
  ext j
  rw [mem_box, mem_box]
  have h2 := ((mem_box n S k m).1 h).2
  constructor
  · rintro ⟨h3, h4⟩
    exact ⟨h3, fun a ha => by rw [h4 a ha, h2 a ha]⟩
  · rintro ⟨h3, h4⟩
    exact ⟨h3, fun a ha => by rw [h4 a ha, h2 a ha]⟩

/-- A sum over one more axis. -/
theorem box_insert (n : Fin d → Nat) (S : Finset (Fin d)) (a : Fin d) (ha : a ∉ S) (k : Fin d → Nat) (f : (Fin d → Nat) → ℂ) :
    ∑ m ∈ box n (insert a S) k, f m = ∑ t ∈ Finset.range (n a), ∑ m ∈ box n S (Function.update k a t), f m := by
  classical
  have hU : box n (insert a S) k = (Finset.range (n a)).biUnion fun t => box n S (Function.update k a t) := by
    ext m
    rw [Finset.mem_biUnion, mem_box]
    constructor
    · rintro ⟨h1, h2⟩
      refine ⟨m a, Finset.mem_range.2 (h1 a (Finset.mem_insert_self _ _)), ?_⟩
      rw [mem_box]
      refine ⟨fun b hb => h1 b (Finset.mem_insert_of_mem hb), ?_⟩
      intro b hb
      by_cases hba : b = a
      · subst hba
        rw [Function.update_self]
      · rw [Function.update_of_ne hba]
        apply h2
        rw [Finset.mem_insert]
        tauto
    · rintro ⟨t, ht, h⟩
      rw [mem_box] at h
      obtain ⟨h1, h2⟩ := h
      constructor
      · intro b hb
        rcases Finset.mem_insert.1 hb with rfl | hb
        · have := h2 b ha
          rw [Function.update_self] at this
          rw [this]
          exact Finset.mem_range.1 ht
        · exact h1 b hb
      · intro b hb
        rw [Finset.mem_insert] at hb
        push Not at hb
        have := h2 b hb.2
        rw [Function.update_of_ne hb.1] at this
        exact this
  rw [hU, Finset.sum_biUnion]
  intro t _ t' _ htt
  rw [Function.onFun, Finset.disjoint_left]
  intro m hm hm'
  rw [mem_box] at hm hm'
  have h1 := hm.2 a ha
  have h2 := hm'.2 a ha
  rw [Function.update_self] at h1 h2
  exact htt (h1.symm.trans h2)

/-- One axis after the other is all at once. -/
theorem alongAxes_eq (s : ℝ) (n : Fin d → Nat) (axes : List (Fin d)) (hnd : axes.Nodup) (x : (Fin d → Nat) → ℂ) (k : Fin d → Nat) :
    alongAxes s n axes x k = ∑ m ∈ box n axes.toFinset k, x m * cis (s * ∑ a ∈ axes.toFinset, (k a : ℝ) * m a / n a) := by
  induction axes generalizing k with
  | nil =>
    have : box n ∅ k = {k} := by
      ext m
      rw [mem_box, Finset.mem_singleton]
      constructor
      · rintro ⟨-, h⟩
        funext a
        exact h a (Finset.notMem_empty a)
      · rintro rfl
        exact ⟨fun a ha => absurd ha (Finset.notMem_empty a), fun _ _ => rfl⟩
    simp [alongAxes, this, cis_zero]
  | cons a l ih =>
    obtain ⟨hal, hl⟩ := List.nodup_cons.1 hnd
    have hal' : a ∉ l.toFinset := by
      rw [List.mem_toFinset]
      exact hal
    rw [List.toFinset_cons, box_insert n _ a hal']
    change alongAxis s n a (alongAxes s n l x) k = _
    unfold alongAxis
    apply Finset.sum_congr rfl
    intro t _
    rw [ih hl, Finset.sum_mul]
    apply Finset.sum_congr rfl
    intro m hm
    have hma := ((mem_box _ _ _ _).1 hm).2 a hal'
    rw [Function.update_self] at hma
    rw [Finset.sum_insert hal', mul_assoc, ← cis_add, hma]
    congr 2
    rw [mul_add, add_comm]
    congr 2
    apply Finset.sum_congr rfl
    intro b hb
    have : b ≠ a := by
      rintro rfl
      exact hal' hb
    rw [Function.update_of_ne this]

/-- Products of sums over periods. -/
theorem kernel (n : Fin d → Nat) (S : Finset (Fin d)) (k : Fin d → Nat) (c : Fin d → ℤ) (hn : ∀ a ∈ S, 0 < n a) :
    ∑ j ∈ box n S k, cis (∑ a ∈ S, (j a : ℝ) * c a / n a) = if ∀ a ∈ S, (n a : ℤ) ∣ c a then ((∏ a ∈ S, n a : ℕ) : ℂ) else 0 := by
  have h1 : ∀ j : Fin d → Nat, cis (∑ a ∈ S, (j a : ℝ) * c a / n a) = ∏ a, (if a ∈ S then cis ((j a : ℝ) * c a / n a) else 1) := by
    intro j
    rw [cis_sum, Finset.prod_ite_mem, Finset.univ_inter]
  simp only [h1]
  unfold box
  rw [← Finset.prod_univ_sum (fun a => if a ∈ S then Finset.range (n a) else {k a}) (fun a t => if a ∈ S then cis ((t : ℝ) * c a / n a) else 1)]
  have h2 : ∀ a, (∑ t ∈ (if a ∈ S then Finset.range (n a) else {k a}), if a ∈ S then cis ((t : ℝ) * c a / n a) else 1) =
      if a ∈ S then (if (n a : ℤ) ∣ c a then (n a : ℂ) else 0) else 1 := by
    intro a
    by_cases ha : a ∈ S
    · simp only [if_pos ha]
      exact period_sum (n a) (hn a ha) (c a)
    · simp only [if_neg ha]
      rw [Finset.sum_singleton]
  simp only [h2]
  rw [Finset.prod_ite_mem, Finset.univ_inter]
  by_cases h : ∀ a ∈ S, (n a : ℤ) ∣ c a
  · rw [if_pos h]
    push_cast
    apply Finset.prod_congr rfl
    intro a ha
    rw [if_pos (h a ha)]
  · rw [if_neg h]
    push Not at h
    obtain ⟨a, ha, hd⟩ := h
    exact Finset.prod_eq_zero ha (if_neg hd)

theorem terms_eq (n : Fin d → Nat) (axes : List (Fin d)) (hnd : axes.Nodup) : terms n axes = ∏ a ∈ axes.toFinset, n a := by
  unfold terms
  rw [List.prod_toFinset _ hnd]

theorem back_mem (n : Fin d → Nat) (S : Finset (Fin d)) (k m : Fin d → Nat) (hn : ∀ a ∈ S, 0 < n a) : back n S k m ∈ box n S k := by
  rw [mem_box]
  unfold back
  constructor
  · intro a ha
    rw [if_pos ha]
    have h0 := hn a ha
    have h1 := Int.emod_lt_of_pos ((k a : Int) - m a) (by omega : (0 : Int) < n a)
    have h2 := Int.emod_nonneg ((k a : Int) - m a) (by omega : (n a : Int) ≠ 0)
    omega
  · intro a ha
    rw [if_neg ha]

/-- The only index that adds up. -/
theorem back_unique (n : Fin d → Nat) (S : Finset (Fin d)) (k m j : Fin d → Nat) (hj : j ∈ box n S k) (hn : ∀ a ∈ S, 0 < n a) :
    (∀ a ∈ S, (n a : ℤ) ∣ (k a : ℤ) - m a - j a) ↔ j = back n S k m := by
  obtain ⟨h1, h2⟩ := (mem_box n S k j).1 hj
  constructor
  · intro h
    funext a
    by_cases ha : a ∈ S
    · unfold back
      rw [if_pos ha]
      have h3 := h a ha
      have h4 := h1 a ha
      have h5 : ((k a : ℤ) - m a) % n a = (j a : ℤ) := by
        have h6 : ((k a : ℤ) - m a) % n a = (j a : ℤ) % n a := Int.emod_eq_emod_iff_emod_sub_eq_zero.2 (Int.emod_eq_zero_of_dvd h3)
        rw [h6, Int.emod_eq_of_lt (by omega) (by omega)]
      rw [h5]
      simp
    · rw [h2 a ha]
      unfold back
      rw [if_neg ha]
  · rintro rfl a ha
    unfold back
    rw [if_pos ha]
    have h0 := hn a ha
    have h2 := Int.emod_nonneg ((k a : Int) - m a) (by omega : (n a : Int) ≠ 0)
    rw [Int.toNat_of_nonneg h2]
    exact Int.dvd_self_sub_emod

end Verif.Fourier
