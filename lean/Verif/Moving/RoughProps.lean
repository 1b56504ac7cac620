import Verif.Moving.WholeProps
import Verif.Median.RoughProps
import Mathlib.Data.List.Permutation

/-!
# C17 and C18 with the additions of the machine, for all weights, where no sum is nearly half
-/
namespace Verif.Moving
open Verif.Median

/-- A window for which rounding does not matter: the weights are doubles that are not negative, and in whichever order the items are sorted, no sum of the first weights
comes nearer to half of all than one part in 2^45 of all. -/
def ClearBag (b : List Item) : Prop :=
  Doubles b ∧ b.length < 2 ^ 40 ∧ (b ≠ [] → 0 < wt b) ∧ ∀ s, s.Perm b → s.Pairwise Item.le → Clear s

/-- The item at which the sum of the weights crosses half of all. -/
def CrossMedian (b : List Item) (m : Rat) : Prop :=
  ∃ pre x post, (pre ++ x :: post).Perm b ∧ (pre ++ x :: post).Pairwise Item.le ∧ m = x.v ∧ wt pre < wt b / 2 ∧ wt b / 2 < wt pre + x.w

theorem wt_perm {a b : List Item} (h : a.Perm b) : wt a = wt b := (h.map _).sum_eq

theorem clearBag_perm {a b : List Item} (h : a.Perm b) (hb : ClearBag b) : ClearBag a := by
  obtain ⟨h1, h2, h3, h4⟩ := hb
  refine ⟨fun x hx => h1 x (h.mem_iff.1 hx), by rw [h.length_eq]; exact h2, fun hne => ?_, fun s p => h4 s (p.trans h)⟩
  rw [wt_perm h]
  exact h3 fun e => hne (by rw [e] at h; exact List.Perm.eq_nil h)

theorem crossMedian_perm {a b : List Item} (h : a.Perm b) {m : Rat} (hm : CrossMedian a m) : CrossMedian b m := by
  obtain ⟨pre, x, post, h1, h2, h3, h4, h5⟩ := hm
  rw [wt_perm h] at h4 h5
  exact ⟨pre, x, post, h1.trans h, h2, h3, h4, h5⟩

theorem bag_clear {t : MTree} {b : List Item} (h : Inv addDouble t b) (hp : ClearBag b) (hne : b ≠ []) {method : Char}
    (hm : method = 's' ∨ method = 'l' ∨ method = 'h') : ∃ m, median addDouble t method = .ok (.val m) ∧ CrossMedian b m := by
  obtain ⟨h1, h2, h3, h4⟩ := clearBag_perm h.perm hp
  have hne' : items t.root ≠ [] := fun e => hne (by
    have := h.perm; rw [e] at this; exact List.Perm.nil_eq this |>.symm)
  obtain ⟨pre, x, post, e, l1, l2, l3⟩ := clear_median h.good h1 h2 (h3 hne') (h4 _ (List.Perm.refl _) h.sorted)
  refine ⟨x.v, by simp [median, l3 method hm], crossMedian_perm h.perm ⟨pre, x, post, by rw [e], by rw [← e]; exact h.sorted, rfl, l1, l2⟩⟩

theorem rule_median_clear {method : Char} (hm : method = 's' ∨ method = 'l' ∨ method = 'h') :
    Rule (fun t => median addDouble t method) addDouble ClearBag
      (fun b o => (b = [] → o = .val 0) ∧ (b ≠ [] → ∃ m, o = .val m ∧ CrossMedian b m)) := by
  refine ⟨fun t b hp h => ?_⟩
  by_cases hb : b = []
  · subst hb
    exact ⟨_, median_empty h method, fun _ => rfl, fun c => absurd rfl c⟩
  · obtain ⟨m, e, hm⟩ := bag_clear h hp hb hm
    exact ⟨_, e, fun c => absurd c hb, fun _ => ⟨m, rfl, hm⟩⟩

theorem rule_output_clear {method : Char} (hm : method = 's' ∨ method = 'l' ∨ method = 'h') :
    Rule (fun t => output addDouble t method) addDouble ClearBag
      (fun b o => (b = [] → o = .nan) ∧ (b ≠ [] → ∃ m, o = .val m ∧ CrossMedian b m)) := by
  refine ⟨fun t b hp h => ?_⟩
  have hs := h.size
  unfold output
  by_cases hb : b = []
  · subst hb
    simp only [List.length_nil] at hs
    exact ⟨.nan, by simp [hs, pure, Except.pure], by simp⟩
  · have : t.size ≠ 0 := by rw [hs]; simpa using hb
    obtain ⟨m, e, hm⟩ := bag_clear h hp hb hm
    exact ⟨.val m, by rw [if_pos this]; exact e, fun c => absurd c hb, fun _ => ⟨m, rfl, hm⟩⟩

/-- **C17** on the machine, for any weights that are doubles and not negative, all three methods: where in no window a sum of the first weights is nearly half of the
weight of the window, that is, nearer than one part in 2^45, nothing crashes, and each output is the item of its window at which the weights cross half, or NaN if the
window has no weight. The window moves any number of times: errors of rounding do not add up.

Missing: the first output, where its window has no weight (`C17_first_nan_violated`); windows with a sum that is nearly half (`C17_rounding_crash_violated`). -/
theorem C17_clear_partial (data : List Item) (hn : data ≠ []) (r : Nat) (hw : ∀ i, ClearBag (window data r i)) (size : Size)
    (hsize : size = .tuple [2 * r + 1] ∨ (1 ≤ r ∧ size = .int (2 * r + 1))) (method : Char) (hm : method = 's' ∨ method = 'l' ∨ method = 'h') :
    ∃ outs, moving1 addDouble data size method = .ok outs ∧ outs.length = data.length ∧
      (∀ i, i < data.length → window data r i ≠ [] → ∃ m, outs[i]? = some (.val m) ∧ CrossMedian (window data r i) m) ∧
      ∀ i, 1 ≤ i → i < data.length → window data r i = [] → outs[i]? = some .nan := by
  have e : moving1 addDouble data size method = mwm1D addDouble data (2 * r + 1) method := by
    rcases hsize with rfl | ⟨hr, rfl⟩
    · simp [moving1, size1, bind, Except.bind, pure, Except.pure]
    · have h1 : ¬ (Size.int (2 * (r : Int) + 1) = Size.int 0) := by simp; omega
      have h2 : ¬ (Size.int (2 * (r : Int) + 1) = Size.int 1) := by simp; omega
      simp only [moving1, if_neg h1, if_neg h2, size1, bind, Except.bind, pure, Except.pure]
      rw [if_neg (by omega)]
  obtain ⟨outs, h1, h2, ⟨o, h3, h4⟩, h5⟩ := mwm1D_ok (r := r) hn (rule_median_clear hm) (rule_output_clear hm)
    (fun i => by rw [← window_idx]; exact hw i)
  simp only [← window_idx] at h4 h5
  refine ⟨outs, e.trans h1, h2, fun i hi hne => ?_, fun i hi hi' hb => ?_⟩
  · rcases Nat.eq_zero_or_pos i with rfl | hp
    · obtain ⟨m, rfl, hm⟩ := h4.2 hne
      exact ⟨m, h3, hm⟩
    · obtain ⟨o', a, b⟩ := h5 i hp hi
      obtain ⟨m, rfl, hm⟩ := b.2 hne
      exact ⟨m, a, hm⟩
  · obtain ⟨o', a, b⟩ := h5 i hi hi'
    rw [a, b.1 hb]

/-- To try a small window. -/
theorem clearBag_of (b : List Item) (h1 : Doubles b) (h2 : b.length < 2 ^ 40) (h3 : b ≠ [] → 0 < wt b)
    (h : ∀ s ∈ b.permutations', ∀ n ∈ List.range (s.length + 1), wt b / 2 ^ 45 ≤ |wt (s.take n) - wt b / 2|) : ClearBag b := by
  refine ⟨h1, h2, h3, fun s hp _ pre post e => ?_⟩
  have h4 := h s (List.mem_permutations'.2 hp) pre.length (by rw [e]; simp; omega)
  have h5 : s.take pre.length = pre := by rw [e]; simp
  rw [h5] at h4
  rw [wt_perm hp]
  exact h4

/-- Three samples with the weights 0.1, 0.4 and 0.1, and windows of three samples. -/
def three : List Item := [⟨1, d01⟩, ⟨2, d04⟩, ⟨3, d01⟩]

theorem three_clear (i : Nat) : ClearBag (window three 1 i) := by
  have hd : Doubles (window three 1 i) := fun x hx => tenths_doubles x ((window_sublist three 1 i).subset hx)
  have hl : (window three 1 i).length < 2 ^ 40 := by
    have := (window_sublist three 1 i).length_le
    have h3 : three.length = 3 := rfl
    omega
  by_cases hi : i < 4
  · refine clearBag_of _ hd hl ?_ ?_
    · clear hd hl; interval_cases i <;> decide +kernel
    · clear hd hl; interval_cases i <;> decide +kernel
  · have e : window three 1 i = [] := by
      have h3 : three.length = 3 := rfl
      unfold window
      rw [h3]
      have : (List.range 3).filter (fun j => decide (i ≤ j + 1 ∧ j ≤ i + 1)) = [] := by
        rw [List.filter_eq_nil_iff]
        intro j hj
        simp only [List.mem_range] at hj
        simp only [decide_eq_true_eq]
        omega
      rw [this]; rfl
    rw [e]
    exact clearBag_of _ (fun x hx => by simp at hx) (by decide) (by simp) (by decide +kernel)

example : three ≠ [] ∧ (∀ i, ClearBag (window three 1 i)) ∧ moving1 addDouble three (.int 3) 'l' = .ok [.val 2, .val 2, .val 2] :=
  ⟨by decide +kernel, three_clear, by decide +kernel⟩

/-- **C18** on the machine in the same way: all three methods, every odd pair of sizes. Missing: NaN for windows without weight (`C18_nan_violated`); windows with a sum
that is nearly half (`C18_rounding_crash_violated`). -/
theorem C18_clear_partial (g : Grid Item) (hy : g.ny ≠ 0) (hx : g.nx ≠ 0) (ry rx : Nat) (hw : ∀ i j, ClearBag (window2 g ry rx i j)) (method : Char)
    (hm : method = 's' ∨ method = 'l' ∨ method = 'h') :
    ∃ out, moving2 addDouble g (2 * ry + 1) (2 * rx + 1) method = .ok out ∧ out.ny = g.ny ∧ out.nx = g.nx ∧
      ∀ i j, i < g.ny → j < g.nx → ∃ o, out.get i j = some o ∧ (window2 g ry rx i j = [] → o = .val 0) ∧
        (window2 g ry rx i j ≠ [] → ∃ m, o = .val m ∧ CrossMedian (window2 g ry rx i j) m) := by
  unfold moving2
  rw [if_neg (by omega)]
  by_cases hc : 2 * ry + 1 < 2 * rx + 1
  · rw [if_pos hc]
    obtain ⟨out, h1, h2, h3, h4⟩ := mwm2D_ok (g := g.T) (ry := rx) (rx := ry) hx (rule_median_clear hm)
      (fun i j => clearBag_perm (window2_T g ry rx j i) (hw j i))
    refine ⟨out.T, by rw [h1]; rfl, h3, h2, fun i j hi hj => ?_⟩
    obtain ⟨o, a, b, c⟩ := h4 j i hj hi
    have hp := window2_T g ry rx i j
    refine ⟨o, a, fun he => b ?_, fun hne => ?_⟩
    · rw [he] at hp; exact List.Perm.eq_nil hp
    · obtain ⟨m, e, hs⟩ := c fun he => hne (by
        rw [he] at hp; exact (List.Perm.nil_eq hp).symm)
      exact ⟨m, e, crossMedian_perm hp hs⟩
  · rw [if_neg hc]
    exact mwm2D_ok hy (rule_median_clear hm) hw

/-- The same samples as a row. -/
def row3 : Grid Item := ⟨1, 3, fun _ j => three.getD j ⟨0, 0⟩⟩

theorem row3_window (i j : Nat) : window2 row3 0 1 i j = if i = 0 then window three 1 j else [] := by
  have h3 : three.length = 3 := rfl
  split
  · subst_vars
    have h4 : ∀ l : List Nat, (∀ x ∈ l, x < 3) → l.map (row3.get 0) = l.filterMap fun j => three[j]? := by
      intro l hl
      induction l with
      | nil => rfl
      | cons x l ih =>
        have hx := hl x (by simp)
        rw [List.map_cons, ih fun y hy => hl y (by simp [hy]), List.filterMap_cons_some (b := row3.get 0 x)]
        simp only [row3, List.getD_eq_getElem?_getD]
        rw [List.getElem?_eq_getElem (by omega)]
        rfl
    have e : (List.range 1).filter (fun y => decide (0 ≤ y + 0 ∧ y ≤ 0 + 0)) = [0] := by decide
    simp only [window2, window, h3]
    rw [show row3.ny = 1 from rfl, e, show row3.nx = 3 from rfl, List.flatMap_singleton]
    congr 1
    refine h4 _ fun x hx => ?_
    simp only [List.mem_filter, List.mem_range] at hx
    exact hx.1
  · have e : (List.range 1).filter (fun y => decide (i ≤ y + 0 ∧ y ≤ i + 0)) = [] := by
      rw [List.filter_eq_nil_iff]
      intro y hy
      simp only [List.mem_range] at hy
      simp only [decide_eq_true_eq]
      omega
    simp only [window2]
    rw [show row3.ny = 1 from rfl, e]
    rfl

example : row3.ny ≠ 0 ∧ row3.nx ≠ 0 ∧ (∀ i j, ClearBag (window2 row3 0 1 i j)) ∧
    vals (moving2 addDouble row3 1 3 'h') = [[some (.val 2), some (.val 2), some (.val 2)]] := by
  refine ⟨by decide, by decide, fun i j => ?_, by decide +kernel⟩
  rw [row3_window]
  split
  · exact three_clear j
  · have h := three_clear 7
    have e : window three 1 7 = [] := by decide +kernel
    rwa [e] at h

end Verif.Moving
