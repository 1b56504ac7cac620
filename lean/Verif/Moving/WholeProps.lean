import Verif.Moving.Props
import Verif.Median.WholeProps

/-!
# C17 and C18 with the additions of the machine, for weights whose sums are exact
-/
namespace Verif.Moving
open Verif.Median

/-- The mean of two numbers as the machine computes it. -/
def machineMean (a b : Rat) : Rat := addDouble a b / 2

theorem plain_perm {k : ℤ} {a b : List Item} (h : a.Perm b) (hp : Plain k b) : Plain k a :=
  ⟨fun x hx => hp.1 x (h.mem_iff.mp hx), by rw [show wt a = wt b from (h.map _).sum_eq]; exact hp.2⟩

theorem bag_plain {t : MTree} {b : List Item} {k : ℤ} (hk : -1074 ≤ k) (h : Inv addDouble t b) (hp : Plain k b) (hne : b ≠ []) :
    ∃ m, median addDouble t 's' = .ok (.val m) ∧ BagMedianWith machineMean b m := by
  have hne' : items t.root ≠ [] := fun e => hne (by
    have := h.perm; rw [e] at this; exact List.Perm.nil_eq this |>.symm)
  obtain ⟨m, e, hm⟩ := split_plain hk h.good (plain_perm h.perm hp) hne'
  exact ⟨m, by simp [median, e], items t.root, h.perm, h.sorted, hm⟩

theorem rule_median_plain {k : ℤ} (hk : -1074 ≤ k) :
    Rule (fun t => median addDouble t 's') addDouble (fun b => Plain k b)
      (fun b o => (b = [] → o = .val 0) ∧ (b ≠ [] → ∃ m, o = .val m ∧ BagMedianWith machineMean b m)) := by
  refine ⟨fun t b hp h => ?_⟩
  by_cases hb : b = []
  · subst hb
    exact ⟨_, median_empty h 's', fun _ => rfl, fun c => absurd rfl c⟩
  · obtain ⟨m, e, hm⟩ := bag_plain hk h hp hb
    exact ⟨_, e, fun c => absurd c hb, fun _ => ⟨m, rfl, hm⟩⟩

theorem rule_output_plain {k : ℤ} (hk : -1074 ≤ k) :
    Rule (fun t => output addDouble t 's') addDouble (fun b => Plain k b) (GoodWith machineMean) := by
  refine ⟨fun t b hp h => ?_⟩
  have hs := h.size
  unfold output GoodWith
  by_cases hb : b = []
  · subst hb
    simp only [List.length_nil] at hs
    exact ⟨.nan, by simp [hs, pure, Except.pure], by simp⟩
  · have : t.size ≠ 0 := by rw [hs]; simpa using hb
    obtain ⟨m, e, hm⟩ := bag_plain hk h hp hb
    exact ⟨.val m, by rw [if_pos this]; exact e, by rw [if_neg hb]; exact ⟨m, rfl, hm⟩⟩

/-- **C17** on the machine, with doubles, method `split`. Where the weights other than zero in each window are whole numbers, or whole
multiples of some power of two, and add up to less than 2^51 of them, nothing is rounded and nothing crashes: each output is the
weighted median of its window, with the mean of two neighbours as the machine computes it. Missing: the first output, where its window
has no weight (`C17_first_nan_violated`); other weights (`C17_rounding_crash_violated`). -/
theorem C17_whole_partial (data : List Item) (hn : data ≠ []) (r : Nat) (k : ℤ) (hk : -1074 ≤ k)
    (hw : ∀ i, Plain k (window data r i)) (size : Size)
    (hsize : size = .tuple [2 * r + 1] ∨ (1 ≤ r ∧ size = .int (2 * r + 1))) :
    ∃ outs, moving1 addDouble data size 's' = .ok outs ∧ outs.length = data.length ∧
      (∀ i, 1 ≤ i → i < data.length → ∃ o, outs[i]? = some o ∧ GoodWith machineMean (window data r i) o) ∧
      (window data r 0 ≠ [] → ∃ o, outs[0]? = some o ∧ GoodWith machineMean (window data r 0) o) := by
  have e : moving1 addDouble data size 's' = mwm1D addDouble data (2 * r + 1) 's' := by
    rcases hsize with rfl | ⟨hr, rfl⟩
    · simp [moving1, size1, bind, Except.bind, pure, Except.pure]
    · have h1 : ¬ (Size.int (2 * (r : Int) + 1) = Size.int 0) := by simp; omega
      have h2 : ¬ (Size.int (2 * (r : Int) + 1) = Size.int 1) := by simp; omega
      simp only [moving1, if_neg h1, if_neg h2, size1, bind, Except.bind, pure, Except.pure]
      rw [if_neg (by omega)]
  obtain ⟨outs, h1, h2, ⟨o, h3, h4⟩, h5⟩ := mwm1D_ok (r := r) hn (rule_median_plain hk) (rule_output_plain hk)
    (fun i => by rw [← window_idx]; exact hw i)
  refine ⟨outs, e.trans h1, h2, ?_, ?_⟩
  · intro i hi hi'
    obtain ⟨o', a, b⟩ := h5 i hi hi'
    exact ⟨o', a, by rw [window_idx]; exact b⟩
  · intro hne
    refine ⟨o, h3, ?_⟩
    rw [GoodWith, if_neg hne]
    rw [window_idx] at hne ⊢
    exact h4.2 hne

/-- Weights of whole numbers: all windows of all sizes are of this kind, as soon as all the weights together are. -/
theorem wt_sublist {a b : List Item} (h : a.Sublist b) (hp : ∀ x ∈ b, 0 ≤ x.w) : wt a ≤ wt b := by
  induction h with
  | slnil => exact le_refl _
  | cons x _ ih =>
    have := ih fun y hy => hp y (by simp [hy])
    have := hp x (by simp)
    simp only [wt, List.map_cons, List.sum_cons] at *
    linarith
  | cons_cons x _ ih =>
    have := ih fun y hy => hp y (by simp [hy])
    simp only [wt, List.map_cons, List.sum_cons] at *
    linarith

theorem window_sublist (data : List Item) (r i : Nat) : (window data r i).Sublist data := by
  unfold window
  refine List.filter_sublist.trans ?_
  have h1 : ((List.range data.length).filter fun j => decide (i ≤ j + r ∧ j ≤ i + r)).Sublist (List.range data.length) := List.filter_sublist
  have h2 := h1.filterMap fun j => data[j]?
  have h3 : (List.range data.length).filterMap (fun j => data[j]?) = data := by
    have : ∀ m, m ≤ data.length → (List.range m).filterMap (fun j => data[j]?) = data.take m := by
      intro m hm
      induction m with
      | zero => simp
      | succ m ih =>
        rw [List.range_succ, List.filterMap_append, ih (by omega), List.take_succ_eq_append_getElem (by omega)]
        simp [List.getElem?_eq_getElem (show m < data.length by omega)]
    rw [this _ (le_refl _), List.take_length]
  rw [h3] at h2
  exact h2

/-- **C17** for whole numbers as weights, also zero, with a sum below 2^51, on the machine: windows of every size. -/
theorem C17_counts_partial (data : List Item) (hn : data ≠ []) (hw : ∀ x ∈ data, ∃ n : ℕ, x.w = n) (hs : (data.map (·.w)).sum < 2 ^ 51)
    (r : Nat) (hr : 1 ≤ r) :
    ∃ outs, moving1 addDouble data (.int (2 * r + 1)) 's' = .ok outs ∧ outs.length = data.length ∧
      ∀ i, i < data.length → (1 ≤ i ∨ window data r i ≠ []) →
        ∃ o, outs[i]? = some o ∧ GoodWith machineMean (window data r i) o := by
  have hnn : ∀ x ∈ data, 0 ≤ x.w := by
    intro x hx
    obtain ⟨n, hn⟩ := hw x hx
    rw [hn]
    positivity
  have hP : ∀ i, Plain 0 (window data r i) := by
    refine fun i => ⟨fun x hx => ?_, ?_⟩
    · have hm := (window_sublist data r i).subset hx
      obtain ⟨n, hn⟩ := hw x hm
      simp only [window, List.mem_filter, decide_eq_true_eq] at hx
      exact ⟨lt_of_le_of_ne (hnn x hm) (Ne.symm hx.2), n, by rw [hn]; norm_num⟩
    · have := wt_sublist (window_sublist data r i) hnn
      simp only [zpow_zero, mul_one]
      exact lt_of_le_of_lt this hs
  obtain ⟨outs, h1, h2, h3, h4⟩ := C17_whole_partial data hn r 0 (by norm_num) hP _ (.inr ⟨hr, rfl⟩)
  refine ⟨outs, h1, h2, fun i hi h => ?_⟩
  rcases Nat.eq_zero_or_pos i with rfl | hp
  · exact h4 (h.resolve_left (by omega))
  · exact h3 i hp hi

/-- Five samples, one of them without weight, on the machine. -/
example : moving1 addDouble [⟨3, 1⟩, ⟨1, 2⟩, ⟨2, 0⟩, ⟨5, 1⟩, ⟨4, 1⟩] (.int 3) 's' =
    .ok [.val 1, .val 1, .val 1, .val (9 / 2), .val (9 / 2)] := by decide +kernel

/-- **C18** on the machine, with doubles, method `split`, for such weights. Missing: NaN for windows without weight
(`C18_nan_violated`); other weights (`C18_rounding_crash_violated`). -/
theorem C18_whole_partial (g : Grid Item) (hy : g.ny ≠ 0) (hx : g.nx ≠ 0) (ry rx : Nat) (k : ℤ) (hk : -1074 ≤ k)
    (hw : ∀ i j, Plain k (window2 g ry rx i j)) :
    ∃ out, moving2 addDouble g (2 * ry + 1) (2 * rx + 1) 's' = .ok out ∧
      out.ny = g.ny ∧ out.nx = g.nx ∧
      ∀ i j, i < g.ny → j < g.nx → ∃ o, out.get i j = some o ∧
        (window2 g ry rx i j = [] → o = .val 0) ∧
        (window2 g ry rx i j ≠ [] → ∃ m, o = .val m ∧ BagMedianWith machineMean (window2 g ry rx i j) m) := by
  unfold moving2
  rw [if_neg (by omega)]
  by_cases hc : 2 * ry + 1 < 2 * rx + 1
  · rw [if_pos hc]
    obtain ⟨out, h1, h2, h3, h4⟩ := mwm2D_ok (g := g.T) (ry := rx) (rx := ry) hx (rule_median_plain hk)
      (fun i j => plain_perm (window2_T g ry rx j i) (hw j i))
    refine ⟨out.T, by rw [h1]; rfl, h3, h2, fun i j hi hj => ?_⟩
    obtain ⟨o, a, b, c⟩ := h4 j i hj hi
    have hp := window2_T g ry rx i j
    refine ⟨o, a, fun he => b ?_, fun hne => ?_⟩
    · rw [he] at hp; exact List.Perm.eq_nil hp
    · obtain ⟨m, rfl, s, p, hs⟩ := c fun he => hne (by
        rw [he] at hp; exact (List.Perm.nil_eq hp).symm)
      exact ⟨m, rfl, s, p.trans hp, hs⟩
  · rw [if_neg hc]
    exact mwm2D_ok hy (rule_median_plain hk) hw

/-- The array of 3 rows and 2 columns of the other examples, on the machine. -/
example : vals (moving2 addDouble grid32 1 3 's') =
    [[some (.val (1 / 2)), some (.val (1 / 2))], [some (.val 0), some (.val 0)],
     [some (.val (41 / 2)), some (.val (41 / 2))]] := by decide +kernel

end Verif.Moving
