import Verif.Moving.Lemmas
import Verif.Median.Props

/-!
# Property theorems C17 and C18
-/
namespace Verif.Moving
open Verif.Median

/-! ## What the specification determines -/

/-- The median of a bag of items of positive weight is unique. -/
theorem bagMedian_unique {b : List Item} (hp : ∀ x ∈ b, 0 < x.w) {m m' : Rat}
    (h : BagMedian b m) (h' : BagMedian b m') : m = m' := by
  obtain ⟨s, p, o, hm⟩ := h
  obtain ⟨s', p', o', hm'⟩ := h'
  have e : s = s' := by
    have hperm : s.Perm s' := p.trans p'.symm
    exact List.Perm.eq_of_pairwise (le := Item.le) (fun a b _ _ h1 h2 => Item.le_antisymm h1 h2)
      o o' hperm
  subst e
  exact C16_spec_unique s (fun x hx => hp x (p.mem_iff.mp hx)) m m' hm hm'

/-! ## One dimension -/

/-- `median` as a rule for method `split`: zero for no items. -/
theorem rule_median :
    Rule (fun t => median exact t 's') exact (fun b => Pos b)
      (fun b o => (b = [] → o = .val 0) ∧ (b ≠ [] → ∃ m, o = .val m ∧ BagMedian b m)) := by
  refine ⟨fun t b hp h => ?_⟩
  by_cases hb : b = []
  · subst hb
    exact ⟨_, median_empty h 's', fun _ => rfl, fun c => absurd rfl c⟩
  · obtain ⟨m, e, hm⟩ := bag_of_inv h hp hb
    exact ⟨_, e, fun c => absurd c hb, fun _ => ⟨m, rfl, hm⟩⟩

theorem rule_output :
    Rule (fun t => output exact t 's') exact (fun b => Pos b) Good := by
  refine ⟨fun t b hp h => ?_⟩
  have hs := h.size
  unfold output Good
  by_cases hb : b = []
  · subst hb
    simp only [List.length_nil] at hs
    exact ⟨.nan, by simp [hs, pure, Except.pure], by simp⟩
  · have : t.size ≠ 0 := by rw [hs]; simpa using hb
    obtain ⟨m, e, hm⟩ := bag_of_inv h hp hb
    exact ⟨.val m, by rw [if_pos this]; exact e, by rw [if_neg hb]; exact ⟨m, rfl, hm⟩⟩

theorem pos_window {data : List Item} (hw : ∀ x ∈ data, 0 ≤ x.w) (r i : Nat) :
    Pos (nz (at' data (idx data.length r i))) := by
  refine pos_nz fun x hx => ?_
  simp only [at', List.mem_filterMap] at hx
  obtain ⟨j, _, hj⟩ := hx
  exact hw x (List.mem_of_getElem? hj)

/-- **C17** method `split`, every window size `2 r + 1` given as a one element sequence or, for
`r ≥ 1`, as an integer, also larger than the array: one output per sample; output `i` is the weighted
median of the window, or NaN if the window has no weight. Missing: at index 0 a window without
weight gives zero (`C17_first_nan_violated`), and the integer size 1 (`C17_size_one_violated`);
weights are added exactly (`C17_rounding_crash_violated`). -/
theorem C17_moving_partial (data : List Item) (hn : data ≠ []) (hw : ∀ x ∈ data, 0 ≤ x.w)
    (r : Nat) (size : Size)
    (hsize : size = .tuple [2 * r + 1] ∨ (1 ≤ r ∧ size = .int (2 * r + 1))) :
    ∃ outs, moving1 exact data size 's' = .ok outs ∧ outs.length = data.length ∧
      (∀ i, 1 ≤ i → i < data.length → ∃ o, outs[i]? = some o ∧ Good (window data r i) o) ∧
      (window data r 0 ≠ [] → ∃ o, outs[0]? = some o ∧ Good (window data r 0) o) := by
  have e : moving1 exact data size 's' = mwm1D exact data (2 * r + 1) 's' := by
    rcases hsize with rfl | ⟨hr, rfl⟩
    · simp [moving1, size1, bind, Except.bind, pure, Except.pure]
    · have h1 : ¬ (Size.int (2 * (r : Int) + 1) = Size.int 0) := by simp; omega
      have h2 : ¬ (Size.int (2 * (r : Int) + 1) = Size.int 1) := by simp; omega
      simp only [moving1, if_neg h1, if_neg h2, size1, bind, Except.bind, pure, Except.pure]
      rw [if_neg (by omega)]
  obtain ⟨outs, h1, h2, ⟨o, h3, h4⟩, h5⟩ := mwm1D_ok (r := r) hn rule_median rule_output
    (pos_window hw r)
  refine ⟨outs, e.trans h1, h2, ?_, ?_⟩
  · intro i hi hi'
    obtain ⟨o', a, b⟩ := h5 i hi hi'
    exact ⟨o', a, by rw [window_idx]; exact b⟩
  · intro hne
    refine ⟨o, h3, ?_⟩
    rw [Good, if_neg hne]
    rw [window_idx] at hne ⊢
    exact h4.2 hne

/-- Window of three over five samples, one of them without weight. -/
example : moving1 exact [⟨3, 1⟩, ⟨1, 2⟩, ⟨2, 0⟩, ⟨5, 1⟩, ⟨4, 1⟩] (.int 3) 's' =
    .ok [.val 1, .val 1, .val 1, .val (9 / 2), .val (9 / 2)] := by decide +kernel

/-- **C17** the output depends on the window only: two arrays whose windows around `i` hold the same
items of non-zero weight give the same output there. -/
theorem C17_local (data data' : List Item) (hn : data ≠ []) (hn' : data' ≠ [])
    (hw : ∀ x ∈ data, 0 ≤ x.w) (hw' : ∀ x ∈ data', 0 ≤ x.w) (r i : Nat) (hr : 1 ≤ r)
    (hi : i < data.length) (hi' : i < data'.length)
    (hwin : (window data r i).Perm (window data' r i)) (hne : window data r i ≠ []) :
    ∃ outs outs', moving1 exact data (.int (2 * r + 1)) 's' = .ok outs ∧
      moving1 exact data' (.int (2 * r + 1)) 's' = .ok outs' ∧ outs[i]? = outs'[i]? := by
  have hne' : window data' r i ≠ [] := fun e => hne (by
    rw [e] at hwin; exact List.Perm.eq_nil hwin)
  obtain ⟨o1, h1, _, h2, h3⟩ := C17_moving_partial data hn hw r _ (Or.inr ⟨hr, rfl⟩)
  obtain ⟨o2, g1, _, g2, g3⟩ := C17_moving_partial data' hn' hw' r _ (Or.inr ⟨hr, rfl⟩)
  refine ⟨o1, o2, h1, g1, ?_⟩
  have a : ∃ o, o1[i]? = some o ∧ Good (window data r i) o := by
    rcases Nat.eq_zero_or_pos i with rfl | hp
    · exact h3 hne
    · exact h2 i hp hi
  have b : ∃ o, o2[i]? = some o ∧ Good (window data' r i) o := by
    rcases Nat.eq_zero_or_pos i with rfl | hp
    · exact g3 hne'
    · exact g2 i hp hi'
  obtain ⟨o, ho, hg⟩ := a
  obtain ⟨o', ho', hg'⟩ := b
  rw [Good, if_neg hne] at hg
  rw [Good, if_neg hne'] at hg'
  obtain ⟨m, rfl, hm⟩ := hg
  obtain ⟨m', rfl, s, p, hs⟩ := hg'
  have hp : ∀ x ∈ window data r i, 0 < x.w := by
    rw [window_idx]; exact pos_window hw r i
  rw [ho, ho', bagMedian_unique hp hm ⟨s, p.trans hwin.symm, hs⟩]

/-- Different arrays, same window of five samples around the first index. -/
example : window [⟨3, 1⟩, ⟨1, 2⟩, ⟨2, 0⟩, ⟨5, 1⟩] 2 0 ≠ [] ∧
    (window [⟨3, 1⟩, ⟨1, 2⟩, ⟨2, 0⟩, ⟨5, 1⟩] 2 0) =
      (window [⟨3, 1⟩, ⟨1, 2⟩, ⟨8, 0⟩, ⟨7, 9⟩, ⟨6, 1⟩] 2 0) := by decide +kernel

/-- **C17** rejected sizes: zero, any even number, and sequences of more than one size. -/
theorem C17_bad_sizes (add : Rat → Rat → Rat) (data : List Item) (method : Char) :
    (∀ n : Int, n % 2 = 0 → moving1 add data (.int n) method = .error .valueError) ∧
    (∀ n : Int, n % 2 = 0 → moving1 add data (.tuple [n]) method = .error .valueError) ∧
    (∀ a b l, moving1 add data (.tuple (a :: b :: l)) method = .error .valueError) := by
  refine ⟨fun n hn => ?_, fun n hn => ?_, fun a b l => ?_⟩
  · unfold moving1
    split
    · rfl
    · rw [if_neg (by simp; omega)]
      simp [size1, hn, bind, Except.bind, pure, Except.pure]
  · simp [moving1, size1, hn, bind, Except.bind, pure, Except.pure]
  · simp [moving1, size1, bind, Except.bind]

example : moving1 exact [⟨3, 1⟩] (.int 4) 's' = .error .valueError := by decide +kernel

/-- **C17** an empty array is an error (index 0 is assigned), except for the integer size 1. -/
theorem C17_empty_array (add : Rat → Rat → Rat) (method : Char) (n : Int) (h : n % 2 ≠ 0)
    (h1 : n ≠ 1) : moving1 add [] (.int n) method = .error .indexError := by
  have h0 : ¬ (Size.int n = Size.int 0) := by simp; omega
  have h1' : ¬ (Size.int n = Size.int 1) := by simpa using h1
  simp only [moving1, if_neg h0, if_neg h1', size1, bind, Except.bind, pure, Except.pure, if_neg h]
  simp [mwm1D, enterAll, median, State.empty, MTree.empty, weightedMedian, bind, Except.bind, pure,
    Except.pure]

example : moving1 exact [] (.int 3) 's' = .error .indexError := by decide +kernel

/-- **C17** is violated at index 0: the window `[0, 1]` has no weight and the output is 0, not NaN,
while the same situation at index 1 gives NaN. -/
theorem C17_first_nan_violated :
    window [⟨5, 0⟩, ⟨5, 0⟩, ⟨5, 0⟩, ⟨7, 1⟩] 1 0 = [] ∧ window [⟨5, 0⟩, ⟨5, 0⟩, ⟨5, 0⟩, ⟨7, 1⟩] 1 1 = [] ∧
    moving1 exact [⟨5, 0⟩, ⟨5, 0⟩, ⟨5, 0⟩, ⟨7, 1⟩] (.int 3) 's' =
      .ok [.val 0, .nan, .val 7, .val 7] := by decide +kernel

/-- **C17** is violated for the integer size 1: a sample without weight gives 0, not NaN. -/
theorem C17_size_one_violated :
    window [⟨5, 1⟩, ⟨5, 0⟩] 0 1 = [] ∧
    moving1 exact [⟨5, 1⟩, ⟨5, 0⟩] (.int 1) 's' = .ok [.val 5, .val 0] := by decide +kernel

/-- **C17** size 1 elsewhere: a sample with weight is returned as it is, for every array. -/
theorem C17_size_one_partial (add : Rat → Rat → Rat) (data : List Item) (method : Char) :
    ∃ outs, moving1 add data (.int 1) method = .ok outs ∧ outs.length = data.length ∧
      ∀ (i : Nat) (x : Item), data[i]? = some x → x.w ≠ 0 → outs[i]? = some (.val x.v) := by
  refine ⟨data.map whereWeight, by simp [moving1, pure, Except.pure], by simp, ?_⟩
  intro i x hx hw
  simp [hx, whereWeight, hw]

/-- A negative odd size is not rejected; it takes the front of an empty queue (undefined behaviour)
as soon as there are two samples. -/
theorem C17_negative_size_violated (add : Rat → Rat → Rat) (x y : Item) (rest : List Item)
    (n : Nat) : moving1 add (x :: y :: rest) (.int (-(2 * n + 1))) 's' = .error .crash := by
  have h0 : ¬ (Size.int (-(2 * (n : Int) + 1)) = Size.int 0) := by simp; omega
  have h1 : ¬ (Size.int (-(2 * (n : Int) + 1)) = Size.int 1) := by simp; omega
  have h2 : ¬ ((-(2 * (n : Int) + 1)) % 2 = 0) := by omega
  have h3 : (-(2 * (n : Int) + 1)) / 2 = -(n + 1) := by omega
  have h4 : (min (-((n : Int) + 1) + 1) ((x :: y :: rest).length : Int)).toNat = 0 := by
    simp only [List.length_cons]; omega
  simp only [moving1, if_neg h0, if_neg h1, size1, bind, Except.bind, pure, Except.pure, if_neg h2,
    mwm1D, h3, h4, List.take_zero, enterAll, List.foldlM_nil]
  have hm : median add State.empty.tree 's' = .ok (.val 0) := median_empty inv_empty 's'
  have hd : dropEdge add (-((n : Int) + 1)) 1 State.empty = .error .crash := by
    unfold dropEdge
    rw [if_pos (by omega)]
    rfl
  have hl : loop1 add (x :: y :: rest) (-((n : Int) + 1)) 's' ((x :: y :: rest).length - 1) 1
      State.empty = .error .crash := by
    simp only [List.length_cons, Nat.add_one_sub_one, loop1, bind, Except.bind, hd]
  rw [hm]
  simp only [List.length_cons, hl, Nat.add_eq_zero_iff] at *
  simp [hl]

example : moving1 exact [⟨1, 1⟩, ⟨2, 1⟩] (.int (-3)) 's' = .error .crash := by decide +kernel

/-- **C17** is violated with machine arithmetic: three samples with weights 0.3, 0.1 and 0.4 and a
window of three samples dereference a null pointer. -/
theorem C17_rounding_crash_violated :
    moving1 addDouble [⟨1, d03⟩, ⟨2, d01⟩, ⟨3, d04⟩] (.int 3) 's' = .error .crash := by
  decide +kernel

/-- The only failures are those of `weighted_median` itself. -/
def Benign {α : Type} (r : Except Err α) : Prop :=
  ∀ err, r = .error err → err = .crash ∨ err = .invalidArgument

theorem benign_output (add : Rat → Rat → Rat) (t : MTree) (method : Char) :
    Benign (output add t method) ∧ Benign (median add t method) := by
  have h : Benign (median add t method) := by
    intro err he
    unfold median at he
    split at he
    · exact absurd he (by simp)
    · exact Or.inr (Except.error.inj he).symm
    · exact Or.inl (Except.error.inj he).symm
  refine ⟨?_, h⟩
  unfold output
  split
  · exact h
  · intro err he; exact absurd he (by simp [pure, Except.pure])

theorem benign_loop1 (add : Rat → Rat → Rat) (data : List Item) (r : Nat) (method : Char)
    (k i : Nat) (s : State) (h0 : 1 ≤ i) (hk : i + k = data.length)
    (h : SInv add s (at' data (idx data.length r (i - 1)))) :
    Benign (loop1 add data r method k i s) := by
  induction k generalizing i s with
  | zero => intro err he; exact absurd he (by simp [loop1, pure, Except.pure])
  | succ k ih =>
    obtain ⟨s1, e1, h1⟩ := dropEdge_ok h0 (by omega) h
    obtain ⟨s2, e2, h2⟩ := addEdge_ok h1
    have ho := (benign_output add s2.tree method).1
    have hr := ih (i + 1) s2 (by omega) (by omega) (by simpa using h2)
    intro err he
    simp only [loop1, e1, e2, bind, Except.bind, pure, Except.pure] at he
    cases hm : output add s2.tree method with
    | error e => rw [hm] at he; exact ho err (by rw [hm]; simpa using he)
    | ok o =>
      rw [hm] at he
      cases hl : loop1 add data r method k (i + 1) s2 with
      | error e => simp only [hl] at he; exact hr err (by rw [hl]; simpa using he)
      | ok outs => simp [hl] at he

/-- **C17** whatever the rounding of the additions, the weights and the method: the moving window
never fails to find the element it wants to remove, and never reads outside of the array. The only
failures for odd sizes are those of `weighted_median` itself. -/
theorem C17_window_never_lost (add : Rat → Rat → Rat) (data : List Item) (hn : data ≠ []) (r : Nat)
    (method : Char) : Benign (mwm1D add data (2 * r + 1) method) := by
  have hlen : data.length ≠ 0 := by simpa using hn
  have hr : (2 * (r : Int) + 1) / 2 = r := by omega
  have ht : (min ((r : Int) + 1) data.length).toNat = min (r + 1) data.length := by omega
  obtain ⟨s, e0, h0⟩ := enterAll_ok (add := add) (data.take (min (r + 1) data.length)) sinv_empty
  rw [List.nil_append, take_idx] at h0
  have hb := benign_loop1 add data r method (data.length - 1) 1 s (by omega) (by omega)
    (by simpa [at'] using h0)
  intro err he
  simp only [mwm1D, hr, ht, e0, bind, Except.bind, if_neg hlen, pure, Except.pure] at he
  cases hm : median add s.tree method with
  | error e =>
    rw [hm] at he
    exact (benign_output add s.tree method).2 err (by rw [hm]; simpa using he)
  | ok o =>
    rw [hm] at he
    cases hl : loop1 add data r method (data.length - 1) 1 s with
    | error e => simp only [hl] at he; exact hb err (by rw [hl]; simpa using he)
    | ok outs => simp [hl] at he

example : mwm1D addDouble [⟨3, d01⟩, ⟨1, d03⟩, ⟨3, d01⟩, ⟨2, d01⟩] 3 's' =
    .ok [.val 1, .val 1, .val 1, .val (5 / 2)] := by decide +kernel

/-- Rule for method `higher`. -/
theorem rule_higher :
    Rule (fun t => output exact t 'h') exact (fun b => Pos b ∧ ¬ BagTie b)
      (fun b o => if b = [] then o = .nan else ∃ m, o = .val m ∧ BagHigher b m) := by
  refine ⟨fun t b hp h => ?_⟩
  have hs := h.size
  unfold output
  by_cases hb : b = []
  · subst hb
    simp only [List.length_nil] at hs
    exact ⟨.nan, by simp [hs, pure, Except.pure], by simp⟩
  · have : t.size ≠ 0 := by rw [hs]; simpa using hb
    have hp' : Pos (items t.root) := fun x hx => hp.1 x (h.perm.mem_iff.mp hx)
    have hne' : items t.root ≠ [] := fun e => hb (by
      have := h.perm; rw [e] at this; exact List.Perm.nil_eq this |>.symm)
    obtain ⟨x, _, e, _, hm⟩ := higher_good h.good h.sorted hp' hne'
    refine ⟨.val x.v, by simp only [if_pos this, median, e], ?_⟩
    rw [if_neg hb]
    exact ⟨x.v, rfl, items t.root, h.perm, h.sorted, hm fun ht => hp.2 ⟨_, h.perm, h.sorted, ht⟩⟩

theorem rule_lower :
    Rule (fun t => output exact t 'l') exact (fun b => Pos b ∧ ¬ BagTie b)
      (fun b o => if b = [] then o = .nan else ∃ m, o = .val m ∧ BagLower b m) := by
  refine ⟨fun t b hp h => ?_⟩
  have hs := h.size
  unfold output
  by_cases hb : b = []
  · subst hb
    simp only [List.length_nil] at hs
    exact ⟨.nan, by simp [hs, pure, Except.pure], by simp⟩
  · have : t.size ≠ 0 := by rw [hs]; simpa using hb
    have hp' : Pos (items t.root) := fun x hx => hp.1 x (h.perm.mem_iff.mp hx)
    have hne' : items t.root ≠ [] := fun e => hb (by
      have := h.perm; rw [e] at this; exact List.Perm.nil_eq this |>.symm)
    obtain ⟨x, _, e, _, hm⟩ := lower_good h.good h.sorted hp' hne'
    refine ⟨.val x.v, by simp only [if_pos this, median, e], ?_⟩
    rw [if_neg hb]
    exact ⟨x.v, rfl, items t.root, h.perm, h.sorted, hm fun ht => hp.2 ⟨_, h.perm, h.sorted, ht⟩⟩

/-- The first output of methods `lower` and `higher` is some number. -/
theorem rule_first (method : Char) (hm : method = 'l' ∨ method = 'h') :
    Rule (fun t => median exact t method) exact (fun b => Pos b ∧ ¬ BagTie b)
      (fun b o => b ≠ [] → ∃ m, o = .val m ∧
        if method = 'l' then BagLower b m else BagHigher b m) := by
  refine ⟨fun t b hp h => ?_⟩
  by_cases hb : b = []
  · subst hb
    exact ⟨_, median_empty h method, fun c => absurd rfl c⟩
  · have hp' : Pos (items t.root) := fun x hx => hp.1 x (h.perm.mem_iff.mp hx)
    have hne' : items t.root ≠ [] := fun e => hb (by
      have := h.perm; rw [e] at this; exact List.Perm.nil_eq this |>.symm)
    have ht : ¬ Tie (items t.root) := fun ht => hp.2 ⟨_, h.perm, h.sorted, ht⟩
    rcases hm with rfl | rfl
    · obtain ⟨x, _, e, _, hm⟩ := lower_good h.good h.sorted hp' hne'
      exact ⟨.val x.v, by simp only [median, e], fun _ => ⟨x.v, rfl, by
        rw [if_pos rfl]; exact ⟨items t.root, h.perm, h.sorted, hm ht⟩⟩⟩
    · obtain ⟨x, _, e, _, hm⟩ := higher_good h.good h.sorted hp' hne'
      exact ⟨.val x.v, by simp only [median, e], fun _ => ⟨x.v, rfl, by
        rw [if_neg (by decide)]; exact ⟨items t.root, h.perm, h.sorted, hm ht⟩⟩⟩

/-- **C17** methods `lower` and `higher`: right wherever in no window half of the weight falls
exactly between two elements. Missing: windows with such ties (`C17_higher_violated`). -/
theorem C17_lower_higher_partial (data : List Item) (hn : data ≠ []) (hw : ∀ x ∈ data, 0 ≤ x.w)
    (r : Nat) (hr : 1 ≤ r) (hties : ∀ i, ¬ BagTie (window data r i)) :
    (∃ outs, moving1 exact data (.int (2 * r + 1)) 'h' = .ok outs ∧ outs.length = data.length ∧
      ∀ i, i < data.length → window data r i ≠ [] →
        ∃ m, outs[i]? = some (.val m) ∧ BagHigher (window data r i) m) ∧
    (∃ outs, moving1 exact data (.int (2 * r + 1)) 'l' = .ok outs ∧ outs.length = data.length ∧
      ∀ i, i < data.length → window data r i ≠ [] →
        ∃ m, outs[i]? = some (.val m) ∧ BagLower (window data r i) m) := by
  have e : ∀ method, moving1 exact data (.int (2 * r + 1)) method =
      mwm1D exact data (2 * r + 1) method := by
    intro method
    have h1 : ¬ (Size.int (2 * (r : Int) + 1) = Size.int 0) := by simp; omega
    have h2 : ¬ (Size.int (2 * (r : Int) + 1) = Size.int 1) := by simp; omega
    simp only [moving1, if_neg h1, if_neg h2, size1, bind, Except.bind, pure, Except.pure]
    rw [if_neg (by omega)]
  have hP : ∀ i, Pos (nz (at' data (idx data.length r i))) ∧
      ¬ BagTie (nz (at' data (idx data.length r i))) := fun i =>
    ⟨pos_window hw r i, by rw [← window_idx]; exact hties i⟩
  constructor
  · obtain ⟨outs, h1, h2, ⟨o, h3, h4⟩, h5⟩ := mwm1D_ok (r := r) hn (rule_first 'h' (Or.inr rfl))
      rule_higher hP
    refine ⟨outs, (e 'h').trans h1, h2, fun i hi hne => ?_⟩
    rw [window_idx] at hne ⊢
    rcases Nat.eq_zero_or_pos i with rfl | hp
    · obtain ⟨m, rfl, hm⟩ := h4 hne
      exact ⟨m, h3, by rw [if_neg (by decide)] at hm; exact hm⟩
    · obtain ⟨o', a, b⟩ := h5 i hp hi
      rw [if_neg hne] at b
      obtain ⟨m, rfl, hm⟩ := b
      exact ⟨m, a, hm⟩
  · obtain ⟨outs, h1, h2, ⟨o, h3, h4⟩, h5⟩ := mwm1D_ok (r := r) hn (rule_first 'l' (Or.inl rfl))
      rule_lower hP
    refine ⟨outs, (e 'l').trans h1, h2, fun i hi hne => ?_⟩
    rw [window_idx] at hne ⊢
    rcases Nat.eq_zero_or_pos i with rfl | hp
    · obtain ⟨m, rfl, hm⟩ := h4 hne
      exact ⟨m, h3, by rw [if_pos rfl] at hm; exact hm⟩
    · obtain ⟨o', a, b⟩ := h5 i hp hi
      rw [if_neg hne] at b
      obtain ⟨m, rfl, hm⟩ := b
      exact ⟨m, a, hm⟩

/-- A case without ties: weights 1, 2, 4, whose windows have no equal halves. -/
example : moving1 exact [⟨1, 1⟩, ⟨2, 2⟩, ⟨3, 4⟩] (.int 3) 'h' = .ok [.val 2, .val 3, .val 3] ∧
    moving1 exact [⟨1, 1⟩, ⟨2, 2⟩, ⟨3, 4⟩] (.int 3) 'l' = .ok [.val 2, .val 3, .val 3] := by
  decide +kernel

/-- **C17** is violated for `higher`: index 1 of the samples 1, 2, 3, 4 with a window of five holds
all four samples, whose higher median is 3; the output is 4. -/
theorem C17_higher_violated :
    BagHigher (window [⟨1, 1⟩, ⟨2, 1⟩, ⟨3, 1⟩, ⟨4, 1⟩] 2 1) 3 ∧
    moving1 exact [⟨1, 1⟩, ⟨2, 1⟩, ⟨3, 1⟩, ⟨4, 1⟩] (.int 5) 'h' =
      .ok [.val 2, .val 4, .val 4, .val 3] := by
  refine ⟨⟨[⟨1, 1⟩, ⟨2, 1⟩, ⟨3, 1⟩, ⟨4, 1⟩], ?_, ?_, ?_⟩, by decide +kernel⟩
  · have : window [⟨1, 1⟩, ⟨2, 1⟩, ⟨3, 1⟩, ⟨4, 1⟩] 2 1 = [⟨1, 1⟩, ⟨2, 1⟩, ⟨3, 1⟩, ⟨4, 1⟩] := by
      decide +kernel
    rw [this]
  · simp [Item.le]; norm_num
  · exact Or.inr ⟨[⟨1, 1⟩], ⟨2, 1⟩, ⟨3, 1⟩, [⟨4, 1⟩], rfl, by decide +kernel, rfl⟩

/-! ## Two dimensions -/

theorem pos_window2 {g : Grid Item} (hw : ∀ i j, i < g.ny → j < g.nx → 0 ≤ (g.get i j).w)
    (ry rx i j : Nat) : Pos (window2 g ry rx i j) := by
  refine pos_nz fun x hx => ?_
  simp only [List.mem_flatMap, List.mem_filter, List.mem_range, List.mem_map] at hx
  obtain ⟨y, ⟨hy, _⟩, x', ⟨hx', _⟩, rfl⟩ := hx
  exact hw y x' hy hx'

/-- **C18** method `split`, every odd pair of sizes, whichever is larger: the output has the shape of
the input and each output is the weighted median of the rectangular window, or zero where the window
has no weight. Missing: NaN in that last case (`C18_nan_violated`); arrays without rows or columns
(`C18_no_rows_violated`); weights are added exactly (`C18_rounding_crash_violated`). -/
theorem C18_moving2_partial (g : Grid Item) (hy : g.ny ≠ 0) (hx : g.nx ≠ 0)
    (hw : ∀ i j, i < g.ny → j < g.nx → 0 ≤ (g.get i j).w) (ry rx : Nat) :
    ∃ out, moving2 exact g (2 * ry + 1) (2 * rx + 1) 's' = .ok out ∧
      out.ny = g.ny ∧ out.nx = g.nx ∧
      ∀ i j, i < g.ny → j < g.nx → ∃ o, out.get i j = some o ∧
        (window2 g ry rx i j = [] → o = .val 0) ∧
        (window2 g ry rx i j ≠ [] → ∃ m, o = .val m ∧ BagMedian (window2 g ry rx i j) m) := by
  unfold moving2
  rw [if_neg (by omega)]
  by_cases hc : 2 * ry + 1 < 2 * rx + 1
  · rw [if_pos hc]
    obtain ⟨out, h1, h2, h3, h4⟩ := mwm2D_ok (g := g.T) (ry := rx) (rx := ry) hx rule_median
      (fun i j => pos_window2 (g := g.T) (fun a b ha hb => hw b a hb ha) _ _ _ _)
    refine ⟨out.T, by rw [h1]; rfl, h3, h2, fun i j hi hj => ?_⟩
    obtain ⟨o, a, b, c⟩ := h4 j i hj hi
    have hp := window2_T g ry rx i j
    refine ⟨o, a, fun he => b ?_, fun hne => ?_⟩
    · rw [he] at hp; exact List.Perm.eq_nil hp
    · obtain ⟨m, rfl, s, p, hs⟩ := c fun he => hne (by
        rw [he] at hp; exact (List.Perm.nil_eq hp).symm)
      exact ⟨m, rfl, s, p.trans hp, hs⟩
  · rw [if_neg hc]
    exact mwm2D_ok hy rule_median (fun i j => pos_window2 hw _ _ _ _)

/-- The array used in the examples: 3 rows, 2 columns. -/
def grid32 : Grid Item := ⟨3, 2, fun i j => ⟨(10 * i + j : Nat), if i = 1 then 0 else 1⟩⟩

def vals (r : Except Err (Grid (Option Out))) : List (List (Option Out)) :=
  match r with
  | .ok o => (List.range o.ny).map fun i => (List.range o.nx).map fun j => o.get i j
  | .error _ => []

/-- Windows 3 by 1 and 1 by 3. -/
example : vals (moving2 exact grid32 3 1 's') =
    [[some (.val 0), some (.val 1)], [some (.val 10), some (.val 11)],
     [some (.val 20), some (.val 21)]] ∧
    vals (moving2 exact grid32 1 3 's') =
    [[some (.val (1 / 2)), some (.val (1 / 2))], [some (.val 0), some (.val 0)],
     [some (.val (41 / 2)), some (.val (41 / 2))]] := by decide +kernel

/-- **C18** even sizes are rejected. -/
theorem C18_even_sizes (add : Rat → Rat → Rat) (g : Grid Item) (sy sx : Nat) (method : Char)
    (h : sy % 2 = 0 ∨ sx % 2 = 0) : moving2 add g sy sx method = .error .valueError := by
  simp [moving2, h]

example : moving2 exact grid32 3 2 's' = .error .valueError := C18_even_sizes _ _ _ _ _ (by decide)

/-- **C18** is violated for windows without weight: zero instead of NaN (row 1 of the example). -/
theorem C18_nan_violated :
    window2 grid32 0 1 1 0 = [] ∧
    ∃ out, moving2 exact grid32 1 3 's' = .ok out ∧ out.get 1 0 = some (.val 0) := by
  refine ⟨by decide +kernel, ?_⟩
  obtain ⟨out, h1, _, _, h4⟩ := C18_moving2_partial grid32 (by decide) (by decide)
    (by intro i j _ _; simp only [grid32]; split <;> norm_num) 0 1
  obtain ⟨o, a, b, _⟩ := h4 1 0 (by decide) (by decide)
  exact ⟨out, h1, by rw [a, b (by decide +kernel)]⟩

/-- An array without rows: every column writes one element outside of the output. -/
theorem C18_no_rows_violated (add : Rat → Rat → Rat) (nx : Nat) (get : Nat → Nat → Item)
    (ry rx : Nat) (h : rx ≤ ry) :
    moving2 add ⟨0, nx + 1, get⟩ (2 * ry + 1) (2 * rx + 1) 's' = .error .outOfBounds := by
  unfold moving2
  rw [if_neg (by omega), if_neg (by omega)]
  have hcol : ∀ col, mwmCol add ⟨0, nx + 1, get⟩ ((2 * ry + 1) / 2) ((2 * rx + 1) / 2) 's' col =
      .error .outOfBounds := by
    intro col
    have hm : median add State.empty.tree 's' = .ok (.val 0) := median_empty inv_empty 's'
    simp [mwmCol, enterAll, hm, bind, Except.bind, pure, Except.pure]
  simp only [mwm2D, List.range_succ_eq_map, List.mapM_cons, hcol, bind, Except.bind]

example : moving2 exact ⟨0, 2, fun _ _ => ⟨0, 0⟩⟩ 3 1 's' = .error .outOfBounds :=
  C18_no_rows_violated exact 1 _ 1 0 (by omega)

def isCrash : Except Err (Grid (Option Out)) → Bool
  | .error .crash => true
  | _ => false

/-- **C18** is violated with machine arithmetic: a column with weights 0.3, 0.1, 0.4. -/
theorem C18_rounding_crash_violated :
    isCrash (moving2 addDouble ⟨3, 1, fun i _ => ⟨(i + 1 : Nat),
      if i = 0 then d03 else if i = 1 then d01 else d04⟩⟩ 3 1 's') = true := by
  decide +kernel

end Verif.Moving
