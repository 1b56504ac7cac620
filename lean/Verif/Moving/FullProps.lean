import Verif.Moving.Full
import Verif.Moving.Props

/-!
# C18 for all values of `size`, and for the methods `lower` and `higher`
-/
namespace Verif.Moving
open Verif.Median

variable {add : Rat → Rat → Rat}

/-! ### Sizes that are positive -/

theorem colLoI_nat (rx col : Nat) : colLoI rx col = colLo rx col := by
  unfold colLoI colLo
  split <;> omega

theorem colHiI_nat (nx rx col : Nat) : colHiI nx rx col = colHi nx rx col := by
  unfold colHiI colHi
  split <;> omega

theorem enterRow_nat (g : Grid Item) (lo hi y : Nat) (s : State) (hlt : lo < hi) (hhi : hi ≤ g.nx) (hy : y < g.ny) :
    enterRow add g lo hi y s = enterAll add s (seg g lo hi y) := by
  unfold enterRow
  rw [if_neg (by omega), if_pos ⟨by omega, by omega, by omega, by omega⟩]
  rfl

theorem enterAll_append (s : State) (xs ys : List Item) :
    enterAll add s (xs ++ ys) = (enterAll add s xs >>= fun s' => enterAll add s' ys) := by
  simp only [enterAll, List.foldlM_append]

theorem firstRows_nat (g : Grid Item) (lo hi : Nat) (hlt : lo < hi) (hhi : hi ≤ g.nx) (ys : List Nat) (hys : ∀ y ∈ ys, y < g.ny) (s : State) :
    firstRows add g lo hi ys s = enterAll add s (ys.flatMap (seg g lo hi)) := by
  induction ys generalizing s with
  | nil => rfl
  | cons y ys ih =>
    rw [firstRows, enterRow_nat g lo hi y s hlt hhi (hys y List.mem_cons_self), List.flatMap_cons, enterAll_append]
    cases enterAll add s (seg g lo hi y) with
    | error e => rfl
    | ok s' => exact ih (fun y hy => hys y (List.mem_cons_of_mem _ hy)) s'

theorem loop2I_nat (g : Grid Item) (lo hi ry : Nat) (hlt : lo < hi) (hhi : hi ≤ g.nx) (method : Char) (k row : Nat) (s : State) :
    loop2I add g lo hi ry method k row s = loop2 add g lo hi ry method k row s := by
  induction k generalizing row s with
  | zero => rfl
  | succ k ih =>
    have h1 : dropRowI add lo hi ry row s = dropRow add lo hi ry row s := by
      unfold dropRowI dropRow
      by_cases h : row ≥ ry + 1
      · rw [if_pos h, if_pos (by omega)]
        congr 1
        omega
      · rw [if_neg h, if_neg (by omega)]
        rfl
    have h2 : ∀ s1, addRowI add g lo hi ry row s1 = addRow add g lo hi ry row s1 := by
      intro s1
      unfold addRowI addRow
      by_cases h : row + ry < g.ny
      · rw [if_pos h, if_pos (by omega)]
        exact enterRow_nat g lo hi (row + ry) s1 hlt hhi h
      · rw [if_neg h, if_neg (by omega)]
        rfl
    rw [loop2I, loop2, h1]
    cases dropRow add lo hi ry row s with
    | error e => rfl
    | ok s1 =>
      simp only [h2, bind, Except.bind]
      cases addRow add g lo hi ry row s1 with
      | error e => rfl
      | ok s2 =>
        simp only
        cases median add s2.tree method with
        | error e => rfl
        | ok m =>
          simp only [ih]
          cases loop2 add g lo hi ry method k (row + 1) s2 <;> rfl

theorem mwmColI_nat (g : Grid Item) (ry rx : Nat) (method : Char) (col : Nat) (hcol : col < g.nx) :
    mwmColI add g ry rx method col = mwmCol add g ry rx method col := by
  have hlt : colLo rx col < colHi g.nx rx col := by
    unfold colLo colHi
    omega
  have hhi : colHi g.nx rx col ≤ g.nx := by
    unfold colHi
    omega
  unfold mwmColI mwmCol
  simp only [colLoI_nat, colHiI_nat]
  rw [show (min ((ry : Int) + 1) (g.ny : Int)).toNat = min (ry + 1) g.ny by omega, firstRows_nat g _ _ hlt hhi _ (fun y hy => by
    have := List.mem_range.1 hy
    omega)]
  cases enterAll add State.empty ((List.range (min (ry + 1) g.ny)).flatMap (seg g (colLo rx col) (colHi g.nx rx col))) with
  | error e => rfl
  | ok s =>
    simp only [bind, Except.bind]
    cases median add s.tree method with
    | error e => rfl
    | ok m =>
      simp only [loop2I_nat g _ _ ry hlt hhi]
      split
      · rfl
      · cases loop2 add g (colLo rx col) (colHi g.nx rx col) ry method (g.ny - 1) 1 s <;> rfl

theorem mapM_congr {α β ε : Type} (f f' : α → Except ε β) (l : List α) (h : ∀ a ∈ l, f a = f' a) : l.mapM f = l.mapM f' := by
  induction l with
  | nil => rfl
  | cons a l ih =>
    rw [List.mapM_cons, List.mapM_cons, h a List.mem_cons_self, ih fun b hb => h b (List.mem_cons_of_mem _ hb)]

theorem mwm2DI_nat (g : Grid Item) (sy sx : Nat) (method : Char) : mwm2DI add g sy sx method = mwm2D add g sy sx method := by
  unfold mwm2DI mwm2D
  rw [mapM_congr _ (mwmCol add g (sy / 2) (sx / 2) method) _ fun col hc => by
    rw [← mwmColI_nat g (sy / 2) (sx / 2) method col (List.mem_range.1 hc)]
    rfl]
  cases (List.range g.nx).mapM (mwmCol add g (sy / 2) (sx / 2) method) <;> rfl

/-- A tuple of positive odd sizes. -/
theorem moving2D_tuple (g : Grid Item) (ry rx : Nat) (method : Char) :
    moving2D add g (.tuple [2 * ry + 1, 2 * rx + 1]) method = moving2 add g (2 * ry + 1) (2 * rx + 1) method := by
  have e1 : (2 * (ry : Int) + 1) = ((2 * ry + 1 : Nat) : Int) := by omega
  have e2 : (2 * (rx : Int) + 1) = ((2 * rx + 1 : Nat) : Int) := by omega
  have e3 : ([2 * (ry : Int) + 1, 2 * (rx : Int) + 1].any fun n => decide (n % 2 = 0)) = false := by
    simp only [List.any_cons, List.any_nil, Bool.or_false, Bool.or_eq_false_iff, decide_eq_false_iff_not]
    omega
  have e4 : ¬ ((2 * ry + 1) % 2 = 0 ∨ (2 * rx + 1) % 2 = 0) := by omega
  simp only [moving2D, movingSeq, moving2, e3, if_neg e4, Bool.false_eq_true, if_false, if_true, List.reverse_cons, List.reverse_nil, List.nil_append, List.cons_append]
  rw [e1, e2, mwm2DI_nat, mwm2DI_nat]
  by_cases h : 2 * ry + 1 < 2 * rx + 1
  · rw [if_pos h, if_pos (by omega)]
    cases mwm2D add g.T (2 * rx + 1) (2 * ry + 1) method <;> rfl
  · rw [if_neg h, if_neg (by omega)]

/-- What the methods `lower` and `higher` should give. -/
def BagSide (method : Char) (b : List Item) (m : Rat) : Prop := if method = 'l' then BagLower b m else BagHigher b m

/-- **C18** methods `lower` and `higher`, every odd pair of sizes, where in no window half of the weight falls exactly between two elements.
Missing: windows with such ties (`C18_higher_violated`); NaN for windows without weight (`C18_nan_violated`). -/
theorem C18_lower_higher_partial (g : Grid Item) (hy : g.ny ≠ 0) (hx : g.nx ≠ 0) (hw : ∀ i j, i < g.ny → j < g.nx → 0 ≤ (g.get i j).w)
    (ry rx : Nat) (method : Char) (hm : method = 'l' ∨ method = 'h') (hties : ∀ i j, ¬ BagTie (window2 g ry rx i j)) :
    ∃ out, moving2D exact g (.tuple [2 * ry + 1, 2 * rx + 1]) method = .ok out ∧ out.ny = g.ny ∧ out.nx = g.nx ∧
      ∀ i j, i < g.ny → j < g.nx → window2 g ry rx i j ≠ [] → ∃ m, out.get i j = some (.val m) ∧ BagSide method (window2 g ry rx i j) m := by
  rw [moving2D_tuple]
  unfold moving2
  rw [if_neg (by omega)]
  by_cases hc : 2 * ry + 1 < 2 * rx + 1
  · rw [if_pos hc]
    have htie' : ∀ i j, ¬ BagTie (window2 g.T rx ry i j) := by
      rintro i j ⟨s, p, hs⟩
      exact hties j i ⟨s, p.trans (window2_T g ry rx j i), hs⟩
    obtain ⟨out, h1, h2, h3, h4⟩ := mwm2D_ok (g := g.T) (ry := rx) (rx := ry) hx (rule_first method hm)
      (fun i j => ⟨pos_window2 (g := g.T) (fun a b ha hb => hw b a hb ha) _ _ _ _, htie' i j⟩)
    refine ⟨out.T, by rw [h1]; rfl, h3, h2, fun i j hi hj hne => ?_⟩
    obtain ⟨o, a, b⟩ := h4 j i hj hi
    have hp := window2_T g ry rx i j
    obtain ⟨m, rfl, hs⟩ := b fun he => hne (by rw [he] at hp; exact (List.Perm.nil_eq hp).symm)
    refine ⟨m, a, ?_⟩
    unfold BagSide
    split at hs
    · rw [if_pos ‹_›]
      obtain ⟨s, p, hs⟩ := hs
      exact ⟨s, p.trans hp, hs⟩
    · rw [if_neg ‹_›]
      obtain ⟨s, p, hs⟩ := hs
      exact ⟨s, p.trans hp, hs⟩
  · rw [if_neg hc]
    obtain ⟨out, h1, h2, h3, h4⟩ := mwm2D_ok (g := g) (ry := ry) (rx := rx) hy (rule_first method hm)
      (fun i j => ⟨pos_window2 hw _ _ _ _, hties i j⟩)
    refine ⟨out, h1, h2, h3, fun i j hi hj hne => ?_⟩
    obtain ⟨o, a, b⟩ := h4 i j hi hj
    obtain ⟨m, rfl, hs⟩ := b hne
    exact ⟨m, a, hs⟩

theorem no_tie_short {s : List Item} (h : s.length ≤ 1) : ¬ Tie s := by
  rintro ⟨pre, x, y, post, rfl, -⟩
  simp only [List.length_append, List.length_cons] at h
  omega

theorem window2_00_short (g : Grid Item) (i j : Nat) : (window2 g 0 0 i j).length ≤ 1 := by
  have hf : ∀ n k : Nat, ((List.range n).filter fun y => decide (k ≤ y + 0 ∧ y ≤ k + 0)).length ≤ 1 := by
    intro n k
    rw [filter_range]
    simp only [idx, List.length_range']
    omega
  unfold window2
  refine Nat.le_trans (List.length_filter_le _ _) ?_
  have h1 := hf g.ny i
  have h2 := hf g.nx j
  generalize (List.range g.ny).filter _ = l1 at h1
  generalize (List.range g.nx).filter _ = l2 at h2
  match l1, h1 with
  | [], _ => simp
  | [y], _ => simpa using h2

/-- A case without ties: at most one item in each window. -/
example : ∃ out, moving2D exact grid32 (.tuple [1, 1]) 'h' = .ok out ∧ ∃ m, out.get 2 1 = some (.val m) ∧ BagHigher [⟨21, 1⟩] m := by
  obtain ⟨out, h1, -, -, h4⟩ := C18_lower_higher_partial grid32 (by decide) (by decide) (by intro i j _ _; simp only [grid32]; split <;> norm_num) 0 0 'h' (.inr rfl) (by
    rintro i j ⟨s, p, -, ht⟩
    exact no_tie_short (by rw [p.length_eq]; exact window2_00_short grid32 i j) ht)
  have hw2 : window2 grid32 0 0 2 1 = [⟨21, 1⟩] := by decide +kernel
  obtain ⟨m, k1, k2⟩ := h4 2 1 (by decide) (by decide) (by rw [hw2]; simp)
  rw [hw2] at k2
  exact ⟨out, h1, m, k1, k2⟩

/-- **C18** is violated for `higher`: a column 1, 2, 3, 4 with a window of five rows; row 1 has all four samples, whose higher median is 3, and the
output is 4. -/
theorem C18_higher_violated :
    BagHigher (window2 ⟨4, 1, fun i _ => ⟨(i + 1 : Nat), 1⟩⟩ 2 0 1 0) 3 ∧
    vals (moving2D exact ⟨4, 1, fun i _ => ⟨(i + 1 : Nat), 1⟩⟩ (.tuple [5, 1]) 'h') =
      [[some (.val 2)], [some (.val 4)], [some (.val 4)], [some (.val 3)]] := by
  refine ⟨⟨[⟨1, 1⟩, ⟨2, 1⟩, ⟨3, 1⟩, ⟨4, 1⟩], ?_, ?_, ?_⟩, by decide +kernel⟩
  · have : window2 ⟨4, 1, fun i _ => ⟨(i + 1 : Nat), 1⟩⟩ 2 0 1 0 = [⟨1, 1⟩, ⟨2, 1⟩, ⟨3, 1⟩, ⟨4, 1⟩] := by
      decide +kernel
    rw [this]
  · simp [Item.le]; norm_num
  · exact Or.inr ⟨[⟨1, 1⟩], ⟨2, 1⟩, ⟨3, 1⟩, [⟨4, 1⟩], rfl, by decide +kernel, rfl⟩

/-! ### All values of `size` -/

/-- **C18** sizes that are refused: zero, even sizes, fewer than two sizes, and numbers other than 0 and 1. -/
theorem C18_bad_sizes (add : Rat → Rat → Rat) (g : Grid Item) (method : Char) :
    moving2D add g (.int 0) method = .error .valueError ∧
    (∀ n, n ≠ 0 → n ≠ 1 → moving2D add g (.int n) method = .error .typeError) ∧
    (∀ l : List Int, (∃ n ∈ l, n % 2 = 0) → moving2D add g (.tuple l) method = .error .valueError ∧ moving2D add g (.list l) method = .error .valueError) ∧
    ∀ l : List Int, l.length < 2 → (∀ n ∈ l, n % 2 ≠ 0) → moving2D add g (.tuple l) method = .error .indexError ∧ moving2D add g (.list l) method = .error .indexError := by
  refine ⟨rfl, fun n h0 h1 => by simp [moving2D, h0, h1], fun l hl => ?_, fun l hl ho => ?_⟩
  · have : (l.any fun n => decide (n % 2 = 0)) = true := by simpa using hl
    simp [moving2D, movingSeq, this]
  · have : (l.any fun n => decide (n % 2 = 0)) = false := by simpa using ho
    simp only [moving2D, movingSeq, this]
    match l, hl with
    | [], _ => simp
    | [x], _ => simp

example : moving2D exact grid32 (.list [3]) 's' = .error .indexError :=
  ((C18_bad_sizes exact grid32 's').2.2.2 [3] (by decide) (by decide)).2

/-- **C18** the size 1: a sample with weight is returned as it is. -/
theorem C18_size_one_partial (add : Rat → Rat → Rat) (g : Grid Item) (method : Char) :
    ∃ out, moving2D add g (.int 1) method = .ok out ∧ out.ny = g.ny ∧ out.nx = g.nx ∧
      ∀ i j, i < g.ny → j < g.nx → (g.get i j).w ≠ 0 → out.get i j = some (.val (g.get i j).v) := by
  refine ⟨_, rfl, rfl, rfl, fun i j _ _ h => ?_⟩
  simp [whereWeight, h]

example : ∃ out, moving2D exact grid32 (.int 1) 's' = .ok out ∧ out.get 2 1 = some (.val 21) := by
  obtain ⟨out, h1, -, -, h⟩ := C18_size_one_partial exact grid32 's'
  exact ⟨out, h1, (h 2 1 (by decide) (by decide) (by decide)).trans (by decide +kernel)⟩

/-- **C18** (negation) The sizes as a list are accepted only if the first is smaller. -/
theorem C18_list_violated (add : Rat → Rat → Rat) (g : Grid Item) (sy sx : Int) (hy : sy % 2 ≠ 0) (hx : sx % 2 ≠ 0) (method : Char) :
    (sy < sx → moving2D add g (.list [sy, sx]) method = moving2D add g (.tuple [sy, sx]) method) ∧
      (sx ≤ sy → moving2D add g (.list [sy, sx]) method = .error .typeError) := by
  have : ([sy, sx].any fun n => decide (n % 2 = 0)) = false := by simp [hy, hx]
  refine ⟨fun h => ?_, fun h => ?_⟩
  · simp [moving2D, movingSeq, hy, hx, h]
  · have : ¬ sy < sx := by omega
    simp [moving2D, movingSeq, hy, hx, this]

example : moving2D exact grid32 (.list [3, 3]) 's' = .error .typeError :=
  (C18_list_violated exact grid32 3 3 (by decide) (by decide) 's').2 (by decide)

/-- **C18** (negation) More than two sizes are not refused. If the first is not smaller than the second, the others are not used; otherwise the last two are used, the last one along the columns. -/
theorem C18_more_sizes_violated (add : Rat → Rat → Rat) (g : Grid Item) (sy sx : Int) (l : List Int) (ho : ∀ n ∈ sy :: sx :: l, n % 2 ≠ 0) (method : Char) :
    (sx ≤ sy → moving2D add g (.tuple (sy :: sx :: l)) method = moving2D add g (.tuple [sy, sx]) method) ∧
    (∀ m a b, sy < sx → l = m ++ [a, b] → a < b → moving2D add g (.tuple (sy :: sx :: l)) method = moving2D add g (.tuple [a, b]) method) := by
  have e1 : ((sy :: sx :: l).any fun n => decide (n % 2 = 0)) = false := by
    rw [List.any_eq_false]
    intro n hn
    simpa using ho n hn
  have e2 : ([sy, sx].any fun n => decide (n % 2 = 0)) = false := by
    rw [List.any_eq_false]
    intro n hn
    simpa using ho n (by simp only [List.mem_cons, List.not_mem_nil, or_false] at hn ⊢; rcases hn with h | h <;> simp [h])
  refine ⟨fun h => ?_, fun m a b h hl hab => ?_⟩
  · have h' : ¬ sy < sx := by omega
    simp only [moving2D, movingSeq, e1, e2, if_neg h', Bool.false_eq_true, if_false, if_true]
  · subst hl
    have e3 : ([a, b].any fun n => decide (n % 2 = 0)) = false := by
      rw [List.any_eq_false]
      intro n hn
      simpa using ho n (by simp only [List.mem_cons, List.not_mem_nil, or_false, List.mem_append] at hn ⊢; rcases hn with h | h <;> simp [h])
    simp only [moving2D, movingSeq, e1, e3, if_pos h, if_pos hab, Bool.false_eq_true, if_false, List.reverse_cons, List.reverse_append, List.reverse_nil, List.nil_append, List.cons_append]

example : moving2D exact grid32 (.tuple [1, 3, 3, 5]) 's' = moving2D exact grid32 (.tuple [3, 5]) 's' ∧ moving2D exact grid32 (.tuple [3, 1, 7]) 's' = moving2D exact grid32 (.tuple [3, 1]) 's' :=
  ⟨(C18_more_sizes_violated exact grid32 1 3 [3, 5] (by decide) 's').2 [] 3 5 (by decide) rfl (by decide), (C18_more_sizes_violated exact grid32 3 1 [7] (by decide) 's').1 (by decide)⟩

theorem leaveN_zero (s : State) : leaveN add 0 s = .ok s := rfl

/-- A column with an empty window. -/
theorem mwmColI_neg (g : Grid Item) (hy : g.ny ≠ 0) (ry rx : Int) (hrx : rx < 0) (method : Char) (col : Nat) :
    mwmColI add g ry rx method col = .ok (List.replicate g.ny (.val 0)) := by
  have hle : colHiI g.nx rx col ≤ colLoI rx col := by
    unfold colHiI colLoI
    split <;> split <;> omega
  have hm : median add State.empty.tree method = .ok (.val 0) := median_empty inv_empty method
  have hrow : ∀ y s, enterRow add g (colLoI rx col) (colHiI g.nx rx col) y s = .ok s := fun y s => if_pos hle
  have hfirst : ∀ ys s, firstRows add g (colLoI rx col) (colHiI g.nx rx col) ys s = .ok s := by
    intro ys s
    induction ys with
    | nil => rfl
    | cons y ys ih =>
      rw [firstRows, hrow]
      exact ih
  have hloop : ∀ k row, loop2I add g (colLoI rx col) (colHiI g.nx rx col) ry method k row State.empty = .ok (List.replicate k (.val 0)) := by
    intro k
    induction k with
    | zero => intro row; rfl
    | succ k ih =>
      intro row
      have h1 : dropRowI add (colLoI rx col) (colHiI g.nx rx col) ry row State.empty = .ok State.empty := by
        unfold dropRowI
        split
        · rw [show (colHiI g.nx rx col - colLoI rx col).toNat = 0 by omega, leaveN_zero]
        · rfl
      have h2 : addRowI add g (colLoI rx col) (colHiI g.nx rx col) ry row State.empty = .ok State.empty := by
        unfold addRowI
        split
        · exact hrow _ _
        · rfl
      rw [loop2I, h1]
      simp only [h2, hm, ih, List.replicate_succ]
  unfold mwmColI
  simp only [hfirst, hm, hloop, if_neg hy]
  obtain ⟨n, hn⟩ := Nat.exists_eq_succ_of_ne_zero hy
  rw [hn]
  rfl

theorem mapM_const {α β ε : Type} (f : α → Except ε β) (b : β) (l : List α) (h : ∀ a ∈ l, f a = .ok b) : l.mapM f = .ok (List.replicate l.length b) := by
  induction l with
  | nil => rfl
  | cons a l ih =>
    rw [List.mapM_cons, h a List.mem_cons_self, ih fun b hb => h b (List.mem_cons_of_mem _ hb)]
    rfl

theorem mwm2DI_neg (g : Grid Item) (hy : g.ny ≠ 0) (sy sx : Int) (hsx : sx < 0) (method : Char) :
    ∃ out, mwm2DI add g sy sx method = .ok out ∧ out.ny = g.ny ∧ out.nx = g.nx ∧ ∀ i j, i < g.ny → j < g.nx → out.get i j = some (.val 0) := by
  unfold mwm2DI
  rw [mapM_const _ (List.replicate g.ny (.val 0)) _ fun col _ => mwmColI_neg g hy _ _ (by omega) method col]
  refine ⟨_, rfl, rfl, rfl, fun i j hi hj => ?_⟩
  simp [hi, hj]

/-- **C18** (negation) Negative odd sizes are not refused: if one of the sizes is negative the output is zero everywhere, whatever the data, the
weights and the method. -/
theorem C18_negative_violated (add : Rat → Rat → Rat) (g : Grid Item) (hy : g.ny ≠ 0) (hx : g.nx ≠ 0) (sy sx : Int) (h1 : sy % 2 ≠ 0) (h2 : sx % 2 ≠ 0)
    (hneg : sy < 0 ∨ sx < 0) (method : Char) :
    ∃ out, moving2D add g (.tuple [sy, sx]) method = .ok out ∧ out.ny = g.ny ∧ out.nx = g.nx ∧ ∀ i j, i < g.ny → j < g.nx → out.get i j = some (.val 0) := by
  have e : ([sy, sx].any fun n => decide (n % 2 = 0)) = false := by simp [h1, h2]
  by_cases h : sy < sx
  · obtain ⟨out, k1, k2, k3, k4⟩ := mwm2DI_neg (add := add) g.T hx sx sy (by omega) method
    refine ⟨out.T, ?_, k3, k2, fun i j hi hj => k4 j i hj hi⟩
    simp [moving2D, movingSeq, h1, h2, h, k1]
  · obtain ⟨out, k1, k2, k3, k4⟩ := mwm2DI_neg (add := add) g hy sy sx (by omega) method
    refine ⟨out, ?_, k2, k3, k4⟩
    simp [moving2D, movingSeq, h1, h2, h, k1]

example : ∃ out, moving2D exact grid32 (.tuple [3, -1]) 's' = .ok out ∧ out.get 2 1 = some (.val 0) := by
  obtain ⟨out, k1, -, -, k4⟩ := C18_negative_violated exact grid32 (by decide) (by decide) 3 (-1) (by decide) (by decide) (.inr (by decide)) 's'
  exact ⟨out, k1, k4 2 1 (by decide) (by decide)⟩

/-- **C18** method `split` as the function is called, with a tuple of two positive odd sizes. Missing: see `C18_moving2_partial`. -/
theorem C18_call_partial (g : Grid Item) (hy : g.ny ≠ 0) (hx : g.nx ≠ 0) (hw : ∀ i j, i < g.ny → j < g.nx → 0 ≤ (g.get i j).w)
    (sy sx : Int) (h1 : sy % 2 ≠ 0) (h2 : sx % 2 ≠ 0) (h3 : 0 < sy) (h4 : 0 < sx) :
    ∃ out, moving2D exact g (.tuple [sy, sx]) 's' = .ok out ∧ out.ny = g.ny ∧ out.nx = g.nx ∧
      ∀ i j, i < g.ny → j < g.nx → ∃ o, out.get i j = some o ∧
        (window2 g (sy / 2).toNat (sx / 2).toNat i j = [] → o = .val 0) ∧
        (window2 g (sy / 2).toNat (sx / 2).toNat i j ≠ [] → ∃ m, o = .val m ∧ BagMedian (window2 g (sy / 2).toNat (sx / 2).toNat i j) m) := by
  have e1 : sy = 2 * ((sy / 2).toNat : Int) + 1 := by omega
  have e2 : sx = 2 * ((sx / 2).toNat : Int) + 1 := by omega
  generalize (sy / 2).toNat = ry at *
  generalize (sx / 2).toNat = rx at *
  rw [e1, e2, moving2D_tuple]
  exact C18_moving2_partial g hy hx hw ry rx

example : ∃ out, moving2D exact grid32 (.tuple [3, 1]) 's' = .ok out ∧ out.ny = 3 := by
  obtain ⟨out, k1, k2, -⟩ := C18_call_partial grid32 (by decide) (by decide) (by intro i j _ _; simp only [grid32]; split <;> norm_num) 3 1 (by decide) (by decide) (by decide) (by decide)
  exact ⟨out, k1, k2⟩

end Verif.Moving
