import Verif.Moving.Spec
import Verif.Median.MedLemmas

/-! # Helper lemmas for C17 and C18 -/
namespace Verif.Moving
open Verif.Median

variable {add : Rat → Rat → Rat}

/-- Elements of non-zero weight. -/
def nz (xs : List Item) : List Item := xs.filter fun x => decide (x.w ≠ 0)

/-- What is queued for an element. -/
def norm (x : Item) : Item := if x.w ≠ 0 then x else dummy

/-- The queue holds the elements `q` in order, the tree those of non-zero weight. -/
structure SInv (add : Rat → Rat → Rat) (s : State) (q : List Item) : Prop where
  fifo : s.fifo = q.map norm
  tree : Inv add s.tree (nz q)

theorem sinv_empty : SInv add State.empty [] := ⟨rfl, inv_empty⟩

theorem enter_ok {s : State} {q : List Item} (h : SInv add s q) (x : Item) :
    ∃ s', enter add s x = .ok s' ∧ SInv add s' (q ++ [x]) := by
  by_cases hx : x.w = 0
  · refine ⟨⟨s.tree, s.fifo ++ [dummy]⟩, by simp [enter, hx, pure, Except.pure], ?_, ?_⟩
    · simp [h.fifo, norm, hx]
    · have : nz (q ++ [x]) = nz q := by simp [nz, hx]
      rw [this]; exact h.tree
  · obtain ⟨t, e, ht⟩ := inv_insert h.tree x
    refine ⟨⟨t, s.fifo ++ [x]⟩, by simp [enter, hx, e, orCrash, bind, Except.bind, pure, Except.pure],
      ?_, ?_⟩
    · simp [h.fifo, norm, hx]
    · have : nz (q ++ [x]) = nz q ++ [x] := by simp [nz, hx]
      rw [this]; exact ht

theorem leave_ok {s : State} {x : Item} {q : List Item} (h : SInv add s (x :: q)) :
    ∃ s', leave add s = .ok s' ∧ SInv add s' q := by
  have hf := h.fifo
  simp only [List.map_cons] at hf
  by_cases hx : x.w = 0
  · refine ⟨⟨s.tree, q.map norm⟩, ?_, rfl, ?_⟩
    · simp [leave, hf, norm, hx, dummy, pure, Except.pure]
    · have : nz (x :: q) = nz q := by simp [nz, hx]
      have ht := h.tree
      rw [this] at ht
      exact ht
  · obtain ⟨t, e, ht⟩ := inv_remove h.tree x
    have e1 : nz (x :: q) = x :: nz q := by simp [nz, hx]
    rw [e1] at e ht
    refine ⟨⟨t, q.map norm⟩, ?_, rfl, ?_⟩
    · simp [leave, hf, norm, hx, removeNode, e, orCrash, bind, Except.bind, pure, Except.pure]
    · simpa using ht

theorem enterAll_ok (xs : List Item) {s : State} {q : List Item} (h : SInv add s q) :
    ∃ s', enterAll add s xs = .ok s' ∧ SInv add s' (q ++ xs) := by
  induction xs generalizing s q with
  | nil => exact ⟨s, rfl, by simpa using h⟩
  | cons x xs ih =>
    obtain ⟨s1, e1, h1⟩ := enter_ok h x
    obtain ⟨s2, e2, h2⟩ := ih h1
    refine ⟨s2, ?_, by simpa using h2⟩
    simp only [enterAll, List.foldlM_cons, e1] at *
    exact e2

theorem leaveN_ok (xs : List Item) {s : State} {q : List Item} (h : SInv add s (xs ++ q)) :
    ∃ s', leaveN add xs.length s = .ok s' ∧ SInv add s' q := by
  induction xs generalizing s with
  | nil => exact ⟨s, rfl, by simpa using h⟩
  | cons x xs ih =>
    obtain ⟨s1, e1, h1⟩ := leave_ok (x := x) (q := xs ++ q) (by simpa using h)
    obtain ⟨s2, e2, h2⟩ := ih h1
    refine ⟨s2, ?_, h2⟩
    simp only [List.length_cons, leaveN, e1]
    exact e2

/-! ## Index windows -/

/-- Indices of the window around `i`. -/
def idx (n r i : Nat) : List Nat := List.range' (i - r) (min (i + r + 1) n - (i - r))

/-- Indices after dropping the left edge and before adding the right edge. -/
def mid (n r i : Nat) : List Nat := List.range' (i - r) (min (i + r) n - (i - r))

theorem idx_drop {n r i : Nat} (h0 : 1 ≤ i) (hi : i < n) (h : r + 1 ≤ i) :
    idx n r (i - 1) = (i - 1 - r) :: mid n r i := by
  unfold idx mid
  have e : min (i - 1 + r + 1) n - (i - 1 - r) = (min (i + r) n - (i - r)) + 1 := by omega
  rw [e, List.range'_succ]
  congr 2
  omega

theorem idx_keep {n r i : Nat} (h0 : 1 ≤ i) (h : ¬ r + 1 ≤ i) :
    idx n r (i - 1) = mid n r i := by
  unfold idx mid
  have e1 : i - 1 - r = i - r := by omega
  have e2 : min (i - 1 + r + 1) n = min (i + r) n := by omega
  rw [e1, e2]

theorem idx_add {n r i : Nat} (h : i + r < n) : idx n r i = mid n r i ++ [i + r] := by
  unfold idx mid
  have e : min (i + r + 1) n - (i - r) = (min (i + r) n - (i - r)) + 1 := by omega
  rw [e, List.range'_concat]
  congr 2
  omega

theorem idx_end {n r i : Nat} (h : ¬ i + r < n) : idx n r i = mid n r i := by
  unfold idx mid
  have e : min (i + r + 1) n = min (i + r) n := by omega
  rw [e]

theorem idx_zero (n r : Nat) : idx n r 0 = List.range (min (r + 1) n) := by
  simp [idx, List.range_eq_range']

theorem filter_range (n r i : Nat) :
    ((List.range n).filter fun j => decide (i ≤ j + r ∧ j ≤ i + r)) = idx n r i := by
  induction n with
  | zero => simp [idx]
  | succ n ih =>
    rw [List.range_succ, List.filter_append, ih]
    unfold idx
    by_cases h : i ≤ n + r ∧ n ≤ i + r
    · have e : min (i + r + 1) (n + 1) - (i - r) = (min (i + r + 1) n - (i - r)) + 1 := by omega
      rw [e, List.range'_concat]
      simp only [List.filter_cons, h, decide_true, and_self, if_true, List.filter_nil]
      congr 2
      omega
    · have e : min (i + r + 1) (n + 1) - (i - r) = min (i + r + 1) n - (i - r) := by omega
      rw [e]
      simp [List.filter_cons, h]

/-! ## Outputs -/

theorem bag_of_inv {t : MTree} {b : List Item} (h : Inv exact t b) (hp : Pos b) (hne : b ≠ []) :
    ∃ m, median exact t 's' = .ok (.val m) ∧ BagMedian b m := by
  have hp' : Pos (items t.root) := fun x hx => hp x (h.perm.mem_iff.mp hx)
  have hne' : items t.root ≠ [] := fun e => hne (by
    have := h.perm; rw [e] at this; exact List.Perm.nil_eq this |>.symm)
  obtain ⟨m, e, hm⟩ := split_good h.good hp' hne'
  exact ⟨m, by simp [median, e], items t.root, h.perm, h.sorted, hm⟩

theorem median_empty {t : MTree} (h : Inv add t []) (method : Char) :
    median add t method = .ok (.val 0) := by
  have : t.root = .nil := by
    have hp := h.perm.length_eq
    cases ht : t.root with
    | nil => rfl
    | node l d lh rh lw rw r => rw [ht] at hp; simp [items] at hp
  simp [median, this, weightedMedian]

theorem pos_nz {q : List Item} (h : ∀ x ∈ q, 0 ≤ x.w) : Pos (nz q) := by
  intro x hx
  simp only [nz, List.mem_filter, decide_eq_true_eq] at hx
  exact lt_of_le_of_ne (h x hx.1) (Ne.symm hx.2)

/-- A rule giving outputs for tree states: `Spec b o` must be met for contents `b`. -/
structure Rule (f : MTree → Except Err Out) (add : Rat → Rat → Rat) (P : List Item → Prop)
    (Spec : List Item → Out → Prop) : Prop where
  run : ∀ t b, P b → Inv add t b → ∃ o, f t = .ok o ∧ Spec b o

/-! ## One dimension -/

theorem take_idx (data : List Item) (r : Nat) :
    data.take (min (r + 1) data.length) = (idx data.length r 0).filterMap fun j => data[j]? := by
  rw [idx_zero]
  apply List.ext_getElem?
  intro k
  have : ∀ m, m ≤ data.length → (List.range m).filterMap (fun j => data[j]?) = data.take m := by
    intro m hm
    induction m with
    | zero => simp
    | succ m ih =>
      rw [List.range_succ, List.filterMap_append, ih (by omega), List.take_succ_eq_append_getElem (by omega)]
      simp [List.getElem?_eq_getElem (show m < data.length by omega)]
  rw [this _ (by omega)]

/-- The elements at the indices of a list. -/
def at' (data : List Item) (l : List Nat) : List Item := l.filterMap fun j => data[j]?

theorem dropEdge_ok {data : List Item} {r i : Nat} {s : State} (h0 : 1 ≤ i) (hi : i < data.length)
    (h : SInv add s (at' data (idx data.length r (i - 1)))) :
    ∃ s', dropEdge add r i s = .ok s' ∧ SInv add s' (at' data (mid data.length r i)) := by
  unfold dropEdge
  by_cases hc : r + 1 ≤ i
  · rw [if_pos (by omega)]
    rw [idx_drop h0 hi hc] at h
    have hlt : i - 1 - r < data.length := by omega
    rw [at', List.filterMap_cons, List.getElem?_eq_getElem hlt] at h
    exact leave_ok h
  · rw [if_neg (by omega)]
    rw [idx_keep h0 hc] at h
    exact ⟨s, rfl, h⟩

theorem addEdge_ok {data : List Item} {r i : Nat} {s : State}
    (h : SInv add s (at' data (mid data.length r i))) :
    ∃ s', addEdge add data r i s = .ok s' ∧ SInv add s' (at' data (idx data.length r i)) := by
  unfold addEdge
  by_cases hc : i + r < data.length
  · rw [if_pos (by omega)]
    have e : ((i : Int) + (r : Int)).toNat = i + r := by omega
    rw [enterAt, e, List.getElem?_eq_getElem hc]
    obtain ⟨s', e', h'⟩ := enter_ok h data[i + r]
    refine ⟨s', e', ?_⟩
    rw [idx_add hc]
    simpa [at', List.getElem?_eq_getElem hc] using h'
  · rw [if_neg (by omega), idx_end hc]
    exact ⟨s, rfl, h⟩

/-- The loop in one dimension: each output meets the specification of its window. -/
theorem loop1_ok {data : List Item} {r : Nat} {method : Char} {P : List Item → Prop}
    {Spec : List Item → Out → Prop}
    (rule : Rule (fun t => output add t method) add P Spec)
    (hP : ∀ i, P (nz (at' data (idx data.length r i)))) (k i : Nat) (s : State) (h0 : 1 ≤ i)
    (hk : i + k = data.length)
    (h : SInv add s (at' data (idx data.length r (i - 1)))) :
    ∃ outs, loop1 add data r method k i s = .ok outs ∧ outs.length = k ∧
      ∀ j, j < k → ∃ o, outs[j]? = some o ∧ Spec (nz (at' data (idx data.length r (i + j)))) o := by
  induction k generalizing i s with
  | zero => exact ⟨[], rfl, rfl, fun j hj => absurd hj (by omega)⟩
  | succ k ih =>
    obtain ⟨s1, e1, h1⟩ := dropEdge_ok h0 (by omega) h
    obtain ⟨s2, e2, h2⟩ := addEdge_ok h1
    obtain ⟨o, e3, h3⟩ := rule.run s2.tree _ (hP i) h2.tree
    obtain ⟨outs, e4, hl, h4⟩ := ih (i + 1) s2 (by omega) (by omega) (by simpa using h2)
    refine ⟨o :: outs, ?_, by simp [hl], ?_⟩
    · simp only [loop1, e1, e2, e3, e4, bind, Except.bind, pure, Except.pure]
    · intro j hj
      cases j with
      | zero => exact ⟨o, rfl, h3⟩
      | succ j =>
        obtain ⟨o', ho, hs⟩ := h4 j (by omega)
        refine ⟨o', by simpa using ho, ?_⟩
        have : i + (j + 1) = i + 1 + j := by omega
        rw [this]; exact hs

theorem mwm1D_ok {data : List Item} {r : Nat} {method : Char} {P : List Item → Prop}
    {Spec Spec0 : List Item → Out → Prop} (hn : data ≠ [])
    (rule0 : Rule (fun t => median add t method) add P Spec0)
    (rule : Rule (fun t => output add t method) add P Spec)
    (hP : ∀ i, P (nz (at' data (idx data.length r i)))) :
    ∃ outs, mwm1D add data (2 * r + 1) method = .ok outs ∧ outs.length = data.length ∧
      (∃ o, outs[0]? = some o ∧ Spec0 (nz (at' data (idx data.length r 0))) o) ∧
      ∀ i, 1 ≤ i → i < data.length →
        ∃ o, outs[i]? = some o ∧ Spec (nz (at' data (idx data.length r i))) o := by
  have hlen : data.length ≠ 0 := by simpa using hn
  have hr : (2 * (r : Int) + 1) / 2 = r := by omega
  have ht : (min ((r : Int) + 1) data.length).toNat = min (r + 1) data.length := by omega
  obtain ⟨s, e0, h0⟩ := enterAll_ok (add := add) (data.take (min (r + 1) data.length)) sinv_empty
  rw [List.nil_append, take_idx] at h0
  obtain ⟨o, e1, h1⟩ := rule0.run s.tree _ (hP 0) h0.tree
  obtain ⟨outs, e2, hl, h2⟩ := loop1_ok rule hP (data.length - 1) 1 s (by omega) (by omega)
    (by simpa [at'] using h0)
  refine ⟨o :: outs, ?_, by simp [hl]; omega, ⟨o, rfl, h1⟩, ?_⟩
  · simp only [mwm1D, hr, ht, e0, e1, e2, bind, Except.bind, if_neg hlen, pure, Except.pure]
  · intro i hi hi'
    obtain ⟨i, rfl⟩ : ∃ k, i = k + 1 := ⟨i - 1, by omega⟩
    obtain ⟨o', ho, hs⟩ := h2 i (by omega)
    refine ⟨o', by simpa using ho, ?_⟩
    have : 1 + i = i + 1 := by omega
    rw [this] at hs
    exact hs

theorem window_idx (data : List Item) (r i : Nat) :
    window data r i = nz (at' data (idx data.length r i)) := by
  rw [window, filter_range]; rfl

/-! ## Two dimensions -/

theorem window2_idx (g : Grid Item) (ry rx i j : Nat) :
    window2 g ry rx i j =
      nz ((idx g.ny ry i).flatMap (seg g (colLo rx j) (colHi g.nx rx j))) := by
  rw [window2, filter_range, filter_range]
  unfold nz seg idx colLo colHi
  have e : min (j + rx + 1) g.nx = min g.nx (j + rx + 1) := by omega
  rw [e]

theorem seg_length (g : Grid Item) (lo hi y : Nat) : (seg g lo hi y).length = hi - lo := by
  simp [seg]

theorem dropRow_ok {g : Grid Item} {lo hi ry i : Nat} {s : State} (h0 : 1 ≤ i) (hi' : i < g.ny)
    (h : SInv add s ((idx g.ny ry (i - 1)).flatMap (seg g lo hi))) :
    ∃ s', dropRow add lo hi ry i s = .ok s' ∧ SInv add s' ((mid g.ny ry i).flatMap (seg g lo hi)) := by
  unfold dropRow
  by_cases hc : ry + 1 ≤ i
  · rw [if_pos (by omega)]
    rw [idx_drop h0 hi' hc, List.flatMap_cons] at h
    have := leaveN_ok _ h
    rwa [seg_length] at this
  · rw [if_neg (by omega)]
    rw [idx_keep h0 hc] at h
    exact ⟨s, rfl, h⟩

theorem addRow_ok {g : Grid Item} {lo hi ry i : Nat} {s : State}
    (h : SInv add s ((mid g.ny ry i).flatMap (seg g lo hi))) :
    ∃ s', addRow add g lo hi ry i s = .ok s' ∧
      SInv add s' ((idx g.ny ry i).flatMap (seg g lo hi)) := by
  unfold addRow
  by_cases hc : i + ry < g.ny
  · rw [if_pos hc, idx_add hc]
    obtain ⟨s', e', h'⟩ := enterAll_ok (seg g lo hi (i + ry)) h
    exact ⟨s', e', by simpa using h'⟩
  · rw [if_neg hc, idx_end hc]
    exact ⟨s, rfl, h⟩

theorem loop2_ok {g : Grid Item} {lo hi ry : Nat} {method : Char} {P : List Item → Prop}
    {Spec : List Item → Out → Prop}
    (rule : Rule (fun t => median add t method) add P Spec)
    (hP : ∀ i, P (nz ((idx g.ny ry i).flatMap (seg g lo hi)))) (k i : Nat) (s : State) (h0 : 1 ≤ i)
    (hk : i + k = g.ny)
    (h : SInv add s ((idx g.ny ry (i - 1)).flatMap (seg g lo hi))) :
    ∃ outs, loop2 add g lo hi ry method k i s = .ok outs ∧ outs.length = k ∧
      ∀ j, j < k → ∃ o, outs[j]? = some o ∧
        Spec (nz ((idx g.ny ry (i + j)).flatMap (seg g lo hi))) o := by
  induction k generalizing i s with
  | zero => exact ⟨[], rfl, rfl, fun j hj => absurd hj (by omega)⟩
  | succ k ih =>
    obtain ⟨s1, e1, h1⟩ := dropRow_ok h0 (by omega) h
    obtain ⟨s2, e2, h2⟩ := addRow_ok h1
    obtain ⟨o, e3, h3⟩ := rule.run s2.tree _ (hP i) h2.tree
    obtain ⟨outs, e4, hl, h4⟩ := ih (i + 1) s2 (by omega) (by omega) (by simpa using h2)
    refine ⟨o :: outs, ?_, by simp [hl], ?_⟩
    · simp only [loop2, e1, e2, e3, e4, bind, Except.bind, pure, Except.pure]
    · intro j hj
      cases j with
      | zero => exact ⟨o, rfl, h3⟩
      | succ j =>
        obtain ⟨o', ho, hs⟩ := h4 j (by omega)
        refine ⟨o', by simpa using ho, ?_⟩
        have : i + (j + 1) = i + 1 + j := by omega
        rw [this]; exact hs

theorem mwmCol_ok {g : Grid Item} {ry rx : Nat} {method : Char} {P : List Item → Prop}
    {Spec : List Item → Out → Prop} (hn : g.ny ≠ 0)
    (rule : Rule (fun t => median add t method) add P Spec)
    (hP : ∀ i j, P (window2 g ry rx i j)) (col : Nat) :
    ∃ outs, mwmCol add g ry rx method col = .ok outs ∧ outs.length = g.ny ∧
      ∀ i, i < g.ny → ∃ o, outs[i]? = some o ∧ Spec (window2 g ry rx i col) o := by
  have hP' : ∀ i, P (nz ((idx g.ny ry i).flatMap (seg g (colLo rx col) (colHi g.nx rx col)))) :=
    fun i => by rw [← window2_idx]; exact hP i col
  obtain ⟨s, e0, h0⟩ := enterAll_ok (add := add)
    ((List.range (min (ry + 1) g.ny)).flatMap (seg g (colLo rx col) (colHi g.nx rx col))) sinv_empty
  rw [List.nil_append, ← idx_zero] at h0
  obtain ⟨o, e1, h1⟩ := rule.run s.tree _ (hP' 0) h0.tree
  obtain ⟨outs, e2, hl, h2⟩ := loop2_ok rule hP' (g.ny - 1) 1 s (by omega) (by omega)
    (by simpa using h0)
  refine ⟨o :: outs, ?_, by simp [hl]; omega, ?_⟩
  · simp only [mwmCol, e0, e1, e2, bind, Except.bind, if_neg hn, pure, Except.pure]
  · intro i hi
    cases i with
    | zero => exact ⟨o, rfl, by rw [window2_idx]; exact h1⟩
    | succ i =>
      obtain ⟨o', ho, hs⟩ := h2 i (by omega)
      refine ⟨o', by simpa using ho, ?_⟩
      have : 1 + i = i + 1 := by omega
      rw [this] at hs
      rw [window2_idx]; exact hs

theorem mapM_ok {α β ε : Type} (f : α → Except ε β) (Q : α → β → Prop) (l : List α)
    (h : ∀ a ∈ l, ∃ b, f a = .ok b ∧ Q a b) :
    ∃ bs, l.mapM f = .ok bs ∧ List.Forall₂ Q l bs := by
  induction l with
  | nil => exact ⟨[], rfl, .nil⟩
  | cons a l ih =>
    obtain ⟨b, hb, hq⟩ := h a (by simp)
    obtain ⟨bs, hbs, hqs⟩ := ih fun a' ha => h a' (by simp [ha])
    refine ⟨b :: bs, ?_, .cons hq hqs⟩
    rw [List.mapM_cons, hb, hbs]; rfl

theorem forall₂_get {α β : Type} {Q : α → β → Prop} {l : List α} {m : List β}
    (h : List.Forall₂ Q l m) (i : Nat) (a : α) (ha : l[i]? = some a) :
    ∃ b, m[i]? = some b ∧ Q a b := by
  induction h generalizing i with
  | nil => simp at ha
  | cons hq _ ih =>
    cases i with
    | zero => simp at ha; subst ha; exact ⟨_, rfl, hq⟩
    | succ i => simpa using ih i (by simpa using ha)

theorem mwm2D_ok {g : Grid Item} {ry rx : Nat} {method : Char} {P : List Item → Prop}
    {Spec : List Item → Out → Prop} (hn : g.ny ≠ 0)
    (rule : Rule (fun t => median add t method) add P Spec)
    (hP : ∀ i j, P (window2 g ry rx i j)) :
    ∃ out, mwm2D add g (2 * ry + 1) (2 * rx + 1) method = .ok out ∧ out.ny = g.ny ∧ out.nx = g.nx ∧
      ∀ i j, i < g.ny → j < g.nx →
        ∃ o, out.get i j = some o ∧ Spec (window2 g ry rx i j) o := by
  have e1 : (2 * ry + 1) / 2 = ry := by omega
  have e2 : (2 * rx + 1) / 2 = rx := by omega
  obtain ⟨cols, hc, hq⟩ := mapM_ok (mwmCol add g ry rx method)
    (fun col outs => ∀ i, i < g.ny → ∃ o, outs[i]? = some o ∧ Spec (window2 g ry rx i col) o)
    (List.range g.nx) (fun col _ => by
      obtain ⟨outs, h1, _, h2⟩ := mwmCol_ok hn rule hP col
      exact ⟨outs, h1, h2⟩)
  refine ⟨⟨g.ny, g.nx, fun i j => (cols[j]?).bind (·[i]?)⟩, ?_, rfl, rfl, ?_⟩
  · simp only [mwm2D, e1, e2, hc, bind, Except.bind, pure, Except.pure]
  · intro i j hi hj
    obtain ⟨outs, ho, hs⟩ := forall₂_get hq j j (by simp [hj])
    obtain ⟨o, h1, h2⟩ := hs i hi
    exact ⟨o, by simp [ho, h1], h2⟩

theorem perm_flatMap_swap {α : Type} (f : Nat → Nat → α) (l m : List Nat) :
    (l.flatMap fun y => m.map fun x => f y x).Perm (m.flatMap fun x => l.map fun y => f y x) := by
  induction l with
  | nil => simp
  | cons y l ih =>
    simp only [List.flatMap_cons, List.map_cons]
    refine (ih.append_left _).trans ?_
    clear ih
    induction m with
    | nil => simp
    | cons x m ih =>
      simp only [List.map_cons, List.flatMap_cons, List.cons_append]
      refine List.Perm.cons _ ?_
      have h1 : (List.map (fun x => f y x) m ++
          (List.map (fun y => f y x) l ++ List.flatMap (fun x => List.map (fun y => f y x) l) m)).Perm
          (List.map (fun y => f y x) l ++ (List.map (fun x => f y x) m ++
            List.flatMap (fun x => List.map (fun y => f y x) l) m)) := by
        rw [← List.append_assoc, ← List.append_assoc]
        exact List.perm_append_comm.append_right _
      exact h1.trans (ih.append_left _)

/-- The window of the transposed array holds the same items. -/
theorem window2_T (g : Grid Item) (ry rx i j : Nat) :
    (window2 g.T rx ry j i).Perm (window2 g ry rx i j) :=
  (perm_flatMap_swap (fun x y => g.get y x) _ _).filter _

end Verif.Moving
