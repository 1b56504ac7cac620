import Verif.Median.Lemmas

/-! # Helper lemmas for C16: the median of a good tree -/
namespace Verif.Median

@[simp] theorem wt_nil : wt [] = 0 := rfl
@[simp] theorem wt_cons (x : Item) (xs : List Item) : wt (x :: xs) = x.w + wt xs := by simp [wt]
@[simp] theorem wt_append (xs ys : List Item) : wt (xs ++ ys) = wt xs + wt ys := by simp [wt]

/-- All weights are positive. -/
def Pos (xs : List Item) : Prop := ∀ x ∈ xs, 0 < x.w

theorem wt_nonneg {xs : List Item} (h : Pos xs) : 0 ≤ wt xs := by
  induction xs with
  | nil => simp
  | cons x xs ih =>
    have h1 := h x (by simp)
    have h2 := ih (fun y hy => h y (by simp [hy]))
    rw [wt_cons]; linarith

theorem wt_pos {xs : List Item} (h : Pos xs) (hne : xs ≠ []) : 0 < wt xs := by
  cases xs with
  | nil => exact absurd rfl hne
  | cons x xs =>
    have h1 := h x (by simp)
    have h2 := wt_nonneg (xs := xs) (fun y hy => h y (by simp [hy]))
    rw [wt_cons]; linarith

/-- Items before, respectively after, the subtree a path leads to. -/
def upBefore : List Frame → List Item
  | [] => []
  | .left _ _ _ _ _ _ :: up => upBefore up
  | .right l d _ _ _ _ :: up => upBefore up ++ (items l ++ [d])

def upAfter : List Frame → List Item
  | [] => []
  | .left d _ _ _ _ r :: up => d :: items r ++ upAfter up
  | .right _ _ _ _ _ _ :: up => upAfter up

def Cursor.before (c : Cursor) : List Item := upBefore c.up ++ items c.l
def Cursor.after (c : Cursor) : List Item := items c.r ++ upAfter c.up

/-- The cached weights and the own weight of every node have a property. -/
def NnP (P : Rat → Rat → Rat → Prop) : Tree → Prop
  | .nil => True
  | .node l d _ _ lw rw r => NnP P l ∧ NnP P r ∧ P lw rw d.w

def NnUpP (P : Rat → Rat → Rat → Prop) : List Frame → Prop
  | [] => True
  | .left d _ _ lw rw r :: up => P lw rw d.w ∧ NnP P r ∧ NnUpP P up
  | .right l d _ _ lw rw :: up => P lw rw d.w ∧ NnP P l ∧ NnUpP P up

/-- Cached weights are not negative. -/
abbrev Nn : Tree → Prop := NnP fun lw rw w => 0 ≤ lw ∧ 0 ≤ rw ∧ 0 < w

abbrev NnUp : List Frame → Prop := NnUpP fun lw rw w => 0 ≤ lw ∧ 0 ≤ rw ∧ 0 < w

theorem good_nn (t : Tree) (h : Good exact t) (hp : Pos (items t)) : Nn t := by
  induction t with
  | nil => trivial
  | node l d lh rh lw rw r ihl ihr =>
    obtain ⟨gl, gr, _, _, rfl, rfl, _⟩ := h
    have pl : Pos (items l) := fun x hx => hp x (by simp [items, hx])
    have pr : Pos (items r) := fun x hx => hp x (by simp [items, hx])
    refine ⟨ihl gl pl, ihr gr pr, ?_, ?_, hp d (by simp [items])⟩
    · rw [wsum_exact]; exact wt_nonneg pl
    · rw [wsum_exact]; exact wt_nonneg pr

/-- What the descent of `weighted_median` ends with. -/
theorem descend_ok (mid : Rat) (t : Tree) (up : List Frame) (g : Good exact t) (n : Nn t)
    (nu : NnUp up) (ht : wt (upBefore up) + wt (items t) + wt (upAfter up) = 2 * mid)
    (hb : wt (upBefore up) < mid) (ha : wt (upAfter up) < mid) :
    ∃ c, descend exact mid t up (wt (upBefore up)) (wt (upAfter up)) =
        some (c, wt (upBefore c.up), wt (upAfter c.up)) ∧
      c.before ++ c.d :: c.after = upBefore up ++ items t ++ upAfter up ∧
      c.lw = wt (items c.l) ∧ c.rw = wt (items c.r) ∧ Nn c.tree ∧ NnUp c.up ∧
      wt c.before ≤ mid ∧ wt c.after ≤ mid ∧ wt (upBefore c.up) < mid ∧ wt (upAfter c.up) < mid := by
  induction t generalizing up with
  | nil => simp [items] at ht; linarith
  | node l d lh rh lw rw r ihl ihr =>
    have n0 := n
    obtain ⟨gl, gr, rfl, rfl, rfl, rfl, _⟩ := g
    obtain ⟨nl, nr, h1, h2, h3⟩ := n
    rw [wsum_exact] at h1 h2
    simp only [items, wt_append, wt_cons] at ht
    unfold descend
    simp only [wsum_exact, exact]
    by_cases c1 : mid < wt (items l) + wt (upBefore up)
    · rw [if_pos c1]
      have e1 : wt (upAfter up) + (wt (items r) + d.w) =
          wt (upAfter (.left d (height l) (height r) (wt (items l)) (wt (items r)) r :: up)) := by
        simp [upAfter]; ring
      rw [e1]
      obtain ⟨c, hc, hi, rest⟩ := ihl
        (.left d (height l) (height r) (wt (items l)) (wt (items r)) r :: up) gl nl
        ⟨⟨h1, h2, h3⟩, nr, nu⟩ (by simp [upBefore, upAfter]; linarith) (by simpa [upBefore] using hb)
        (by simp [upAfter]; linarith)
      refine ⟨c, ?_, ?_, rest⟩
      · rw [← hc]; simp [upBefore]
      · rw [hi]; simp [upBefore, upAfter, items]
    · rw [if_neg c1]
      by_cases c2 : mid < wt (items r) + wt (upAfter up)
      · rw [if_pos c2]
        have e1 : wt (upBefore up) + (wt (items l) + d.w) =
            wt (upBefore (.right l d (height l) (height r) (wt (items l)) (wt (items r)) :: up)) := by
          simp [upBefore]
        rw [e1]
        obtain ⟨c, hc, hi, rest⟩ := ihr
          (.right l d (height l) (height r) (wt (items l)) (wt (items r)) :: up) gr nr
          ⟨⟨h1, h2, h3⟩, nl, nu⟩ (by simp [upBefore, upAfter]; linarith)
          (by simp [upBefore]; linarith) (by simpa [upAfter] using ha)
        refine ⟨c, ?_, ?_, rest⟩
        · rw [← hc]; simp [upAfter]
        · rw [hi]; simp [upBefore, upAfter, items]
      · rw [if_neg c2]
        refine ⟨_, rfl, ?_, rfl, rfl, ?_, nu, ?_, ?_, hb, ha⟩
        · simp [Cursor.before, Cursor.after, items]
        · exact ⟨nl, nr, h1, h2, h3⟩
        · simp only [Cursor.before, wt_append]; linarith
        · simp only [Cursor.after, wt_append]; linarith

variable {P : Rat → Rat → Rat → Prop}

theorem findMax_ok (t : Tree) (up : List Frame) (hne : t ≠ .nil) (n : NnP P t) (nu : NnUpP P up) :
    ∃ c, findMax t up = some c ∧ c.before ++ [c.d] = upBefore up ++ items t ∧
      NnP P c.tree ∧ NnUpP P c.up := by
  induction t generalizing up with
  | nil => exact absurd rfl hne
  | node l d lh rh lw rw r ihl ihr =>
    have n0 := n
    obtain ⟨nl, nr, h1⟩ := n
    cases r with
    | nil => exact ⟨⟨l, d, lh, rh, lw, rw, .nil, up⟩, by rw [findMax],
        by simp [Cursor.before, items], n0, nu⟩
    | node a b c e f g k =>
      obtain ⟨c', hc, hb, r1, r2⟩ := ihr (.right l d lh rh lw rw :: up) (by simp) nr
        ⟨h1, nl, nu⟩
      refine ⟨c', by rw [findMax]; exact hc; simp, ?_, r1, r2⟩
      rw [hb]; simp [upBefore, items]

theorem findMin_ok (t : Tree) (up : List Frame) (hne : t ≠ .nil) (n : NnP P t) (nu : NnUpP P up) :
    ∃ c, findMin t up = some c ∧ c.d :: c.after = items t ++ upAfter up ∧
      NnP P c.tree ∧ NnUpP P c.up := by
  induction t generalizing up with
  | nil => exact absurd rfl hne
  | node l d lh rh lw rw r ihl ihr =>
    have n0 := n
    obtain ⟨nl, nr, h1⟩ := n
    cases l with
    | nil => exact ⟨⟨.nil, d, lh, rh, lw, rw, r, up⟩, by rw [findMin],
        by simp [Cursor.after, items], n0, nu⟩
    | node a b c e f g k =>
      obtain ⟨c', hc, hb, r1, r2⟩ := ihl (.left d lh rh lw rw r :: up) (by simp) nl
        ⟨h1, nr, nu⟩
      refine ⟨c', by rw [findMin]; exact hc; simp, ?_, r1, r2⟩
      rw [hb]; simp [upAfter, items]

theorem climbPrev_ok (t : Tree) (up : List Frame) (n : NnP P t) (nu : NnUpP P up)
    (hne : upBefore up ≠ []) :
    ∃ c, climbPrev t up = some c ∧ c.before ++ [c.d] = upBefore up ∧ NnP P c.tree ∧ NnUpP P c.up := by
  induction up generalizing t with
  | nil => simp [upBefore] at hne
  | cons f up ih =>
    cases f with
    | left d lh rh lw rw r =>
      obtain ⟨h1, nr, nu'⟩ := nu
      exact ih _ ⟨n, nr, h1⟩ nu' hne
    | right l d lh rh lw rw =>
      obtain ⟨h1, nl, nu'⟩ := nu
      exact ⟨_, rfl, by simp [Cursor.before, upBefore], ⟨nl, n, h1⟩, nu'⟩

theorem climbNext_ok (t : Tree) (up : List Frame) (n : NnP P t) (nu : NnUpP P up)
    (hne : upAfter up ≠ []) :
    ∃ c, climbNext t up = some c ∧ c.d :: c.after = upAfter up ∧ NnP P c.tree ∧ NnUpP P c.up := by
  induction up generalizing t with
  | nil => simp [upAfter] at hne
  | cons f up ih =>
    cases f with
    | right l d lh rh lw rw =>
      obtain ⟨h1, nl, nu'⟩ := nu
      exact ih _ ⟨nl, n, h1⟩ nu' hne
    | left d lh rh lw rw r =>
      obtain ⟨h1, nr, nu'⟩ := nu
      exact ⟨_, rfl, by simp [Cursor.after, upAfter], ⟨n, nr, h1⟩, nu'⟩

/-- `in_order_predecessor` gives the previous item. -/
theorem pred_ok (c : Cursor) (n : NnP P c.tree) (nu : NnUpP P c.up) (hne : c.before ≠ []) :
    ∃ c', c.pred = some c' ∧ c'.before ++ [c'.d] = c.before ∧ NnP P c'.tree ∧ NnUpP P c'.up := by
  unfold Cursor.pred
  by_cases h : c.l = .nil
  · rw [if_pos h]
    have e : c.before = upBefore c.up := by simp [Cursor.before, h, items]
    rw [e] at hne ⊢
    exact climbPrev_ok _ _ n nu hne
  · rw [if_neg h]
    obtain ⟨nl, nr, h1⟩ := n
    exact findMax_ok c.l _ h nl ⟨h1, nr, nu⟩

/-- `in_order_successor` gives the next item. -/
theorem succ_ok (c : Cursor) (n : NnP P c.tree) (nu : NnUpP P c.up) (hne : c.after ≠ []) :
    ∃ c', c.succ = some c' ∧ c'.d :: c'.after = c.after ∧ NnP P c'.tree ∧ NnUpP P c'.up := by
  unfold Cursor.succ
  by_cases h : c.r = .nil
  · rw [if_pos h]
    have e : c.after = upAfter c.up := by simp [Cursor.after, h, items]
    rw [e] at hne ⊢
    exact climbNext_ok _ _ n nu hne
  · rw [if_neg h]
    obtain ⟨nl, nr, h1⟩ := n
    exact findMin_ok c.r _ h nr ⟨h1, nl, nu⟩

/-- The state in which the descent ends, for a good non-empty tree with positive weights. -/
structure Found (t : Tree) (mid : Rat) (c : Cursor) : Prop where
  eq : descend exact mid t [] 0 0 = some (c, wt (upBefore c.up), wt (upAfter c.up))
  list : items t = c.before ++ c.d :: c.after
  lw : c.lw = wt (items c.l)
  rw : c.rw = wt (items c.r)
  nn : Nn c.tree
  nnUp : NnUp c.up
  before : wt c.before ≤ mid
  after : wt c.after ≤ mid
  upB : wt (upBefore c.up) < mid
  upA : wt (upAfter c.up) < mid
  pos : 0 < c.d.w
  sum : wt c.before + c.d.w + wt c.after = 2 * mid
  midpos : 0 < mid

theorem found (t : Tree) (g : Good exact t) (hp : Pos (items t)) (hne : items t ≠ []) :
    ∃ c, Found t (wt (items t) / 2) c := by
  have hpos := wt_pos hp hne
  obtain ⟨c, h1, h2, h3, h4, h5, h6, h7, h8, h9, h10⟩ :=
    descend_ok (wt (items t) / 2) t [] g (good_nn t g hp) trivial
      (by simp [upBefore, upAfter]; ring) (by simp [upBefore]; linarith)
      (by simp [upAfter]; linarith)
  simp only [upBefore, upAfter, List.nil_append, List.append_nil] at h1 h2
  refine ⟨c, h1, h2.symm, h3, h4, h5, h6, h7, h8, h9, h10, ?_, ?_, by linarith⟩
  · exact hp c.d (by rw [← h2]; simp)
  · have := congrArg wt h2
    simp only [wt_append, wt_cons] at this
    linarith

theorem numNodes_items (t : Tree) : numNodes t = (items t).length := by
  induction t with
  | nil => rfl
  | node l d lh rh lw rw r ihl ihr => simp [numNodes, items, ihl, ihr]; omega

theorem Found.B {t : Tree} {mid : Rat} {c : Cursor} (h : Found t mid c) :
    c.lw + wt (upBefore c.up) = wt c.before := by
  rw [h.lw, Cursor.before, wt_append]; ring

theorem Found.A {t : Tree} {mid : Rat} {c : Cursor} (h : Found t mid c) :
    c.rw + wt (upAfter c.up) = wt c.after := by
  rw [h.rw, Cursor.after, wt_append]

theorem splitDown_stop {t : Tree} {mid : Rat} {c : Cursor} (h : Found t mid c) (fuel : Nat)
    (hb : wt c.before < mid) (s : Rat) (k : Nat) :
    splitDown exact mid (fuel + 1) c (wt (upAfter c.up)) s k = some (s, k) := by
  have A := h.A
  have hs := h.sum
  unfold splitDown
  simp only [exact, A]
  rw [if_neg (by linarith)]

theorem splitDown_step {t : Tree} {mid : Rat} {c : Cursor} (h : Found t mid c) (fuel : Nat)
    (hb : wt c.before = mid) (s : Rat) (k : Nat) :
    ∃ pre x, c.before = pre ++ [x] ∧
      splitDown exact mid (fuel + 2) c (wt (upAfter c.up)) s k = some (s + x.v, k + 1) := by
  have A := h.A
  have hs := h.sum
  have hmp := h.midpos
  have hne : c.before ≠ [] := by intro e; rw [e] at hb; simp at hb; linarith
  obtain ⟨c', hp, hb', n', _⟩ := pred_ok c h.nn h.nnUp hne
  obtain ⟨_, _, _, hrw, hpw⟩ := n'
  refine ⟨c'.before, c'.d, hb'.symm, ?_⟩
  rw [splitDown]
  simp only [exact, A]
  rw [if_pos (by linarith), hp]
  simp only []
  rw [splitDown]
  rw [if_neg (by simp only [exact]; linarith)]

theorem splitUp_stop {t : Tree} {mid : Rat} {c : Cursor} (h : Found t mid c) (fuel : Nat)
    (hb : wt c.after < mid) (s : Rat) (k : Nat) :
    splitUp exact mid (fuel + 1) c (wt (upBefore c.up)) s k = some (s, k) := by
  have B := h.B
  have hs := h.sum
  unfold splitUp
  simp only [exact, B]
  rw [if_neg (by linarith)]

theorem splitUp_step {t : Tree} {mid : Rat} {c : Cursor} (h : Found t mid c) (fuel : Nat)
    (hb : wt c.after = mid) (s : Rat) (k : Nat) :
    ∃ y post, c.after = y :: post ∧
      splitUp exact mid (fuel + 2) c (wt (upBefore c.up)) s k = some (s + y.v, k + 1) := by
  have B := h.B
  have hs := h.sum
  have hmp := h.midpos
  have hne : c.after ≠ [] := by intro e; rw [e] at hb; simp at hb; linarith
  obtain ⟨c', hp, hb', n', _⟩ := succ_ok c h.nn h.nnUp hne
  obtain ⟨_, _, hlw, _, hpw⟩ := n'
  refine ⟨c'.d, c'.after, hb'.symm, ?_⟩
  rw [splitUp]
  simp only [exact, B]
  rw [if_pos (by linarith), hp]
  simp only []
  rw [splitUp]
  rw [if_neg (by simp only [exact]; linarith)]

theorem medianSplit_found {t : Tree} {c : Cursor} (h : Found t (wt (items t) / 2) c) (fuel : Nat) :
    ∃ m, medianSplit exact (fuel + 2) c (wt (upBefore c.up)) (wt (upAfter c.up))
        (wt (items t) / 2) = some m ∧ IsSplitMedian (items t) m := by
  have hs := h.sum
  have hw := h.pos
  have hbl := h.before
  have hal := h.after
  have hl := h.list
  unfold medianSplit
  by_cases c1 : wt c.before = wt (items t) / 2
  · obtain ⟨pre, x, e, hd⟩ := splitDown_step h fuel c1 c.d.v 1
    rw [hd]
    simp only [Option.bind_eq_bind, Option.bind_some]
    rw [splitUp_stop h (fuel + 1) (by linarith)]
    refine ⟨_, rfl, Or.inr ⟨pre, x, c.d, c.after, ?_, ?_, ?_⟩⟩
    · rw [hl, e]; simp
    · rw [← c1, e]; simp
    · simp only [Nat.reduceAdd, Nat.cast_ofNat]; ring
  · rw [splitDown_stop h (fuel + 1) (lt_of_le_of_ne hbl c1)]
    simp only [Option.bind_eq_bind, Option.bind_some]
    by_cases c2 : wt c.after = wt (items t) / 2
    · obtain ⟨y, post, e, hd⟩ := splitUp_step h fuel c2 c.d.v 1
      rw [hd]
      refine ⟨_, rfl, Or.inr ⟨c.before, c.d, y, post, ?_, ?_, ?_⟩⟩
      · rw [hl, e]
      · linarith
      · simp only [Nat.reduceAdd, Nat.cast_ofNat]
    · rw [splitUp_stop h (fuel + 1) (lt_of_le_of_ne hal c2)]
      refine ⟨_, rfl, Or.inl ⟨c.before, c.d, c.after, hl, lt_of_le_of_ne hbl c1, ?_, ?_⟩⟩
      · have := lt_of_le_of_ne hal c2
        linarith
      · simp

theorem medianHigher_mem (prev next mid : Rat) (t : Tree) (hne : t ≠ .nil) :
    ∃ d ∈ items t, medianHigher exact prev next mid t = some d.v := by
  induction t with
  | nil => exact absurd rfl hne
  | node l d lh rh lw rw r ihl ihr =>
    unfold medianHigher
    split
    · rename_i hc
      obtain ⟨x, hx, e⟩ := ihr hc.2.2
      exact ⟨x, by simp [items, hx], e⟩
    · exact ⟨d, by simp [items], rfl⟩

theorem medianLower_mem (prev next mid : Rat) (t : Tree) (hne : t ≠ .nil) :
    ∃ d ∈ items t, medianLower exact prev next mid t = some d.v := by
  induction t with
  | nil => exact absurd rfl hne
  | node l d lh rh lw rw r ihl ihr =>
    unfold medianLower
    split
    · rename_i hc
      obtain ⟨x, hx, e⟩ := ihl hc.2.2
      exact ⟨x, by simp [items, hx], e⟩
    · exact ⟨d, by simp [items], rfl⟩

theorem le_v {a b : Item} (h : a.le b) : a.v ≤ b.v := by
  rcases h with h | ⟨h, _⟩
  · exact le_of_lt h
  · exact le_of_eq h

/-- Method `higher`: the right element unless the lower of two tied neighbours is found first; in
that case some element at or above the upper neighbour. -/
theorem medianHigher_found {t : Tree} {c : Cursor} (h : Found t (wt (items t) / 2) c)
    (hsort : Sorted (items t)) :
    ∃ x ∈ items t, medianHigher exact (wt (upBefore c.up)) (wt (upAfter c.up)) (wt (items t) / 2)
        c.tree = some x.v ∧
      (∃ m, IsHigherMedian (items t) m ∧ m ≤ x.v) ∧
      (wt c.after < wt (items t) / 2 → IsHigherMedian (items t) x.v) := by
  have hs := h.sum
  have hw := h.pos
  have hbl := h.before
  have hal := h.after
  have hl := h.list
  have A := h.A
  have B := h.B
  by_cases c2 : wt c.after = wt (items t) / 2
  · have hr : c.r ≠ .nil := by
      intro e
      have := h.upA
      rw [h.rw, e] at A
      simp [items] at A
      linarith
    obtain ⟨x, hx, e⟩ := medianHigher_mem (wt (upBefore c.up)) (wt (upAfter c.up))
      (wt (items t) / 2) c.r hr
    refine ⟨x, by rw [hl]; simp [Cursor.after, hx], ?_, ?_, fun hlt => absurd c2 (ne_of_lt hlt)⟩
    · rw [Cursor.tree, medianHigher]
      simp only [exact, A, B]
      rw [if_pos ⟨by linarith, by linarith, hr⟩]
      exact e
    · cases hca : items c.r with
      | nil => rw [hca] at hx; simp at hx
      | cons y post =>
        have hae : c.after = y :: (post ++ upAfter c.up) := by simp [Cursor.after, hca]
        refine ⟨y.v, Or.inr ⟨c.before, c.d, y, post ++ upAfter c.up, by rw [hl, hae], by linarith,
          rfl⟩, ?_⟩
        rw [hca] at hx
        rcases List.mem_cons.mp hx with rfl | hx
        · exact le_rfl
        · rw [hl, hae] at hsort
          have h3 := (sorted_mid.mp hsort).2.1
          have h4 := (List.pairwise_cons.mp h3).1 x (by simp [hx])
          exact le_v h4
  · have hlt := lt_of_le_of_ne hal c2
    have hhigh : IsHigherMedian (items t) c.d.v := by
      by_cases c1 : wt c.before = wt (items t) / 2
      · have hmp := h.midpos
        have hne : c.before ≠ [] := by intro e; rw [e] at c1; simp at c1; linarith
        obtain ⟨pre, z, e⟩ := List.eq_nil_or_concat'  c.before |>.resolve_left hne
        refine Or.inr ⟨pre, z, c.d, c.after, ?_, ?_, rfl⟩
        · rw [hl, e]; simp
        · rw [← c1, e]; simp
      · exact Or.inl ⟨c.before, c.d, c.after, hl, lt_of_le_of_ne hbl c1, by linarith, rfl⟩
    refine ⟨c.d, by rw [hl]; simp, ?_, ⟨_, hhigh, le_rfl⟩, fun _ => hhigh⟩
    rw [Cursor.tree, medianHigher]
    simp only [exact, A, B]
    rw [if_neg (by intro hh; linarith [hh.2.1])]

/-- Method `lower`, the mirror image. -/
theorem medianLower_found {t : Tree} {c : Cursor} (h : Found t (wt (items t) / 2) c)
    (hsort : Sorted (items t)) :
    ∃ x ∈ items t, medianLower exact (wt (upBefore c.up)) (wt (upAfter c.up)) (wt (items t) / 2)
        c.tree = some x.v ∧
      (∃ m, IsLowerMedian (items t) m ∧ x.v ≤ m) ∧
      (wt c.before < wt (items t) / 2 → IsLowerMedian (items t) x.v) := by
  have hs := h.sum
  have hw := h.pos
  have hbl := h.before
  have hal := h.after
  have hl := h.list
  have A := h.A
  have B := h.B
  by_cases c2 : wt c.before = wt (items t) / 2
  · have hr : c.l ≠ .nil := by
      intro e
      have := h.upB
      rw [h.lw, e] at B
      simp [items] at B
      linarith
    obtain ⟨x, hx, e⟩ := medianLower_mem (wt (upBefore c.up)) (wt (upAfter c.up))
      (wt (items t) / 2) c.l hr
    refine ⟨x, by rw [hl]; simp [Cursor.before, hx], ?_, ?_, fun hlt => absurd c2 (ne_of_lt hlt)⟩
    · rw [Cursor.tree, medianLower]
      simp only [exact, A, B]
      rw [if_pos ⟨by linarith, by linarith, hr⟩]
      exact e
    · have hne : items c.l ≠ [] := by intro e; rw [e] at hx; simp at hx
      obtain ⟨pre, z, hca⟩ := List.eq_nil_or_concat' (items c.l) |>.resolve_left hne
      have hbe : c.before = (upBefore c.up ++ pre) ++ [z] := by simp [Cursor.before, hca]
      have hl' : items t = (upBefore c.up ++ pre) ++ z :: c.d :: c.after := by
        rw [hl, hbe]; simp
      refine ⟨z.v, Or.inr ⟨upBefore c.up ++ pre, z, c.d, c.after, hl', ?_, rfl⟩, ?_⟩
      · rw [← c2, hbe]; simp; ring
      · rw [hca] at hx
        rcases List.mem_append.mp hx with hx | hx
        · rw [hl'] at hsort
          have h3 := (sorted_mid.mp hsort).2.2.1 x (by simp [hx])
          exact le_v h3
        · simp at hx; rw [hx]
  · have hlt := lt_of_le_of_ne hbl c2
    have hlow : IsLowerMedian (items t) c.d.v := by
      by_cases c1 : wt c.after = wt (items t) / 2
      · have hmp := h.midpos
        cases hca : c.after with
        | nil => rw [hca] at c1; simp at c1; linarith
        | cons y post =>
          exact Or.inr ⟨c.before, c.d, y, post, by rw [hl, hca], by linarith, rfl⟩
      · have := lt_of_le_of_ne hal c1
        exact Or.inl ⟨c.before, c.d, c.after, hl, hlt, by linarith, rfl⟩
    refine ⟨c.d, by rw [hl]; simp, ?_, ⟨_, hlow, le_rfl⟩, fun _ => hlow⟩
    rw [Cursor.tree, medianLower]
    simp only [exact, A, B]
    rw [if_neg (by intro hh; linarith [hh.2.1])]

/-- `weighted_median('s')` on a good tree. -/
theorem split_good {t : Tree} (g : Good exact t) (hp : Pos (items t)) (hne : items t ≠ []) :
    ∃ m, weightedMedian exact t 's' = .value m ∧ IsSplitMedian (items t) m := by
  obtain ⟨c, hc⟩ := found t g hp hne
  have hn : t ≠ .nil := by intro e; rw [e] at hne; exact hne rfl
  have hlen : ∃ k, numNodes t + 1 = k + 2 := by
    rw [numNodes_items]
    cases hi : items t with
    | nil => exact absurd hi hne
    | cons a b => exact ⟨b.length, rfl⟩
  obtain ⟨k, hk⟩ := hlen
  obtain ⟨m, hm, hspec⟩ := medianSplit_found hc k
  refine ⟨m, ?_, hspec⟩
  simp only [weightedMedian, if_neg hn, g.tw, wsum_exact, hc.eq, finish, hk]
  simp [hm, ofOption]

theorem higher_good {t : Tree} (g : Good exact t) (hs : Sorted (items t)) (hp : Pos (items t))
    (hne : items t ≠ []) :
    ∃ x ∈ items t, weightedMedian exact t 'h' = .value x.v ∧
      (∃ m, IsHigherMedian (items t) m ∧ m ≤ x.v) ∧
      (¬ Tie (items t) → IsHigherMedian (items t) x.v) := by
  obtain ⟨c, hc⟩ := found t g hp hne
  have hn : t ≠ .nil := by intro e; rw [e] at hne; exact hne rfl
  obtain ⟨x, hx, e, hlow, hex⟩ := medianHigher_found hc hs
  refine ⟨x, hx, ?_, hlow, fun ht => hex ?_⟩
  · simp only [weightedMedian, if_neg hn, g.tw, wsum_exact, hc.eq, finish]
    simp [e, ofOption]
  · refine lt_of_le_of_ne hc.after fun e => ht ?_
    cases hca : c.after with
    | nil => rw [hca] at e; have := hc.midpos; simp at e; linarith
    | cons y post =>
      refine ⟨c.before, c.d, y, post, by rw [hc.list, hca], ?_⟩
      have := hc.sum
      linarith

theorem lower_good {t : Tree} (g : Good exact t) (hs : Sorted (items t)) (hp : Pos (items t))
    (hne : items t ≠ []) :
    ∃ x ∈ items t, weightedMedian exact t 'l' = .value x.v ∧
      (∃ m, IsLowerMedian (items t) m ∧ x.v ≤ m) ∧
      (¬ Tie (items t) → IsLowerMedian (items t) x.v) := by
  obtain ⟨c, hc⟩ := found t g hp hne
  have hn : t ≠ .nil := by intro e; rw [e] at hne; exact hne rfl
  obtain ⟨x, hx, e, hlow, hex⟩ := medianLower_found hc hs
  refine ⟨x, hx, ?_, hlow, fun ht => hex ?_⟩
  · simp only [weightedMedian, if_neg hn, g.tw, wsum_exact, hc.eq, finish]
    simp [e, ofOption]
  · refine lt_of_le_of_ne hc.before fun e => ht ?_
    have hne' : c.before ≠ [] := by
      intro e'
      rw [e'] at e
      have := hc.midpos
      simp at e
      linarith
    obtain ⟨pre, z, hca⟩ := List.eq_nil_or_concat' c.before |>.resolve_left hne'
    refine ⟨pre, z, c.d, c.after, by rw [hc.list, hca]; simp, ?_⟩
    rw [← e, hca]; simp

/-! ## The specification determines the median -/

theorem prefix_wt {a b s s' : List Item} (h : a ++ s = b ++ s') (hp : Pos (a ++ s))
    (hlen : a.length ≤ b.length) : ∃ c, b = a ++ c ∧ Pos c := by
  have h1 : a <+: b := List.prefix_of_prefix_length_le (List.prefix_append a s)
    (h ▸ List.prefix_append b s') hlen
  obtain ⟨c, rfl⟩ := h1
  refine ⟨c, rfl, fun x hx => hp x ?_⟩
  rw [h]; simp [hx]

theorem tie_not_cross {xs pre post pre' post' : List Item} {x x' : Item} (hp : Pos xs)
    (h : xs = pre ++ x :: post) (h1 : wt pre < wt xs / 2) (h2 : wt xs / 2 < wt pre + x.w)
    (h' : xs = pre' ++ x' :: post') : wt pre' + x'.w ≠ wt xs / 2 := by
  intro e
  have e1 : pre ++ (x :: post) = (pre' ++ [x']) ++ post' := by rw [← h, h']; simp
  rcases Nat.lt_or_ge pre'.length pre.length with c | c
  · obtain ⟨k, hk, pk⟩ := prefix_wt e1.symm (by rw [← e1, ← h]; exact hp) (by simp; omega)
    have := wt_nonneg pk
    rw [hk] at h1
    simp at h1
    linarith
  · have e2 : (pre ++ [x]) ++ post = (pre' ++ [x']) ++ post' := by rw [← e1]; simp
    obtain ⟨k, hk, pk⟩ := prefix_wt e2 (by rw [e2, ← e1, ← h]; exact hp) (by simp; omega)
    have := wt_nonneg pk
    have h5 := congrArg wt hk
    simp at h5
    linarith

theorem cross_unique {xs pre post pre' post' : List Item} {x x' : Item} (hp : Pos xs)
    (h : xs = pre ++ x :: post) (h1 : wt pre < wt xs / 2) (h2 : wt xs / 2 < wt pre + x.w)
    (h' : xs = pre' ++ x' :: post') (h1' : wt pre' < wt xs / 2) (h2' : wt xs / 2 < wt pre' + x'.w) :
    x = x' := by
  have key : ∀ {pre post pre' post' : List Item} {x x' : Item}, xs = pre ++ x :: post →
      wt xs / 2 < wt pre + x.w → xs = pre' ++ x' :: post' → wt pre' < wt xs / 2 →
      ¬ pre.length < pre'.length := by
    intro pre post pre' post' x x' h h2 h' h1' c
    have e1 : (pre ++ [x]) ++ post = pre' ++ (x' :: post') := by rw [← h', h]; simp
    obtain ⟨k, hk, pk⟩ := prefix_wt e1 (by rw [e1, ← h']; exact hp) (by simp; omega)
    have := wt_nonneg pk
    have h5 := congrArg wt hk
    simp at h5
    linarith
  have hlen : pre.length = pre'.length := by
    have := key h h2 h' h1'
    have := key h' h2' h h1
    omega
  have := (List.append_inj (h.symm.trans h') hlen).2
  exact (List.cons.inj this).1

theorem tie_unique {xs pre post pre' post' : List Item} {x x' : Item} (hp : Pos xs)
    (h : xs = pre ++ x :: post) (h1 : wt pre + x.w = wt xs / 2)
    (h' : xs = pre' ++ x' :: post') (h1' : wt pre' + x'.w = wt xs / 2) :
    x :: post = x' :: post' := by
  have key : ∀ {pre post pre' post' : List Item} {x x' : Item}, xs = pre ++ x :: post →
      wt pre + x.w = wt xs / 2 → xs = pre' ++ x' :: post' → wt pre' + x'.w = wt xs / 2 →
      ¬ pre.length < pre'.length := by
    intro pre post pre' post' x x' h h2 h' h1' c
    have e1 : (pre ++ [x]) ++ post = pre' ++ (x' :: post') := by rw [← h', h]; simp
    obtain ⟨k, hk, pk⟩ := prefix_wt e1 (by rw [e1, ← h']; exact hp) (by simp; omega)
    have := wt_nonneg pk
    have h5 := congrArg wt hk
    have h6 := hp x' (by rw [h']; simp)
    simp at h5
    linarith
  have hlen : pre.length = pre'.length := by
    have := key h h1 h' h1'
    have := key h' h1' h h1
    omega
  exact (List.append_inj (h.symm.trans h') hlen).2

end Verif.Median
