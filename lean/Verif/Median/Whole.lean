import Verif.Median.MedLemmas

/-! # Helper lemmas for C16: additions that are exact as far as they are needed -/
namespace Verif.Median

/-- Sums of numbers of a kind (such as whole numbers) are exact up to a bound. -/
structure ExactOn (add : Rat → Rat → Rat) (S : Rat → Prop) (B : Rat) : Prop where
  zero : S 0
  nonneg : ∀ a, S a → 0 ≤ a
  closed : ∀ a b, S a → S b → S (a + b)
  eq : ∀ a b, S a → S b → a + b ≤ B → add a b = a + b

variable {add : Rat → Rat → Rat} {S : Rat → Prop} {B : Rat}

/-- All weights are of the kind. -/
def Kind (S : Rat → Prop) (xs : List Item) : Prop := ∀ x ∈ xs, S x.w

theorem Kind.append {xs ys : List Item} (h : Kind S (xs ++ ys)) : Kind S xs ∧ Kind S ys :=
  ⟨fun x hx => h x (by simp [hx]), fun x hx => h x (by simp [hx])⟩

theorem Kind.cons {x : Item} {xs : List Item} (h : Kind S (x :: xs)) : S x.w ∧ Kind S xs :=
  ⟨h x (by simp), fun y hy => h y (by simp [hy])⟩

theorem ExactOn.wt (h : ExactOn add S B) {xs : List Item} (hs : Kind S xs) : S (wt xs) := by
  induction xs with
  | nil => exact h.zero
  | cons x xs ih =>
    rw [wt_cons]
    exact h.closed _ _ hs.cons.1 (ih hs.cons.2)

theorem ExactOn.wt0 (h : ExactOn add S B) {xs : List Item} (hs : Kind S xs) : 0 ≤ Median.wt xs :=
  h.nonneg _ (h.wt hs)

theorem kind_node {l r : Tree} {d : Item} {lh rh : Nat} {lw rw : Rat} (hs : Kind S (items (.node l d lh rh lw rw r))) :
    Kind S (items l) ∧ S d.w ∧ Kind S (items r) := by
  rw [items] at hs
  exact ⟨hs.append.1, hs.append.2.cons.1, hs.append.2.cons.2⟩

/-- The cached weights are the exact ones. -/
theorem wsum_whole (h : ExactOn add S B) (t : Tree) (hs : Kind S (items t)) (hb : wt (items t) ≤ B) :
    wsum add t = wt (items t) := by
  induction t with
  | nil => rfl
  | node l d lh rh lw rw r ihl ihr =>
    obtain ⟨kl, kd, kr⟩ := kind_node hs
    have l0 := h.wt0 kl
    have r0 := h.wt0 kr
    have d0 := h.nonneg _ kd
    simp only [items, wt_append, wt_cons] at hb ⊢
    rw [wsum, ihl kl (by linarith), ihr kr (by linarith),
      h.eq _ _ (h.wt kl) (h.wt kr) (by linarith),
      h.eq _ _ (h.closed _ _ (h.wt kl) (h.wt kr)) kd (by linarith)]
    ring

theorem good_whole (h : ExactOn add S B) (t : Tree) (g : Good add t) (hs : Kind S (items t))
    (hb : wt (items t) ≤ B) : Good exact t := by
  induction t with
  | nil => trivial
  | node l d lh rh lw rw r ihl ihr =>
    obtain ⟨gl, gr, e1, e2, e3, e4, e5⟩ := g
    obtain ⟨kl, kd, kr⟩ := kind_node hs
    have l0 := h.wt0 kl
    have r0 := h.wt0 kr
    have d0 := h.nonneg _ kd
    simp only [items, wt_append, wt_cons] at hb
    have bl : wt (items l) ≤ B := by linarith
    have br : wt (items r) ≤ B := by linarith
    refine ⟨ihl gl kl bl, ihr gr kr br, e1, e2, ?_, ?_, e5⟩
    · rw [e3, wsum_exact, wsum_whole h l kl bl]
    · rw [e4, wsum_exact, wsum_whole h r kr br]

/-- The descent takes the same way. -/
theorem descend_whole (h : ExactOn add S B) (mid : Rat) (t : Tree) (up : List Frame) (prev next : Rat)
    (hp : S prev) (hn : S next) (g : Good exact t) (hs : Kind S (items t)) (hb : prev + wt (items t) + next ≤ B) :
    descend add mid t up prev next = descend exact mid t up prev next := by
  induction t generalizing up prev next with
  | nil => rfl
  | node l d lh rh lw rw r ihl ihr =>
    obtain ⟨gl, gr, rfl, rfl, rfl, rfl, _⟩ := g
    obtain ⟨kl, kd, kr⟩ := kind_node hs
    have l0 := h.wt0 kl
    have r0 := h.wt0 kr
    have d0 := h.nonneg _ kd
    have p0 := h.nonneg _ hp
    have n0 := h.nonneg _ hn
    simp only [items, wt_append, wt_cons] at hb
    simp only [wsum_exact]
    have e1 : add (wt (items l)) prev = wt (items l) + prev := h.eq _ _ (h.wt kl) hp (by linarith)
    have e2 : add (wt (items r)) next = wt (items r) + next := h.eq _ _ (h.wt kr) hn (by linarith)
    have e3 : add (wt (items r)) d.w = wt (items r) + d.w := h.eq _ _ (h.wt kr) kd (by linarith)
    have e4 : add next (wt (items r) + d.w) = next + (wt (items r) + d.w) :=
      h.eq _ _ hn (h.closed _ _ (h.wt kr) kd) (by linarith)
    have e5 : add (wt (items l)) d.w = wt (items l) + d.w := h.eq _ _ (h.wt kl) kd (by linarith)
    have e6 : add prev (wt (items l) + d.w) = prev + (wt (items l) + d.w) :=
      h.eq _ _ hp (h.closed _ _ (h.wt kl) kd) (by linarith)
    rw [descend, descend, e1, e2, e3, e4, e5, e6]
    simp only [exact]
    rw [ihl _ _ _ hp (h.closed _ _ hn (h.closed _ _ (h.wt kr) kd)) gl kl (by linarith),
      ihr _ _ _ (h.closed _ _ hp (h.closed _ _ (h.wt kl) kd)) hn gr kr (by linarith)]
    rfl

/-- What holds at all nodes holds at those around the place where the descent ends. -/
theorem descend_nn {P : Rat → Rat → Rat → Prop} (mid : Rat) (t : Tree) (up : List Frame) (prev next : Rat)
    (n : NnP P t) (nu : NnUpP P up) (c : Cursor) (p q : Rat) (h : descend exact mid t up prev next = some (c, p, q)) :
    NnP P c.tree ∧ NnUpP P c.up := by
  induction t generalizing up prev next with
  | nil => simp [descend] at h
  | node l d lh rh lw rw r ihl ihr =>
    obtain ⟨nl, nr, hP⟩ := n
    rw [descend] at h
    split at h
    · refine ihl _ _ _ nl ?_ h
      exact ⟨hP, nr, nu⟩
    · split at h
      · refine ihr _ _ _ nr ?_ h
        exact ⟨hP, nl, nu⟩
      · simp only [Option.some.injEq, Prod.mk.injEq] at h
        obtain ⟨rfl, _, _⟩ := h
        exact ⟨⟨nl, nr, hP⟩, nu⟩

/-- The caches are of the kind and at most the whole weight. -/
def Small (S : Rat → Prop) (T lw rw w : Rat) : Prop := S lw ∧ S rw ∧ S w ∧ lw ≤ T ∧ rw ≤ T ∧ w ≤ T

theorem small_nodes (h : ExactOn add S B) (T : Rat) (t : Tree) (g : Good exact t) (hs : Kind S (items t))
    (hT : wt (items t) ≤ T) : NnP (Small S T) t := by
  induction t with
  | nil => trivial
  | node l d lh rh lw rw r ihl ihr =>
    obtain ⟨gl, gr, rfl, rfl, rfl, rfl, _⟩ := g
    obtain ⟨kl, kd, kr⟩ := kind_node hs
    have l0 := h.wt0 kl
    have r0 := h.wt0 kr
    have d0 := h.nonneg _ kd
    simp only [items, wt_append, wt_cons] at hT
    refine ⟨ihl gl kl (by linarith), ihr gr kr (by linarith), ?_⟩
    rw [wsum_exact, wsum_exact]
    exact ⟨h.wt kl, h.wt kr, kd, by linarith, by linarith, by linarith⟩

/-- Everything about the place where the descent ends, with additions exact up to three times the weight. -/
structure FoundW (add : Rat → Rat → Rat) (S : Rat → Prop) (B : Rat) (t : Tree) (c : Cursor) : Prop where
  ex : ExactOn add S B
  found : Found t (wt (items t) / 2) c
  run : descend add (wt (items t) / 2) t [] 0 0 = some (c, wt (upBefore c.up), wt (upAfter c.up))
  total : totalWeight add t = wt (items t)
  sB : S (wt (upBefore c.up))
  sA : S (wt (upAfter c.up))
  sl : S (wt (items c.l))
  sr : S (wt (items c.r))
  sd : S c.d.w
  nn : NnP (Small S (wt (items t))) c.tree
  nnUp : NnUpP (Small S (wt (items t))) c.up
  bound : 3 * wt (items t) ≤ B

theorem foundW (h : ExactOn add S B) (t : Tree) (g : Good add t) (hs : Kind S (items t)) (hp : Pos (items t))
    (hne : items t ≠ []) (hb : 3 * wt (items t) ≤ B) : ∃ c, FoundW add S B t c := by
  have t0 := wt_pos hp hne
  have hb1 : wt (items t) ≤ B := by linarith
  have ge := good_whole h t g hs hb1
  obtain ⟨c, hc⟩ := found t ge hp hne
  have hk : Kind S (c.before ++ c.d :: c.after) := by rw [← hc.list]; exact hs
  have kb := hk.append.1
  have ka := hk.append.2.cons.2
  obtain ⟨n1, n2⟩ := descend_nn _ t [] 0 0 (small_nodes h _ t ge hs le_rfl) trivial c _ _ hc.eq
  refine ⟨c, h, hc, ?_, ?_, h.wt kb.append.1, h.wt ka.append.2, h.wt kb.append.2, h.wt ka.append.1,
    hk.append.2.cons.1, n1, n2, hb⟩
  · rw [descend_whole h _ t [] 0 0 h.zero h.zero ge hs (by linarith)]
    exact hc.eq
  · rw [g.tw, wsum_whole h t hs hb1]

variable {t : Tree} {c : Cursor}

theorem FoundW.parts (h : FoundW add S B t c) :
    0 ≤ wt (upBefore c.up) ∧ 0 ≤ wt (items c.l) ∧ 0 ≤ wt (upAfter c.up) ∧ 0 ≤ wt (items c.r) ∧
      wt c.before = wt (items c.l) + wt (upBefore c.up) ∧ wt c.after = wt (items c.r) + wt (upAfter c.up) ∧
      wt (items c.l) + wt (upBefore c.up) + c.d.w + (wt (items c.r) + wt (upAfter c.up)) = wt (items t) := by
  have hA := h.found.A
  have hB := h.found.B
  rw [h.found.lw] at hB
  rw [h.found.rw] at hA
  have := h.found.sum
  exact ⟨h.ex.nonneg _ h.sB, h.ex.nonneg _ h.sl, h.ex.nonneg _ h.sA, h.ex.nonneg _ h.sr, hB.symm, hA.symm, by linarith⟩

/-- The weight after the place and at it. -/
theorem FoundW.down (h : FoundW add S B t c) :
    add (add c.rw (wt (upAfter c.up))) c.d.w = wt c.after + c.d.w := by
  obtain ⟨p1, p2, p3, p4, e1, e2, e3⟩ := h.parts
  have hd := h.found.pos
  have hb := h.bound
  rw [h.found.rw, h.ex.eq _ _ h.sr h.sA (by linarith), e2,
    h.ex.eq _ _ (h.ex.closed _ _ h.sr h.sA) h.sd (by linarith)]

theorem FoundW.upw (h : FoundW add S B t c) :
    add (add c.lw (wt (upBefore c.up))) c.d.w = wt c.before + c.d.w := by
  obtain ⟨p1, p2, p3, p4, e1, e2, e3⟩ := h.parts
  have hd := h.found.pos
  have hb := h.bound
  rw [h.found.lw, h.ex.eq _ _ h.sl h.sB (by linarith), e1,
    h.ex.eq _ _ (h.ex.closed _ _ h.sl h.sB) h.sd (by linarith)]

theorem splitDown_stopW (h : FoundW add S B t c) (fuel : Nat) (hb : wt c.before < wt (items t) / 2) (s : Rat) (k : Nat) :
    splitDown add (wt (items t) / 2) (fuel + 1) c (wt (upAfter c.up)) s k = some (s, k) := by
  have hs := h.found.sum
  unfold splitDown
  rw [h.down, if_neg (by linarith)]

theorem splitUp_stopW (h : FoundW add S B t c) (fuel : Nat) (hb : wt c.after < wt (items t) / 2) (s : Rat) (k : Nat) :
    splitUp add (wt (items t) / 2) (fuel + 1) c (wt (upBefore c.up)) s k = some (s, k) := by
  have hs := h.found.sum
  unfold splitUp
  rw [h.upw, if_neg (by linarith)]

theorem splitDown_stepW (h : FoundW add S B t c) (fuel : Nat) (hb : wt c.before = wt (items t) / 2) (s : Rat) (k : Nat) :
    ∃ pre x, c.before = pre ++ [x] ∧
      splitDown add (wt (items t) / 2) (fuel + 2) c (wt (upAfter c.up)) s k = some (add s x.v, k + 1) := by
  obtain ⟨p1, p2, p3, p4, e1, e2, e3⟩ := h.parts
  have hs := h.found.sum
  have hmp := h.found.midpos
  have hd := h.found.pos
  have hbd := h.bound
  have hne : c.before ≠ [] := by intro e; rw [e] at hb; simp at hb; linarith
  obtain ⟨c', hp, hb', n', _⟩ := pred_ok c h.nn h.nnUp hne
  obtain ⟨_, _, s1, s2, s3, q1, q2, q3⟩ := n'
  have hrw := h.ex.nonneg _ s2
  have hpw : 0 < c'.d.w := by
    obtain ⟨c'', hp', _, n'', _⟩ := pred_ok c h.found.nn h.found.nnUp hne
    rw [hp] at hp'
    obtain rfl := Option.some.inj hp'
    exact n''.2.2.2.2
  refine ⟨c'.before, c'.d, hb'.symm, ?_⟩
  rw [splitDown, h.down, if_pos (by linarith), hp]
  simp only []
  have hn : add (wt (upAfter c.up)) (add c.d.w c.rw) = wt (items t) / 2 := by
    rw [h.found.rw, h.ex.eq _ _ h.sd h.sr (by linarith), h.ex.eq _ _ h.sA (h.ex.closed _ _ h.sd h.sr) (by linarith)]
    linarith
  have hsm : S (wt (items t) / 2) := by
    rw [← hn, h.found.rw, h.ex.eq _ _ h.sd h.sr (by linarith), h.ex.eq _ _ h.sA (h.ex.closed _ _ h.sd h.sr) (by linarith)]
    exact h.ex.closed _ _ h.sA (h.ex.closed _ _ h.sd h.sr)
  rw [splitDown, hn, h.ex.eq _ _ s2 hsm (by linarith), h.ex.eq _ _ (h.ex.closed _ _ s2 hsm) s3 (by linarith),
    if_neg (by linarith)]

theorem splitUp_stepW (h : FoundW add S B t c) (fuel : Nat) (hb : wt c.after = wt (items t) / 2) (s : Rat) (k : Nat) :
    ∃ y post, c.after = y :: post ∧
      splitUp add (wt (items t) / 2) (fuel + 2) c (wt (upBefore c.up)) s k = some (add s y.v, k + 1) := by
  obtain ⟨p1, p2, p3, p4, e1, e2, e3⟩ := h.parts
  have hs := h.found.sum
  have hmp := h.found.midpos
  have hd := h.found.pos
  have hbd := h.bound
  have hne : c.after ≠ [] := by intro e; rw [e] at hb; simp at hb; linarith
  obtain ⟨c', hp, hb', n', _⟩ := succ_ok c h.nn h.nnUp hne
  obtain ⟨_, _, s1, s2, s3, q1, q2, q3⟩ := n'
  have hlw := h.ex.nonneg _ s1
  have hpw : 0 < c'.d.w := by
    obtain ⟨c'', hp', _, n'', _⟩ := succ_ok c h.found.nn h.found.nnUp hne
    rw [hp] at hp'
    obtain rfl := Option.some.inj hp'
    exact n''.2.2.2.2
  refine ⟨c'.d, c'.after, hb'.symm, ?_⟩
  rw [splitUp, h.upw, if_pos (by linarith), hp]
  simp only []
  have e5 : add (wt (upBefore c.up)) (add c.d.w c.lw) = wt (upBefore c.up) + (c.d.w + wt (items c.l)) := by
    rw [h.found.lw, h.ex.eq _ _ h.sd h.sl (by linarith), h.ex.eq _ _ h.sB (h.ex.closed _ _ h.sd h.sl) (by linarith)]
  have hn : wt (upBefore c.up) + (c.d.w + wt (items c.l)) = wt (items t) / 2 := by linarith
  have hsm : S (wt (items t) / 2) := by
    rw [← hn]
    exact h.ex.closed _ _ h.sB (h.ex.closed _ _ h.sd h.sl)
  rw [splitUp, e5, hn, h.ex.eq _ _ s1 hsm (by linarith), h.ex.eq _ _ (h.ex.closed _ _ s1 hsm) s3 (by linarith),
    if_neg (by linarith)]

/-- The loops of `higher` and `lower` below the place take the same way. -/
theorem medianHigher_whole (h : ExactOn add S B) (T prev next mid : Rat) (hp : S prev) (hn : S next) (hpT : prev ≤ T) (hnT : next ≤ T)
    (hT : 3 * T ≤ B) (hT0 : 0 ≤ T) (t : Tree) (n : NnP (Small S T) t) :
    medianHigher add prev next mid t = medianHigher exact prev next mid t := by
  induction t with
  | nil => rfl
  | node l d lh rh lw rw r ihl ihr =>
    obtain ⟨nl, nr, s1, s2, s3, q1, q2, q3⟩ := n
    rw [medianHigher, medianHigher, h.eq _ _ s2 hn (by linarith), h.eq _ _ s1 hp (by linarith),
      h.eq _ _ (h.closed _ _ s1 hp) s3 (by linarith), ihr nr]
    rfl

theorem medianLower_whole (h : ExactOn add S B) (T prev next mid : Rat) (hp : S prev) (hn : S next) (hpT : prev ≤ T) (hnT : next ≤ T)
    (hT : 3 * T ≤ B) (hT0 : 0 ≤ T) (t : Tree) (n : NnP (Small S T) t) :
    medianLower add prev next mid t = medianLower exact prev next mid t := by
  induction t with
  | nil => rfl
  | node l d lh rh lw rw r ihl ihr =>
    obtain ⟨nl, nr, s1, s2, s3, q1, q2, q3⟩ := n
    rw [medianLower, medianLower, h.eq _ _ s1 hp (by linarith), h.eq _ _ s2 hn (by linarith),
      h.eq _ _ (h.closed _ _ s2 hn) s3 (by linarith), ihl nl]
    rfl

/-- The median with sums of values as the machine makes them. -/
def IsSplitMedianBy (add : Rat → Rat → Rat) (xs : List Item) (m : Rat) : Prop :=
  (∃ pre x post, xs = pre ++ x :: post ∧ wt pre < wt xs / 2 ∧ wt xs / 2 < wt pre + x.w ∧ m = x.v) ∨
  (∃ pre x y post, xs = pre ++ x :: y :: post ∧ wt pre + x.w = wt xs / 2 ∧
    (m = add x.v y.v / 2 ∨ m = add y.v x.v / 2))

theorem medianSplit_foundW (h : FoundW add S B t c) (fuel : Nat) :
    ∃ m, medianSplit add (fuel + 2) c (wt (upBefore c.up)) (wt (upAfter c.up))
        (wt (items t) / 2) = some m ∧ IsSplitMedianBy add (items t) m := by
  have hs := h.found.sum
  have hw := h.found.pos
  have hbl := h.found.before
  have hal := h.found.after
  have hl := h.found.list
  unfold medianSplit
  by_cases c1 : wt c.before = wt (items t) / 2
  · obtain ⟨pre, x, e, hd⟩ := splitDown_stepW h fuel c1 c.d.v 1
    rw [hd]
    simp only [Option.bind_eq_bind, Option.bind_some]
    rw [splitUp_stopW h (fuel + 1) (by linarith)]
    refine ⟨_, rfl, Or.inr ⟨pre, x, c.d, c.after, ?_, ?_, ?_⟩⟩
    · rw [hl, e]; simp
    · rw [← c1, e]; simp
    · exact .inr (by simp only [Nat.reduceAdd, Nat.cast_ofNat])
  · rw [splitDown_stopW h (fuel + 1) (lt_of_le_of_ne hbl c1)]
    simp only [Option.bind_eq_bind, Option.bind_some]
    by_cases c2 : wt c.after = wt (items t) / 2
    · obtain ⟨y, post, e, hd⟩ := splitUp_stepW h fuel c2 c.d.v 1
      rw [hd]
      refine ⟨_, rfl, Or.inr ⟨c.before, c.d, y, post, ?_, ?_, ?_⟩⟩
      · rw [hl, e]
      · linarith
      · exact .inl (by simp only [Nat.reduceAdd, Nat.cast_ofNat])
    · rw [splitUp_stopW h (fuel + 1) (lt_of_le_of_ne hal c2)]
      refine ⟨_, rfl, Or.inl ⟨c.before, c.d, c.after, hl, lt_of_le_of_ne hbl c1, ?_, ?_⟩⟩
      · have := lt_of_le_of_ne hal c2
        linarith
      · simp

theorem not_nil_of_items (hne : items t ≠ []) : t ≠ .nil := by intro e; rw [e] at hne; exact hne rfl

/-- `weighted_median('s')` with additions that are exact as far as needed. -/
theorem split_whole (h : ExactOn add S B) (g : Good add t) (hs : Kind S (items t)) (hp : Pos (items t))
    (hne : items t ≠ []) (hb : 3 * wt (items t) ≤ B) :
    ∃ m, weightedMedian add t 's' = .value m ∧ IsSplitMedianBy add (items t) m := by
  obtain ⟨c, hc⟩ := foundW h t g hs hp hne hb
  have hlen : ∃ k, numNodes t + 1 = k + 2 := by
    rw [numNodes_items]
    cases hi : items t with
    | nil => exact absurd hi hne
    | cons a b => exact ⟨b.length, rfl⟩
  obtain ⟨k, hk⟩ := hlen
  obtain ⟨m, hm, hspec⟩ := medianSplit_foundW hc k
  refine ⟨m, ?_, hspec⟩
  simp only [weightedMedian, if_neg (not_nil_of_items hne), hc.total, hc.run, finish, hk]
  simp [hm, ofOption]

/-- Methods `lower` and `higher` give what they give with exact additions. -/
theorem lower_higher_whole (h : ExactOn add S B) (g : Good add t) (hs : Kind S (items t)) (hp : Pos (items t))
    (hne : items t ≠ []) (hb : 3 * wt (items t) ≤ B) (method : Char) (hm : method ≠ 's') :
    weightedMedian add t method = weightedMedian exact t method := by
  obtain ⟨c, hc⟩ := foundW h t g hs hp hne hb
  have ge := good_whole h t g hs (by have := wt_pos hp hne; linarith)
  obtain ⟨p1, p2, p3, p4, e1, e2, e3⟩ := hc.parts
  have hd := hc.found.pos
  simp only [weightedMedian, if_neg (not_nil_of_items hne), hc.total, hc.run, ge.tw, wsum_exact, hc.found.eq, finish, if_neg hm]
  rw [medianLower_whole h _ _ _ _ hc.sB hc.sA (by linarith) (by linarith) hb (by linarith) c.tree hc.nn,
    medianHigher_whole h _ _ _ _ hc.sB hc.sA (by linarith) (by linarith) hb (by linarith) c.tree hc.nn]

end Verif.Median
