import Verif.Median.MedLemmas
import Mathlib.Tactic.Ring
import Mathlib.Tactic.Positivity

/-! # Helper lemmas for C16: additions with a relative error -/
namespace Verif.Median

/-- Numbers of a kind (such as doubles) that are not negative, and additions that are right up to a part `u`. -/
structure RelOn (add : Rat → Rat → Rat) (S : Rat → Prop) (u : Rat) : Prop where
  u0 : 0 ≤ u
  u1 : u < 1
  zero : S 0
  nonneg : ∀ a, S a → 0 ≤ a
  closed : ∀ a b, S a → S b → S (add a b)
  err : ∀ a b, S a → S b → |add a b - (a + b)| ≤ u * (a + b)

variable {add : Rat → Rat → Rat} {S : Rat → Prop} {u : Rat}

/-- `a` is `x` up to `k` roundings. -/
structure Close (S : Rat → Prop) (u : Rat) (k : Nat) (a x : Rat) : Prop where
  s : S a
  x0 : 0 ≤ x
  lo : (1 - u) ^ k * x ≤ a
  hi : a ≤ (1 + u) ^ k * x

theorem Close.mono (h : RelOn add S u) {k j : Nat} {a x : Rat} (hc : Close S u k a x) (hk : k ≤ j) : Close S u j a x := by
  have h0 := h.u0
  have h1 := h.u1
  refine ⟨hc.s, hc.x0, le_trans (mul_le_mul_of_nonneg_right ?_ hc.x0) hc.lo, le_trans hc.hi (mul_le_mul_of_nonneg_right ?_ hc.x0)⟩
  · exact pow_le_pow_of_le_one (by linarith) (by linarith) hk
  · exact pow_le_pow_right₀ (by linarith) hk

theorem Close.exact (h : RelOn add S u) {a : Rat} (k : Nat) (hs : S a) : Close S u k a a :=
  Close.mono h (k := 0) ⟨hs, h.nonneg a hs, by simp, by simp⟩ (Nat.zero_le k)

theorem Close.plus (h : RelOn add S u) {k : Nat} {a b x y : Rat} (ha : Close S u k a x) (hb : Close S u k b y) :
    Close S u (k + 1) (add a b) (x + y) := by
  have h0 := h.u0
  have h1 := h.u1
  have he := abs_le.1 (h.err a b ha.s hb.s)
  have hl : (1 - u) ^ k * (x + y) ≤ a + b := by have := ha.lo; have := hb.lo; linarith
  have hh : a + b ≤ (1 + u) ^ k * (x + y) := by have := ha.hi; have := hb.hi; linarith
  refine ⟨h.closed a b ha.s hb.s, add_nonneg ha.x0 hb.x0, ?_, ?_⟩
  · calc (1 - u) ^ (k + 1) * (x + y) = (1 - u) * ((1 - u) ^ k * (x + y)) := by ring
      _ ≤ (1 - u) * (a + b) := mul_le_mul_of_nonneg_left hl (by linarith)
      _ ≤ add a b := by linarith [he.1]
  · calc add a b ≤ (1 + u) * (a + b) := by linarith [he.2]
      _ ≤ (1 + u) * ((1 + u) ^ k * (x + y)) := mul_le_mul_of_nonneg_left hh (by linarith)
      _ = (1 + u) ^ (k + 1) * (x + y) := by ring

/-- All weights are of the kind. -/
def Of (S : Rat → Prop) (xs : List Item) : Prop := ∀ x ∈ xs, S x.w

theorem of_node {l r : Tree} {d : Item} {lh rh : Nat} {lw rw : Rat} (hs : Of S (items (.node l d lh rh lw rw r))) :
    Of S (items l) ∧ S d.w ∧ Of S (items r) := by
  rw [items] at hs
  exact ⟨fun x hx => hs x (by simp [hx]), hs d (by simp), fun x hx => hs x (by simp [hx])⟩

theorem wt0 (h : RelOn add S u) {xs : List Item} (hs : Of S xs) : 0 ≤ wt xs := by
  induction xs with
  | nil => simp
  | cons x xs ih =>
    rw [wt_cons]
    exact add_nonneg (h.nonneg _ (hs x (by simp))) (ih fun y hy => hs y (by simp [hy]))

/-- The cached weights are right up to two roundings for each level. -/
theorem wsum_close (h : RelOn add S u) (t : Tree) (hs : Of S (items t)) :
    Close S u (2 * height t) (wsum add t) (wt (items t)) := by
  induction t with
  | nil => exact Close.exact h _ h.zero
  | node l d lh rh lw rw r ihl ihr =>
    obtain ⟨kl, kd, kr⟩ := of_node hs
    simp only [items, wt_append, wt_cons, height, wsum]
    have e : wt (items l) + (d.w + wt (items r)) = wt (items l) + wt (items r) + d.w := by ring
    rw [e]
    have := (((ihl kl).mono h (j := 2 * max (height l) (height r)) (by omega)).plus h
      ((ihr kr).mono h (j := 2 * max (height l) (height r)) (by omega))).plus h (Close.exact h _ kd)
    exact this.mono h (by omega)

/-- A sum that is clearly below or above half of the weight. -/
def Far (u : Rat) (K : Nat) (W X : Rat) : Prop :=
  (1 + u) ^ K * X < (1 - u) ^ K * (W / 2) ∨ (1 + u) ^ K * (W / 2) < (1 - u) ^ K * X

theorem one_le_hi (h : RelOn add S u) (K : Nat) {x : Rat} (h0 : 0 ≤ x) : x ≤ (1 + u) ^ K * x := by
  have : (1 : Rat) ≤ (1 + u) ^ K := one_le_pow₀ (by linarith [h.u0])
  nlinarith

theorem lo_le_one (h : RelOn add S u) (K : Nat) {x : Rat} (h0 : 0 ≤ x) : (1 - u) ^ K * x ≤ x := by
  have : (1 - u) ^ K ≤ (1 : Rat) := pow_le_one₀ (by linarith [h.u1]) (by linarith [h.u0])
  nlinarith

/-- Such a sum is compared rightly. -/
theorem decide_far (h : RelOn add S u) {K : Nat} {W X a mid : Rat} (ha : Close S u K a X) (hm : Close (fun _ => True) u K mid (W / 2)) (hf : Far u K W X) :
    (mid < a ∧ W / 2 < X) ∨ (a < mid ∧ X < W / 2) := by
  rcases hf with hf | hf
  · refine .inr ⟨lt_of_le_of_lt ha.hi (lt_of_lt_of_le hf hm.lo), ?_⟩
    exact lt_of_le_of_lt (one_le_hi h K ha.x0) (lt_of_lt_of_le hf (lo_le_one h K hm.x0))
  · refine .inl ⟨lt_of_le_of_lt hm.hi (lt_of_lt_of_le hf ha.lo), ?_⟩
    exact lt_of_le_of_lt (one_le_hi h K hm.x0) (lt_of_lt_of_le hf (lo_le_one h K ha.x0))

/-- Where the descent ends if no sum is near half of the weight. -/
theorem descend_clear (h : RelOn add S u) (K : Nat) (W mid : Rat) (xs : List Item) (hm : Close (fun _ => True) u K mid (W / 2)) (hW : wt xs = W)
    (hfar : ∀ a b, xs = a ++ b → Far u K W (wt a) ∧ Far u K W (wt b)) (t : Tree) (up : List Frame) (prev next : Rat) (k : Nat)
    (g : Good add t) (hs : Of S (items t)) (hx : xs = upBefore up ++ items t ++ upAfter up)
    (hp : Close S u k prev (wt (upBefore up))) (hn : Close S u k next (wt (upAfter up))) (hk : 2 * height t ≤ k) (hK : k + height t + 2 ≤ K)
    (h1 : wt (upBefore up) < W / 2) (h2 : W / 2 < wt (upBefore up) + wt (items t)) :
    ∃ c p q, descend add mid t up prev next = some (c, p, q) ∧ xs = c.before ++ c.d :: c.after ∧ wt c.before < W / 2 ∧ W / 2 < wt c.before + c.d.w ∧
      mid < add (add c.rw q) c.d.w ∧ mid < add (add c.lw p) c.d.w := by
  induction t generalizing up prev next k with
  | nil => simp [items] at h2; linarith
  | node l d lh rh lw rw r ihl ihr =>
    obtain ⟨gl, gr, rfl, rfl, rfl, rfl, _⟩ := g
    obtain ⟨kl, kd, kr⟩ := of_node hs
    simp only [height] at hk hK
    have cl : Close S u k (wsum add l) (wt (items l)) := (wsum_close h l kl).mono h (by omega)
    have cr : Close S u k (wsum add r) (wt (items r)) := (wsum_close h r kr).mono h (by omega)
    have cl' : Close S u (k + 1) (add (wsum add l) prev) (wt (items l) + wt (upBefore up)) := cl.plus h hp
    have cr' : Close S u (k + 1) (add (wsum add r) next) (wt (items r) + wt (upAfter up)) := cr.plus h hn
    simp only [items, wt_append, wt_cons] at h2
    have hx1 : xs = (upBefore up ++ items l) ++ (d :: items r ++ upAfter up) := by rw [hx, items]; simp
    have hx2 : xs = (upBefore up ++ items l ++ [d]) ++ (items r ++ upAfter up) := by rw [hx, items]; simp
    have hsum : wt (upBefore up) + wt (items l) + d.w + (wt (items r) + wt (upAfter up)) = W := by
      rw [← hW, hx2]
      simp only [wt_append, wt_cons, wt_nil]
      ring
    have f1 := (hfar _ _ hx1).1
    have f2 := (hfar _ _ hx2).2
    have f3 := (hfar _ _ hx1).2
    have f4 := (hfar _ _ hx2).1
    simp only [wt_append, wt_cons, wt_nil] at f1 f2 f3 f4
    rw [descend]
    rcases decide_far h (cl'.mono h (by omega)) hm (by rw [add_comm]; exact f1) with ⟨c1, c2⟩ | ⟨c1, c2⟩
    · rw [if_pos c1]
      have cr1 : Close S u k (wsum add r) (wt (items r)) := cr
      have cn : Close S u (k + 1) (add next (add (wsum add r) d.w)) (wt (upAfter up) + (wt (items r) + d.w)) :=
        hn.plus h ((((wsum_close h r kr).plus h (Close.exact h _ kd))).mono h (by omega))
      obtain ⟨c, p, q, e⟩ := ihl (.left d (height l) (height r) (wsum add l) (wsum add r) r :: up) prev (add next (add (wsum add r) d.w)) (k + 1) gl kl
        (by rw [hx]; simp [upBefore, upAfter, items]) (hp.mono h (by omega)) (by
          have e : wt (upAfter (.left d (height l) (height r) (wsum add l) (wsum add r) r :: up)) = wt (upAfter up) + (wt (items r) + d.w) := by
            simp only [upAfter, List.cons_append, wt_cons, wt_append]; ring
          rw [e]; exact cn) (by omega) (by omega) h1 (by simp only [upBefore]; linarith)
      exact ⟨c, p, q, e⟩
    · rw [if_neg (not_lt.2 c1.le)]
      rcases decide_far h (cr'.mono h (by omega)) hm f2 with ⟨b1, b2⟩ | ⟨b1, b2⟩
      · rw [if_pos b1]
        have cn : Close S u (k + 1) (add prev (add (wsum add l) d.w)) (wt (upBefore up) + (wt (items l) + d.w)) :=
          hp.plus h ((((wsum_close h l kl).plus h (Close.exact h _ kd))).mono h (by omega))
        have e : wt (upBefore (.right l d (height l) (height r) (wsum add l) (wsum add r) :: up)) = wt (upBefore up) + (wt (items l) + d.w) := by
          simp only [upBefore, wt_append, wt_cons, wt_nil]; ring
        obtain ⟨c, p, q, e⟩ := ihr (.right l d (height l) (height r) (wsum add l) (wsum add r) :: up) (add prev (add (wsum add l) d.w)) next (k + 1) gr kr
          (by rw [hx]; simp [upBefore, upAfter, items]) (by rw [e]; exact cn) (hn.mono h (by omega)) (by omega) (by omega) (by rw [e]; linarith) (by rw [e]; linarith)
        exact ⟨c, p, q, e⟩
      · rw [if_neg (not_lt.2 b1.le)]
        refine ⟨_, _, _, rfl, by rw [hx1]; simp [Cursor.before, Cursor.after], ?_, ?_, ?_, ?_⟩
        · simp only [Cursor.before, wt_append]; linarith
        · simp only [Cursor.before, wt_append]; linarith
        · have cq := (cr'.plus h (Close.exact h (k + 1) kd)).mono h (j := K) (by omega)
          rcases decide_far h cq hm (by
            have e : wt (items r) + wt (upAfter up) + d.w = d.w + wt (items r) + wt (upAfter up) := by ring
            rw [e]
            simpa [add_assoc] using f3) with ⟨a1, _⟩ | ⟨_, a2⟩
          · exact a1
          · exact absurd a2 (by linarith)
        · have cq := (cl'.plus h (Close.exact h (k + 1) kd)).mono h (j := K) (by omega)
          rcases decide_far h cq hm (by
            have e : wt (items l) + wt (upBefore up) + d.w = wt (upBefore up) + wt (items l) + d.w := by ring
            rw [e]
            simpa [add_assoc] using f4) with ⟨a1, _⟩ | ⟨_, a2⟩
          · exact a1
          · exact absurd a2 (by linarith)

/-- All three methods, if no sum is near half of the weight. -/
theorem median_clear (h : RelOn add S u) (t : Tree) (g : Good add t) (hs : Of S (items t)) (hpos : 0 < wt (items t))
    (hfar : ∀ a b, items t = a ++ b → Far u (3 * height t + 2) (wt (items t)) (wt a) ∧ Far u (3 * height t + 2) (wt (items t)) (wt b)) :
    ∃ pre x post, items t = pre ++ x :: post ∧ wt pre < wt (items t) / 2 ∧ wt (items t) / 2 < wt pre + x.w ∧
      ∀ m, m = 's' ∨ m = 'l' ∨ m = 'h' → weightedMedian add t m = .value x.v := by
  have hc := wsum_close h t hs
  have hne : t ≠ .nil := by rintro rfl; simp [items] at hpos
  have hm : Close (fun _ => True) u (3 * height t + 2) (totalWeight add t / 2) (wt (items t) / 2) := by
    rw [g.tw]
    have := hc.mono h (j := 3 * height t + 2) (by omega)
    refine ⟨trivial, by linarith, ?_, ?_⟩
    · have := this.lo; linarith
    · have := this.hi; linarith
  obtain ⟨c, p, q, e, hl, b1, b2, d1, d2⟩ := descend_clear h (3 * height t + 2) (wt (items t)) _ (items t) hm rfl hfar t [] 0 0 (2 * height t) g hs
    (by simp [upBefore, upAfter]) (Close.exact h _ h.zero) (Close.exact h _ h.zero) le_rfl (by omega)
    (by simp [upBefore]; linarith) (by simp [upBefore]; linarith)
  refine ⟨c.before, c.d, c.after, hl, b1, b2, ?_⟩
  have s1 : splitDown add (totalWeight add t / 2) (numNodes t + 1) c q c.d.v 1 = some (c.d.v, 1) := by
    rw [splitDown, if_neg (not_le.2 d1)]
  have s2 : splitUp add (totalWeight add t / 2) (numNodes t + 1) c p c.d.v 1 = some (c.d.v, 1) := by
    rw [splitUp, if_neg (not_le.2 d2)]
  rintro m (rfl | rfl | rfl)
  · simp only [weightedMedian, if_neg hne, e, finish, if_true, medianSplit, s1, s2, Option.bind_eq_bind, Option.bind_some, ofOption]
    simp
  · have d1' := not_le.2 d1
    simp [weightedMedian, hne, e, finish, Cursor.tree, medianLower, d1', ofOption]
  · have d2' := not_le.2 d2
    simp [weightedMedian, hne, e, finish, Cursor.tree, medianHigher, d2', ofOption]

/-! ### Near half of the weight -/

/-- The caches and weights are of the kind. -/
def Kinds (S : Rat → Prop) (lw rw w : Rat) : Prop := S lw ∧ S rw ∧ S w

theorem kinds_nodes (h : RelOn add S u) (t : Tree) (g : Good add t) (hs : Of S (items t)) : NnP (Kinds S) t := by
  induction t with
  | nil => trivial
  | node l d lh rh lw rw r ihl ihr =>
    obtain ⟨gl, gr, rfl, rfl, rfl, rfl, _⟩ := g
    obtain ⟨kl, kd, kr⟩ := of_node hs
    exact ⟨ihl gl kl, ihr gr kr, (wsum_close h l kl).s, (wsum_close h r kr).s, kd⟩

/-- What is known where the descent ends. -/
theorem descend_ends (h : RelOn add S u) (K : Nat) (mid : Rat) (t : Tree) (up : List Frame) (prev next : Rat) (k : Nat)
    (g : Good add t) (hs : Of S (items t)) (hp : Close S u k prev (wt (upBefore up))) (hn : Close S u k next (wt (upAfter up)))
    (nt : NnP (Kinds S) t) (nu : NnUpP (Kinds S) up) (hk : 2 * height t ≤ k) (hK : k + height t + 2 ≤ K) (c : Cursor) (p q : Rat)
    (e : descend add mid t up prev next = some (c, p, q)) :
    upBefore up ++ items t ++ upAfter up = c.before ++ c.d :: c.after ∧ NnP (Kinds S) c.tree ∧ NnUpP (Kinds S) c.up ∧
      S p ∧ S q ∧ (1 - u) ^ K * wt c.before ≤ c.lw + p ∧ (1 - u) ^ K * wt c.after ≤ c.rw + q ∧ add c.lw p ≤ mid ∧ add c.rw q ≤ mid := by
  induction t generalizing up prev next k with
  | nil => simp [descend] at e
  | node l d lh rh lw rw r ihl ihr =>
    obtain ⟨nl, nr, nd⟩ := nt
    obtain ⟨gl, gr, rfl, rfl, rfl, rfl, _⟩ := g
    obtain ⟨kl, kd, kr⟩ := of_node hs
    simp only [height] at hk hK
    have cl : Close S u k (wsum add l) (wt (items l)) := (wsum_close h l kl).mono h (by omega)
    have cr : Close S u k (wsum add r) (wt (items r)) := (wsum_close h r kr).mono h (by omega)
    rw [descend] at e
    split at e
    · have cn : Close S u (k + 1) (add next (add (wsum add r) d.w)) (wt (upAfter up) + (wt (items r) + d.w)) :=
        hn.plus h ((((wsum_close h r kr).plus h (Close.exact h _ kd))).mono h (by omega))
      have ea : wt (upAfter (.left d (height l) (height r) (wsum add l) (wsum add r) r :: up)) = wt (upAfter up) + (wt (items r) + d.w) := by
        simp only [upAfter, List.cons_append, wt_cons, wt_append]; ring
      obtain ⟨e1, e2⟩ := ihl (.left d (height l) (height r) (wsum add l) (wsum add r) r :: up) _ _ (k + 1) gl kl (hp.mono h (by omega)) (by rw [ea]; exact cn)
        nl ⟨nd, nr, nu⟩ (by omega) (by omega) e
      refine ⟨?_, e2⟩
      rw [← e1]
      simp [upBefore, upAfter, items]
    · rename_i n1
      split at e
      · have cn : Close S u (k + 1) (add prev (add (wsum add l) d.w)) (wt (upBefore up) + (wt (items l) + d.w)) :=
          hp.plus h ((((wsum_close h l kl).plus h (Close.exact h _ kd))).mono h (by omega))
        have eb : wt (upBefore (.right l d (height l) (height r) (wsum add l) (wsum add r) :: up)) = wt (upBefore up) + (wt (items l) + d.w) := by
          simp only [upBefore, wt_append, wt_cons, wt_nil]; ring
        obtain ⟨e1, e2⟩ := ihr (.right l d (height l) (height r) (wsum add l) (wsum add r) :: up) _ _ (k + 1) gr kr (by rw [eb]; exact cn) (hn.mono h (by omega))
          nr ⟨nd, nl, nu⟩ (by omega) (by omega) e
        refine ⟨?_, e2⟩
        rw [← e1]
        simp [upBefore, upAfter, items]
      · rename_i n2
        simp only [Option.some.injEq, Prod.mk.injEq] at e
        obtain ⟨rfl, rfl, rfl⟩ := e
        refine ⟨by simp [Cursor.before, Cursor.after, items], ⟨nl, nr, nd⟩, nu, hp.s, hn.s, ?_, ?_, not_lt.1 n1, not_lt.1 n2⟩
        · have a := (cl.mono h (j := K) (by omega)).lo
          have b := (hp.mono h (j := K) (by omega)).lo
          simp only [Cursor.before, wt_append]
          linarith
        · have a := (cr.mono h (j := K) (by omega)).lo
          have b := (hn.mono h (j := K) (by omega)).lo
          simp only [Cursor.after, wt_append]
          linarith

theorem low_add (h : RelOn add S u) {a b : Rat} (ha : S a) (hb : S b) : (1 - u) * (a + b) ≤ add a b := by
  have := (abs_le.1 (h.err a b ha hb)).1
  linarith

theorem pred_none (c : Cursor) (hb : c.before = []) : c.pred = none := by
  simp only [Cursor.before, List.append_eq_nil_iff] at hb
  have hl : c.l = .nil := by
    cases hc : c.l with
    | nil => rfl
    | node => rw [hc] at hb; simp [items] at hb
  unfold Cursor.pred
  rw [if_pos hl]
  have : ∀ (up : List Frame) (t : Tree), upBefore up = [] → climbPrev t up = none := by
    intro up
    induction up with
    | nil => intro t _; rfl
    | cons f up ih =>
      intro t hu
      cases f with
      | left d lh rh lw rw r => exact ih _ hu
      | right l d lh rh lw rw => simp [upBefore] at hu
  exact this _ _ hb.1

theorem succ_none (c : Cursor) (hb : c.after = []) : c.succ = none := by
  simp only [Cursor.after, List.append_eq_nil_iff] at hb
  have hl : c.r = .nil := by
    cases hc : c.r with
    | nil => rfl
    | node => rw [hc] at hb; simp [items] at hb
  unfold Cursor.succ
  rw [if_pos hl]
  have : ∀ (up : List Frame) (t : Tree), upAfter up = [] → climbNext t up = none := by
    intro up
    induction up with
    | nil => intro t _; rfl
    | cons f up ih =>
      intro t hu
      cases f with
      | left d lh rh lw rw r => simp [upAfter] at hu
      | right l d lh rh lw rw => exact ih _ hu
  exact this _ _ hb.2

/-- The first loop of `split` takes items one after another downwards, and after each of them there is at most about half of the weight. -/
theorem splitDown_takes (h : RelOn add S u) (mid : Rat) (fuel : Nat) (c : Cursor) (next sum : Rat) (cnt : Nat) (k : Nat) (A : Rat)
    (nt : NnP (Kinds S) c.tree) (nu : NnUpP (Kinds S) c.up) (hn : S next) (hl : (1 - u) ^ k * A ≤ c.rw + next) (hA : 0 ≤ A) (res : Rat × Nat)
    (e : splitDown add mid fuel c next sum cnt = some res) :
    ∃ rest down, c.before = rest ++ down.reverse ∧ res = (down.foldl (fun s x => add s x.v) sum, cnt + down.length) ∧
      ∀ a x b, down = a ++ x :: b → (1 - u) ^ (k + 2 * (a.length + 1)) * (wt a + c.d.w + A) ≤ mid := by
  have h0 := h.u0
  have h1 := h.u1
  induction fuel generalizing c next sum cnt k A with
  | zero => simp [splitDown] at e
  | succ fuel ih =>
    rw [splitDown] at e
    split at e
    · rename_i hle
      have nt0 := nt
      obtain ⟨ntl, ntr, sl, sr, sd⟩ := nt
      have d0 := h.nonneg _ sd
      have pk : (1 - u) ^ k ≤ (1 : Rat) := pow_le_one₀ (by linarith) (by linarith)
      have b3 : (1 - u) ^ k * (c.d.w + A) ≤ c.rw + next + c.d.w := by nlinarith
      have b5 : (1 - u) ^ (k + 2) * (c.d.w + A) ≤ (1 - u) * ((1 - u) * (c.rw + next + c.d.w)) := by
        calc (1 - u) ^ (k + 2) * (c.d.w + A) = (1 - u) * ((1 - u) * ((1 - u) ^ k * (c.d.w + A))) := by ring
          _ ≤ _ := mul_le_mul_of_nonneg_left (mul_le_mul_of_nonneg_left b3 (by linarith)) (by linarith)
      have hstep : (1 - u) ^ (k + 2) * (c.d.w + A) ≤ mid := by
        have b1 := low_add h sr hn
        have b2 := low_add h (h.closed _ _ sr hn) sd
        have b4 : (1 - u) * (c.rw + next + c.d.w) ≤ add c.rw next + c.d.w := by nlinarith
        calc _ ≤ _ := b5
          _ ≤ (1 - u) * (add c.rw next + c.d.w) := mul_le_mul_of_nonneg_left b4 (by linarith)
          _ ≤ _ := le_trans b2 hle
      by_cases hb : c.before = []
      · rw [pred_none c hb] at e
        simp only [Option.some.injEq] at e
        exact ⟨[], [], by simp [hb], by rw [← e]; simp, fun a x b hd => by simp at hd⟩
      · obtain ⟨c', ec, hbef, nt', nu'⟩ := pred_ok c nt0 nu hb
        rw [ec] at e
        simp only at e
        have sn : S (add next (add c.d.w c.rw)) := h.closed _ _ hn (h.closed _ _ sd sr)
        have hnext : (1 - u) ^ (k + 2) * (c.d.w + A) ≤ c'.rw + add next (add c.d.w c.rw) := by
          have b1 := low_add h sd sr
          have b2 := low_add h hn (h.closed _ _ sd sr)
          have r0 := h.nonneg _ nt'.2.2.2.1
          have n0 := h.nonneg _ hn
          have b4 : (1 - u) * (c.rw + next + c.d.w) ≤ next + add c.d.w c.rw := by nlinarith
          have b6 := mul_le_mul_of_nonneg_left b4 (show (0 : Rat) ≤ 1 - u by linarith)
          linarith
        obtain ⟨rest, down, e1, e2, e3⟩ := ih c' _ _ _ (k + 2) (c.d.w + A) nt' nu' sn hnext (by linarith) e
        refine ⟨rest, c'.d :: down, by rw [← hbef, e1]; simp, by rw [e2]; simp [Nat.add_assoc, Nat.add_comm 1], fun a x b hd => ?_⟩
        cases a with
        | nil => simpa using hstep
        | cons y a =>
          simp only [List.cons_append, List.cons.injEq] at hd
          obtain ⟨rfl, hd⟩ := hd
          have := e3 a x b hd
          have e4 : k + 2 + 2 * (a.length + 1) = k + 2 * ((c'.d :: a).length + 1) := by simp only [List.length_cons]; ring
          have e5 : wt a + c'.d.w + (c.d.w + A) = wt (c'.d :: a) + c.d.w + A := by rw [wt_cons]; ring
          rw [e4, e5] at this
          exact this
    · simp only [Option.some.injEq] at e
      exact ⟨c.before, [], by simp, by rw [← e]; simp, fun a x b hd => by simp at hd⟩

/-- The second loop upwards. -/
theorem splitUp_takes (h : RelOn add S u) (mid : Rat) (fuel : Nat) (c : Cursor) (prev sum : Rat) (cnt : Nat) (k : Nat) (A : Rat)
    (nt : NnP (Kinds S) c.tree) (nu : NnUpP (Kinds S) c.up) (hn : S prev) (hl : (1 - u) ^ k * A ≤ c.lw + prev) (hA : 0 ≤ A) (res : Rat × Nat)
    (e : splitUp add mid fuel c prev sum cnt = some res) :
    ∃ rest up, c.after = up ++ rest ∧ res = (up.foldl (fun s x => add s x.v) sum, cnt + up.length) ∧
      ∀ a x b, up = a ++ x :: b → (1 - u) ^ (k + 2 * (a.length + 1)) * (wt a + c.d.w + A) ≤ mid := by
  have h0 := h.u0
  have h1 := h.u1
  induction fuel generalizing c prev sum cnt k A with
  | zero => simp [splitUp] at e
  | succ fuel ih =>
    rw [splitUp] at e
    split at e
    · rename_i hle
      have nt0 := nt
      obtain ⟨ntl, ntr, sl, sr, sd⟩ := nt
      have d0 := h.nonneg _ sd
      have pk : (1 - u) ^ k ≤ (1 : Rat) := pow_le_one₀ (by linarith) (by linarith)
      have b3 : (1 - u) ^ k * (c.d.w + A) ≤ c.lw + prev + c.d.w := by nlinarith
      have b5 : (1 - u) ^ (k + 2) * (c.d.w + A) ≤ (1 - u) * ((1 - u) * (c.lw + prev + c.d.w)) := by
        calc (1 - u) ^ (k + 2) * (c.d.w + A) = (1 - u) * ((1 - u) * ((1 - u) ^ k * (c.d.w + A))) := by ring
          _ ≤ _ := mul_le_mul_of_nonneg_left (mul_le_mul_of_nonneg_left b3 (by linarith)) (by linarith)
      have hstep : (1 - u) ^ (k + 2) * (c.d.w + A) ≤ mid := by
        have b1 := low_add h sl hn
        have b2 := low_add h (h.closed _ _ sl hn) sd
        have b4 : (1 - u) * (c.lw + prev + c.d.w) ≤ add c.lw prev + c.d.w := by nlinarith
        calc _ ≤ _ := b5
          _ ≤ (1 - u) * (add c.lw prev + c.d.w) := mul_le_mul_of_nonneg_left b4 (by linarith)
          _ ≤ _ := le_trans b2 hle
      by_cases hb : c.after = []
      · rw [succ_none c hb] at e
        simp only [Option.some.injEq] at e
        exact ⟨[], [], by simp [hb], by rw [← e]; simp, fun a x b hd => by simp at hd⟩
      · obtain ⟨c', ec, hbef, nt', nu'⟩ := succ_ok c nt0 nu hb
        rw [ec] at e
        simp only at e
        have sn : S (add prev (add c.d.w c.lw)) := h.closed _ _ hn (h.closed _ _ sd sl)
        have hnext : (1 - u) ^ (k + 2) * (c.d.w + A) ≤ c'.lw + add prev (add c.d.w c.lw) := by
          have b1 := low_add h sd sl
          have b2 := low_add h hn (h.closed _ _ sd sl)
          have r0 := h.nonneg _ nt'.2.2.1
          have n0 := h.nonneg _ hn
          have b4 : (1 - u) * (c.lw + prev + c.d.w) ≤ prev + add c.d.w c.lw := by nlinarith
          have b6 := mul_le_mul_of_nonneg_left b4 (show (0 : Rat) ≤ 1 - u by linarith)
          linarith
        obtain ⟨rest, up, e1, e2, e3⟩ := ih c' _ _ _ (k + 2) (c.d.w + A) nt' nu' sn hnext (by linarith) e
        refine ⟨rest, c'.d :: up, by rw [← hbef, e1]; simp, by rw [e2]; simp [Nat.add_assoc, Nat.add_comm 1], fun a x b hd => ?_⟩
        cases a with
        | nil => simpa using hstep
        | cons y a =>
          simp only [List.cons_append, List.cons.injEq] at hd
          obtain ⟨rfl, hd⟩ := hd
          have := e3 a x b hd
          have e4 : k + 2 + 2 * (a.length + 1) = k + 2 * ((c'.d :: a).length + 1) := by simp only [List.length_cons]; ring
          have e5 : wt a + c'.d.w + (c.d.w + A) = wt (c'.d :: a) + c.d.w + A := by rw [wt_cons]; ring
          rw [e4, e5] at this
          exact this
    · simp only [Option.some.injEq] at e
      exact ⟨c.after, [], by simp, by rw [← e]; simp, fun a x b hd => by simp at hd⟩

theorem wt_reverse (xs : List Item) : wt xs.reverse = wt xs := by simp [wt, List.sum_reverse]

/-- Cutting a list at a position inside of it. -/
theorem cut_at (xs : List Item) (j : Nat) (h : j < xs.length) : ∃ a y b, xs = a ++ y :: b ∧ a.length = j :=
  ⟨xs.take j, xs[j], xs.drop (j + 1), by simp, by simp; omega⟩

theorem pow_shrink (h : RelOn add S u) {i j : Nat} (hij : i ≤ j) {X : Rat} (hX : 0 ≤ X) : (1 - u) ^ j * X ≤ (1 - u) ^ i * X := by
  have h0 := h.u0
  have h1 := h.u1
  exact mul_le_mul_of_nonneg_right (pow_le_pow_of_le_one (by linarith) (by linarith) hij) hX

/-- What `split` gives, if it gives anything: the mean, as computed, of neighbours, with at most about half of the weight before and after each of them. -/
theorem split_near (h : RelOn add S u) (t : Tree) (g : Good add t) (hs : Of S (items t)) (hne : t ≠ .nil) (m : Rat)
    (e : weightedMedian add t 's' = .value m) :
    ∃ pre down x up post, items t = pre ++ (down.reverse ++ x :: up) ++ post ∧ m = ((down ++ up).foldl (fun s y => add s y.v) x.v) / (down.length + up.length + 1 : Nat) ∧
      ∀ a y b, items t = a ++ y :: b → pre.length ≤ a.length → a.length < pre.length + (down.length + up.length + 1) →
        (1 - u) ^ (3 * height t + 2 + 2 * (down.length + up.length + 1)) * wt a ≤ (1 + u) ^ (3 * height t + 2) * (wt (items t) / 2) ∧
        (1 - u) ^ (3 * height t + 2 + 2 * (down.length + up.length + 1)) * wt b ≤ (1 + u) ^ (3 * height t + 2) * (wt (items t) / 2) := by
  have h0 := h.u0
  have h1 := h.u1
  simp only [weightedMedian, if_neg hne] at e
  generalize hmid : totalWeight add t / 2 = mid at e
  have hm : mid ≤ (1 + u) ^ (3 * height t + 2) * (wt (items t) / 2) := by
    rw [← hmid, g.tw]
    have := ((wsum_close h t hs).mono h (j := 3 * height t + 2) (by omega)).hi
    linarith
  cases hd : descend add mid t [] 0 0 with
  | none => rw [hd] at e; simp [finish] at e
  | some r =>
    obtain ⟨c, p, q⟩ := r
    rw [hd] at e
    obtain ⟨d1, d2, d3, d4, d5, d6, d7, d8, d9⟩ := descend_ends h (3 * height t + 2) mid t [] 0 0 (2 * height t) g hs (Close.exact h _ h.zero) (Close.exact h _ h.zero)
      (kinds_nodes h t g hs) trivial le_rfl (by omega) c p q hd
    simp only [upBefore, upAfter, List.nil_append, List.append_nil] at d1
    have ob : Of S c.before := fun x hx => hs x (by rw [d1]; simp [hx])
    have oa : Of S c.after := fun x hx => hs x (by rw [d1]; simp [hx])
    simp only [finish, if_true, medianSplit, Option.bind_eq_bind] at e
    cases hsd : splitDown add mid (numNodes t + 1) c q c.d.v 1 with
    | none => rw [hsd] at e; simp [ofOption] at e
    | some r1 =>
      rw [hsd] at e
      simp only [Option.bind_some] at e
      cases hsu : splitUp add mid (numNodes t + 1) c p r1.1 r1.2 with
      | none => rw [hsu] at e; simp [ofOption] at e
      | some r2 =>
        rw [hsu] at e
        simp only [Option.bind_some, ofOption, Result.value.injEq] at e
        obtain ⟨pre, down, l1, l2, l3⟩ := splitDown_takes h mid _ c q _ _ (3 * height t + 2) (wt c.after) d2 d3 d5 d7 (wt0 h oa) r1 hsd
        obtain ⟨post, up, k1, k2, k3⟩ := splitUp_takes h mid _ c p _ _ (3 * height t + 2) (wt c.before) d2 d3 d4 d6 (wt0 h ob) r2 hsu
        refine ⟨pre, down, c.d, up, post, by rw [d1, l1, k1]; simp, ?_, ?_⟩
        · rw [← e, k2, l2, List.foldl_append]
          congr 2
          omega
        · intro a y b hl ha hb
          have key : (1 - u) ^ (3 * height t + 2 + 2 * (down.length + up.length + 1)) * wt a ≤ mid ∧
              (1 - u) ^ (3 * height t + 2 + 2 * (down.length + up.length + 1)) * wt b ≤ mid := by
            have hw : ∀ zs : List Item, Of S zs → 0 ≤ wt zs := fun zs hz => wt0 h hz
            have hd0 : 0 ≤ c.d.w := h.nonneg _ (hs c.d (by rw [d1]; simp))
            have mB : (1 - u) ^ (3 * height t + 3) * wt c.before ≤ mid := by
              calc (1 - u) ^ (3 * height t + 3) * wt c.before = (1 - u) * ((1 - u) ^ (3 * height t + 2) * wt c.before) := by ring
                _ ≤ (1 - u) * (c.lw + p) := mul_le_mul_of_nonneg_left d6 (by linarith)
                _ ≤ _ := le_trans (low_add h d2.2.2.1 d4) d8
            have mA : (1 - u) ^ (3 * height t + 3) * wt c.after ≤ mid := by
              calc (1 - u) ^ (3 * height t + 3) * wt c.after = (1 - u) * ((1 - u) ^ (3 * height t + 2) * wt c.after) := by ring
                _ ≤ (1 - u) * (c.rw + q) := mul_le_mul_of_nonneg_left d7 (by linarith)
                _ ≤ _ := le_trans (low_add h d2.2.2.2.1 d5) d9
            have up0 : (0 : Rat) ≤ (1 - u) ^ (3 * height t + 3) := pow_nonneg (by linarith) _
            have big : 3 * height t + 3 ≤ 3 * height t + 2 + 2 * (down.length + up.length + 1) := by omega
            have hay : Of S a := fun z hz => hs z (by rw [hl]; simp [hz])
            have hby : Of S b := fun z hz => hs z (by rw [hl]; simp [hz])
            rw [hl, l1, k1] at d1
            rcases Nat.lt_trichotomy a.length (pre.length + down.length) with hlt | heq | hgt
            · obtain ⟨a', z, b', hc, hcl⟩ := cut_at down.reverse (a.length - pre.length) (by simp; omega)
              rw [hc] at d1
              have d1' : a ++ y :: b = (pre ++ a') ++ z :: (b' ++ c.d :: (up ++ post)) := by rw [d1]; simp
              obtain ⟨ea, eb⟩ := List.append_inj d1' (by simp; omega)
              simp only [List.cons.injEq] at eb
              obtain ⟨rfl, rfl⟩ := eb
              have hcb : c.before = a ++ (y :: b') := by rw [l1, hc, ea]; simp
              have o' : Of S (y :: b') := fun w hw => ob w (by rw [hcb]; exact List.mem_append_right _ hw)
              have hr : down = b'.reverse ++ y :: a'.reverse := by rw [← List.reverse_reverse down, hc]; simp
              have hk := l3 b'.reverse y a'.reverse hr
              have hlen : b'.length < down.length := by rw [hr]; simp
              refine ⟨le_trans (pow_shrink h big (hw a hay)) (le_trans (mul_le_mul_of_nonneg_left ?_ up0) mB), ?_⟩
              · rw [hcb, wt_append]; linarith [hw _ o']
              · have e1 : wt (b' ++ c.d :: (up ++ post)) = wt b'.reverse + c.d.w + wt c.after := by
                  rw [wt_append, wt_cons, wt_reverse, k1]; ring
                rw [e1]
                refine le_trans (pow_shrink h (by simp; omega) ?_) hk
                rw [← e1]; exact hw _ hby
            · have d1' : a ++ y :: b = (pre ++ down.reverse) ++ c.d :: (up ++ post) := d1
              obtain ⟨ea, eb⟩ := List.append_inj d1' (by simp; omega)
              simp only [List.cons.injEq] at eb
              obtain ⟨rfl, rfl⟩ := eb
              rw [ea, ← l1, ← k1]
              exact ⟨le_trans (pow_shrink h big (hw _ ob)) mB, le_trans (pow_shrink h big (hw _ oa)) mA⟩
            · obtain ⟨a', z, b', hc, hcl⟩ := cut_at up (a.length - (pre.length + down.length + 1)) (by omega)
              rw [hc] at d1
              have d1' : a ++ y :: b = (pre ++ down.reverse ++ c.d :: a') ++ z :: (b' ++ post) := by rw [d1]; simp
              obtain ⟨ea, eb⟩ := List.append_inj d1' (by simp; omega)
              simp only [List.cons.injEq] at eb
              obtain ⟨rfl, rfl⟩ := eb
              have hca : c.after = (a' ++ [y]) ++ (b' ++ post) := by rw [k1, hc]; simp
              have o' : Of S (a' ++ [y]) := fun w hw => oa w (by rw [hca]; exact List.mem_append_left _ hw)
              have hk := k3 a' y b' hc
              have hlen : a'.length < up.length := by rw [hc]; simp
              refine ⟨?_, le_trans (pow_shrink h big (hw _ hby)) (le_trans (mul_le_mul_of_nonneg_left ?_ up0) mA)⟩
              · have e1 : wt a = wt a' + c.d.w + wt c.before := by
                  rw [ea, wt_append, wt_cons, l1]; ring
                rw [e1]
                refine le_trans (pow_shrink h (by omega) ?_) hk
                rw [← e1]; exact hw _ hay
              · rw [hca, wt_append (a' ++ [y])]; linarith [hw _ o']
          exact ⟨le_trans key.1 hm, le_trans key.2 hm⟩

end Verif.Median
