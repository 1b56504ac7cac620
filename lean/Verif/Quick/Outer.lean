import Verif.Quick.Lemmas

/-! # Helper lemmas for C19: the outer loop -/
namespace Verif.Quick
open Verif.Median (Item)

/-- Weight of the elements with a property. -/
def fs (P : Item → Bool) (l : List Item) : Rat := ((l.filter P).map Item.w).sum

def NonNeg (l : List Item) : Prop := ∀ x ∈ l, 0 ≤ x.w

theorem fs_cons (P : Item → Bool) (x : Item) (l : List Item) :
    fs P (x :: l) = (if P x then x.w else 0) + fs P l := by
  by_cases h : P x <;> simp [fs, h]

theorem total_cons (x : Item) (l : List Item) : total (x :: l) = x.w + total l := by simp [total]

theorem fs_append (P : Item → Bool) (a b : List Item) : fs P (a ++ b) = fs P a + fs P b := by
  simp [fs]

theorem fs_perm (P : Item → Bool) {a b : List Item} (h : a.Perm b) : fs P a = fs P b :=
  ((h.filter P).map Item.w).sum_eq

theorem fs_nonneg (P : Item → Bool) (l : List Item) (h : NonNeg l) : 0 ≤ fs P l := by
  induction l with
  | nil => simp [fs]
  | cons x l ih =>
    rw [fs_cons]
    have h1 := h x (by simp)
    have h2 := ih fun y hy => h y (by simp [hy])
    by_cases hp : P x <;> simp [hp] <;> linarith

theorem fs_le (P : Item → Bool) (l : List Item) (h : NonNeg l) : fs P l ≤ total l := by
  induction l with
  | nil => simp [fs, total]
  | cons x l ih =>
    rw [fs_cons, total_cons]
    have h1 := h x (by simp)
    have h2 := ih fun y hy => h y (by simp [hy])
    by_cases hp : P x <;> simp [hp] <;> linarith

theorem fs_all (P : Item → Bool) (l : List Item) (h : NonNeg l)
    (hp : ∀ x ∈ l, 0 < x.w → P x = true) : fs P l = total l := by
  induction l with
  | nil => simp [fs, total]
  | cons x l ih =>
    rw [fs_cons, total_cons, ih (fun y hy => h y (by simp [hy])) fun y hy => hp y (by simp [hy])]
    have h1 := h x (by simp)
    rcases eq_or_lt_of_le h1 with h0 | h0
    · by_cases hx : P x <;> simp [hx, ← h0]
    · simp [hp x (by simp) h0]

theorem fs_none (P : Item → Bool) (l : List Item) (h : NonNeg l)
    (hp : ∀ x ∈ l, 0 < x.w → P x = false) : fs P l = 0 := by
  induction l with
  | nil => simp [fs]
  | cons x l ih =>
    rw [fs_cons, ih (fun y hy => h y (by simp [hy])) fun y hy => hp y (by simp [hy])]
    have h1 := h x (by simp)
    rcases eq_or_lt_of_le h1 with h0 | h0
    · by_cases hx : P x <;> simp [hx, ← h0]
    · simp [hp x (by simp) h0]

theorem below_eq (xs : List Item) (v : Rat) : below xs v = fs (fun x => decide (x.v < v)) xs := rfl
theorem atOrBelow_eq (xs : List Item) (v : Rat) :
    atOrBelow xs v = fs (fun x => decide (x.v ≤ v)) xs := rfl

theorem total_split (a : List Item) (k : Nat) : total a = pre a k + total (a.drop k) := by
  rw [pre, ← total_append, List.take_append_drop]

theorem fs_split (P : Item → Bool) (a : List Item) (k : Nat) :
    fs P a = fs P (a.take k) + fs P (a.drop k) := by
  rw [← fs_append, List.take_append_drop]

theorem NonNeg.take {a : List Item} (h : NonNeg a) (k : Nat) : NonNeg (a.take k) :=
  fun x hx => h x (List.mem_of_mem_take hx)

theorem NonNeg.drop {a : List Item} (h : NonNeg a) (k : Nat) : NonNeg (a.drop k) :=
  fun x hx => h x (List.mem_of_mem_drop hx)

theorem mem_take_idx {a : List Item} {k : Nat} {x : Item} (h : x ∈ a.take k) :
    ∃ l, l < k ∧ a[l]? = some x := by
  obtain ⟨l, hl⟩ := List.mem_iff_getElem?.1 h
  rw [List.getElem?_take] at hl
  by_cases hk : l < k
  · rw [if_pos hk] at hl; exact ⟨l, hk, hl⟩
  · rw [if_neg hk] at hl; simp at hl

theorem mem_drop_idx {a : List Item} {k : Nat} {x : Item} (h : x ∈ a.drop k) :
    ∃ l, k ≤ l ∧ a[l]? = some x := by
  obtain ⟨l, hl⟩ := List.mem_iff_getElem?.1 h
  rw [List.getElem?_drop] at hl
  exact ⟨k + l, by omega, hl⟩

/-- If all elements from index `k` on are at least `v`, what lies below `v` is at most the prefix. -/
theorem below_le_pre (a : List Item) (h : NonNeg a) (k : Nat) (v : Rat)
    (hv : ∀ (l : Nat) (x : Item), a[l]? = some x → k ≤ l → v ≤ x.v) : below a v ≤ pre a k := by
  rw [below_eq, fs_split _ a k, fs_none _ _ (h.drop k)]
  · have := fs_le (fun x => decide (x.v < v)) _ (h.take k)
    rw [pre]; linarith
  · intro x hx _
    obtain ⟨l, hl, e⟩ := mem_drop_idx hx
    have := hv l x e hl
    simp only [decide_eq_false_iff_not]
    linarith

theorem pre_le_atOrBelow (a : List Item) (h : NonNeg a) (k : Nat) (v : Rat)
    (hv : ∀ (l : Nat) (x : Item), a[l]? = some x → l < k → x.v ≤ v) : pre a k ≤ atOrBelow a v := by
  rw [atOrBelow_eq, fs_split _ a k, fs_all _ _ (h.take k)]
  · have := fs_nonneg (fun x => decide (x.v ≤ v)) _ (h.drop k)
    rw [pre]; linarith
  · intro x hx _
    obtain ⟨l, hl, e⟩ := mem_take_idx hx
    have := hv l x e hl
    simpa using this

theorem below_perm {a b : List Item} (h : a.Perm b) (v : Rat) : below a v = below b v :=
  fs_perm _ h
theorem atOrBelow_perm {a b : List Item} (h : a.Perm b) (v : Rat) :
    atOrBelow a v = atOrBelow b v := fs_perm _ h

/-- The final answer for weights `Q` strictly inside, and on the boundaries. -/
structure Answer (xs : List Item) (Q : Rat) (m : Char) (r : Rat) : Prop where
  inner : 0 < Q → Q < total xs → QuantileSpec xs Q m r
  outer : (Q = 0 ∨ Q = total xs) → IsQuantile xs Q r

structure OInv (a0 a : List Item) (i j : Nat) (Q : Rat) : Prop where
  perm : a.Perm a0
  nonneg : NonNeg a
  le : i ≤ j
  bound : j < a.length
  lt : i < j ∨ a.length = 1
  low : ∀ (k l : Nat) (x y : Item), a[k]? = some x → a[l]? = some y → k < i → i ≤ l → x.v ≤ y.v
  high : ∀ (k l : Nat) (x y : Item), a[k]? = some x → a[l]? = some y → k ≤ j → j < l → x.v ≤ y.v
  preLe : pre a i ≤ Q
  lePre : Q ≤ pre a (j + 1)
  preLt : 0 < Q → pre a i < Q
  ltPre : Q < total a0 → Q < pre a (j + 1)

theorem answer_at {a0 a : List Item} (hp : a.Perm a0) (hn : NonNeg a) (i : Nat) (x : Item) (Q : Rat)
    (m : Char) (hx : a[i]? = some x)
    (low : ∀ (k : Nat) (y : Item), a[k]? = some y → k < i → y.v ≤ x.v)
    (high : ∀ (k : Nat) (y : Item), a[k]? = some y → i < k → x.v ≤ y.v)
    (h1 : pre a i ≤ Q) (h2 : Q ≤ pre a (i + 1)) (h3 : 0 < Q → pre a i < Q)
    (h4 : Q < total a0 → Q < pre a (i + 1)) : Answer a0 Q m x.v := by
  have hi : i < a.length := by
    by_contra hc
    rw [List.getElem?_eq_none (by omega)] at hx
    simp at hx
  have ex : a[i] = x := by
    rw [List.getElem?_eq_getElem hi] at hx
    exact Option.some.inj hx
  have hmem : x ∈ a0 := hp.mem_iff.1 (List.mem_of_getElem? hx)
  have b1 : below a x.v ≤ pre a i := below_le_pre a hn i x.v fun l y hy hl => by
    rcases Nat.eq_or_lt_of_le hl with rfl | h
    · rw [hx] at hy
      obtain rfl := Option.some.inj hy
      exact le_rfl
    · exact high l y hy h
  have b2 : pre a (i + 1) ≤ atOrBelow a x.v := pre_le_atOrBelow a hn (i + 1) x.v fun l y hy hl => by
    rcases Nat.eq_or_lt_of_le (Nat.le_of_lt_succ hl) with rfl | h
    · rw [hx] at hy
      obtain rfl := Option.some.inj hy
      exact le_rfl
    · exact low l y hy h
  rw [below_perm hp] at b1
  rw [atOrBelow_perm hp] at b2
  constructor
  · intro c1 c2
    left
    have := h3 c1
    have := h4 c2
    have hs := pre_succ a i hi
    rw [ex] at hs
    exact ⟨x, hmem, by linarith, by linarith, by linarith, rfl⟩
  · intro _
    exact ⟨⟨x, hmem, rfl⟩, by linarith, by linarith⟩

theorem boundary_ok {a0 a : List Item} (hp : a.Perm a0) (hn : NonNeg a) (m : Char) (jj : Nat)
    (p Q : Rat) (hj : jj + 1 < a.length) (hQ : pre a (jj + 1) = Q) (ht : 0 < total a0)
    (left : ∀ (k : Nat) (x : Item), a[k]? = some x → k ≤ jj → x.v ≤ p)
    (right : ∀ (k : Nat) (x : Item), a[k]? = some x → jj < k → p ≤ x.v) :
    ∃ r, boundary id m a jj = some r ∧ Answer a0 Q m r := by
  obtain ⟨c, e1, hc⟩ := maxNonZero_ok a 0 jj (by omega) (by omega)
  obtain ⟨d, e2, hd⟩ := minNonZero_ok a (jj + 1) (a.length - 1) (by omega) (by omega)
  have hcl : c < a.length := by have := hc.hi; omega
  have hdl : d < a.length := by have := hd.hi; omega
  have gx := List.getElem?_eq_getElem hcl
  have gy := List.getElem?_eq_getElem hdl
  generalize a[c] = x at gx
  generalize a[d] = y at gy
  refine ⟨boundaryValue id m x y, by simp [boundary, e1, e2, gx, gy], ?_⟩
  have hxm : x ∈ a0 := hp.mem_iff.1 (List.mem_of_getElem? gx)
  have hym : y ∈ a0 := hp.mem_iff.1 (List.mem_of_getElem? gy)
  have hxn : 0 ≤ x.w := hn x (List.mem_of_getElem? gx)
  have hyn : 0 ≤ y.w := hn y (List.mem_of_getElem? gy)
  have hxp := left c x gx hc.hi
  have hyp := right d y gy (by have := hd.lo; omega)
  have ht' : total a0 = pre a (jj + 1) + total (a.drop (jj + 1)) := by
    rw [← total_perm hp, ← total_split]
  have lz : ¬ 0 < x.w → Q = 0 := by
    intro h
    rw [← hQ, pre, ← fs_none (fun _ => true) _ (hn.take (jj + 1))]
    · rw [fs_all _ _ (hn.take _)]; simp
    · intro z hz hzw
      obtain ⟨l, hl, e⟩ := mem_take_idx hz
      exact absurd hzw (hc.zero x gx h l z e (by omega) (by omega))
  have rz : ¬ 0 < y.w → Q = total a0 := by
    intro h
    rw [ht', hQ, ← fs_all (fun _ => true) (a.drop (jj + 1)) (hn.drop (jj + 1)) (by simp),
      fs_none _ _ (hn.drop _)]
    · ring
    · intro z hz hzw
      obtain ⟨l, hl, e⟩ := mem_drop_idx hz
      have : l < a.length := by
        by_contra hc
        rw [List.getElem?_eq_none (by omega)] at e
        simp at e
      exact absurd hzw (hd.zero y gy h l z e (by omega) (by omega))
  -- generic facts
  have bx : below a0 x.v ≤ Q := by
    rw [← below_perm hp, ← hQ]
    exact below_le_pre a hn (jj + 1) x.v fun l z hz hl => le_trans hxp (right l z hz (by omega))
  have ay : Q ≤ atOrBelow a0 y.v := by
    rw [← atOrBelow_perm hp, ← hQ]
    exact pre_le_atOrBelow a hn (jj + 1) y.v fun l z hz hl => le_trans (left l z hz (by omega)) hyp
  have atx : 0 < x.w → pre a (jj + 1) ≤ atOrBelow a0 x.v := by
    intro h
    rw [← atOrBelow_perm hp, atOrBelow_eq, fs_split _ a (jj + 1), fs_all _ _ (hn.take _)]
    · have := fs_nonneg (fun z => decide (z.v ≤ x.v)) _ (hn.drop (jj + 1))
      rw [pre]; linarith
    · intro z hz hzw
      obtain ⟨l, hl, e⟩ := mem_take_idx hz
      simpa using hc.pos x gx h l z e (by omega) (by omega) hzw
  have byy : 0 < y.w → below a0 y.v ≤ pre a (jj + 1) := by
    intro h
    rw [← below_perm hp, below_eq, fs_split _ a (jj + 1), fs_none _ (a.drop _) (hn.drop _)]
    · have := fs_le (fun z => decide (z.v < y.v)) _ (hn.take (jj + 1))
      rw [pre]; linarith
    · intro z hz hzw
      obtain ⟨l, hl, e⟩ := mem_drop_idx hz
      have : l < a.length := by
        by_contra hc
        rw [List.getElem?_eq_none (by omega)] at e
        simp at e
      have := hd.pos y gy h l z e (by omega) (by omega) hzw
      simpa using this
  constructor
  · intro q1 q2
    have px : 0 < x.w := by
      by_contra h
      have := lz h
      linarith
    have py : 0 < y.w := by
      by_contra h
      have := rz h
      linarith
    have hv : boundaryValue id m x y = pick m x.v y.v := by
      have n1 : ¬ y.w = 0 := by linarith
      have n2 : ¬ x.w = 0 := by linarith
      simp [boundaryValue, pick, n1, n2]
    rw [hv]
    rcases eq_or_lt_of_le (le_trans hxp hyp) with he | hlt
    · left
      refine ⟨x, hxm, px, ?_, ?_, ?_⟩
      · -- some positive weight of the prefix is not below
        have hpx : p = x.v := by linarith
        rw [← below_perm hp, below_eq, fs_split _ a (jj + 1), fs_none _ (a.drop _) (hn.drop _), ← hQ]
        · rw [add_zero]
          -- strict because of x
          obtain ⟨l1, l2, hl⟩ := List.append_of_mem
            (List.mem_of_getElem? (by rw [List.getElem?_take, if_pos (by have := hc.hi; omega), gx] :
              (a.take (jj + 1))[c]? = some x))
          have hnn := hn.take (jj + 1)
          rw [hl] at hnn
          rw [pre, hl, fs_append, fs_cons, total_append, total_cons]
          have f1 := fs_le (fun z => decide (z.v < x.v)) l1 fun z hz => hnn z (by simp [hz])
          have f2 := fs_le (fun z => decide (z.v < x.v)) l2 fun z hz => hnn z (by simp [hz])
          simp only [lt_self_iff_false, decide_false, Bool.false_eq_true, if_false]
          linarith
        · intro z hz hzw
          obtain ⟨l, hl, e⟩ := mem_drop_idx hz
          have := right l z e (by omega)
          simp only [decide_eq_false_iff_not]
          linarith
      · rw [← atOrBelow_perm hp, atOrBelow_eq, fs_split _ a (jj + 1), fs_all _ (a.take _) (hn.take _),
          ← hQ]
        · obtain ⟨l1, l2, hl⟩ := List.append_of_mem
            (List.mem_of_getElem? (by
              rw [List.getElem?_drop]
              have : jj + 1 + (d - (jj + 1)) = d := by have := hd.lo; omega
              rw [this, gy] : (a.drop (jj + 1))[d - (jj + 1)]? = some y))
          have hnn := hn.drop (jj + 1)
          rw [hl] at hnn
          rw [pre, hl, fs_append, fs_cons]
          have f1 := fs_nonneg (fun z => decide (z.v ≤ x.v)) l1 fun z hz => hnn z (by simp [hz])
          have f2 := fs_nonneg (fun z => decide (z.v ≤ x.v)) l2 fun z hz => hnn z (by simp [hz])
          have : y.v ≤ x.v := by linarith
          simp only [this, decide_true, if_true]
          linarith
        · intro z hz hzw
          obtain ⟨l, hl, e⟩ := mem_take_idx hz
          have := left l z e (by omega)
          simp only [decide_eq_true_eq]
          linarith
      · unfold pick
        rw [he]
        split
        · rfl
        · split
          · rfl
          · ring
    · right
      refine ⟨x, hxm, y, hym, px, py, hlt, ?_, ?_, rfl⟩
      · rw [← atOrBelow_perm hp, atOrBelow_eq, fs_split _ a (jj + 1), fs_all _ (a.take _) (hn.take _),
          fs_none _ (a.drop _) (hn.drop _), add_zero, ← hQ, pre]
        · intro z hz hzw
          obtain ⟨l, hl, e⟩ := mem_drop_idx hz
          have : l < a.length := by
            by_contra hc
            rw [List.getElem?_eq_none (by omega)] at e
            simp at e
          have := hd.pos y gy py l z e (by omega) (by omega) hzw
          simp only [decide_eq_false_iff_not]
          linarith
        · intro z hz hzw
          obtain ⟨l, hl, e⟩ := mem_take_idx hz
          simpa using hc.pos x gx px l z e (by omega) (by omega) hzw
      · rw [← below_perm hp, below_eq, fs_split _ a (jj + 1), fs_all _ (a.take _) (hn.take _),
          fs_none _ (a.drop _) (hn.drop _), add_zero, ← hQ, pre]
        · intro z hz hzw
          obtain ⟨l, hl, e⟩ := mem_drop_idx hz
          have : l < a.length := by
            by_contra hc
            rw [List.getElem?_eq_none (by omega)] at e
            simp at e
          have := hd.pos y gy py l z e (by omega) (by omega) hzw
          simpa using this
        · intro z hz hzw
          obtain ⟨l, hl, e⟩ := mem_take_idx hz
          have := hc.pos x gx px l z e (by omega) (by omega) hzw
          simp only [decide_eq_true_eq]
          linarith
  · intro hq
    have qx : 0 < x.w → IsQuantile a0 Q x.v := fun h => ⟨⟨x, hxm, rfl⟩, bx, by
      have := atx h; linarith⟩
    have qx0 : Q = 0 → IsQuantile a0 Q x.v := fun h => ⟨⟨x, hxm, rfl⟩, bx, by
      rw [h, ← atOrBelow_perm hp]; exact fs_nonneg _ _ hn⟩
    have qy : 0 < y.w → IsQuantile a0 Q y.v := fun h => ⟨⟨y, hym, rfl⟩, by
      have := byy h; linarith, ay⟩
    rcases hq with h0 | h1
    · have py : 0 < y.w := by
        by_contra h
        have := rz h
        linarith
      have n1 : ¬ y.w = 0 := by linarith
      by_cases px : 0 < x.w
      · -- impossible: the prefix has positive weight
        exfalso
        obtain ⟨l1, l2, hl⟩ := List.append_of_mem
          (List.mem_of_getElem? (by rw [List.getElem?_take, if_pos (by have := hc.hi; omega), gx] :
            (a.take (jj + 1))[c]? = some x))
        have hnn := hn.take (jj + 1)
        rw [hl] at hnn
        rw [h0, pre, hl, total_append, total_cons] at hQ
        have f1 := fs_nonneg (fun _ => true) l1 fun z hz => hnn z (by simp [hz])
        have f2 := fs_nonneg (fun _ => true) l2 fun z hz => hnn z (by simp [hz])
        have g1 := fs_le (fun _ => true) l1 fun z hz => hnn z (by simp [hz])
        have g2 := fs_le (fun _ => true) l2 fun z hz => hnn z (by simp [hz])
        linarith
      · have hx0 : x.w = 0 := by linarith
        unfold boundaryValue
        split
        · exact qx0 h0
        · rw [if_pos (Or.inl ⟨hx0, py⟩)]
          exact qy py
    · have px : 0 < x.w := by
        by_contra h
        have := lz h
        linarith
      by_cases py : 0 < y.w
      · exfalso
        obtain ⟨l1, l2, hl⟩ := List.append_of_mem
          (List.mem_of_getElem? (by
            rw [List.getElem?_drop]
            have : jj + 1 + (d - (jj + 1)) = d := by have := hd.lo; omega
            rw [this, gy] : (a.drop (jj + 1))[d - (jj + 1)]? = some y))
        have hnn := hn.drop (jj + 1)
        rw [hl] at hnn
        rw [hQ, h1, hl, total_append, total_cons] at ht'
        have f1 := fs_nonneg (fun _ => true) l1 fun z hz => hnn z (by simp [hz])
        have f2 := fs_nonneg (fun _ => true) l2 fun z hz => hnn z (by simp [hz])
        have g1 := fs_le (fun _ => true) l1 fun z hz => hnn z (by simp [hz])
        have g2 := fs_le (fun _ => true) l2 fun z hz => hnn z (by simp [hz])
        linarith
      · have hy0 : y.w = 0 := by linarith
        unfold boundaryValue
        rw [if_pos (Or.inl ⟨hy0, px⟩)]
        exact qx px

theorem select_ok (a0 : List Item) (m : Char) (Q : Rat) (ht : 0 < total a0)
    (h1 : a0.length = 1 → Q < total a0) (fuel : Nat)
    (a : List Item) (i j : Nat) (h : OInv a0 a i j Q) (hf : j - i < fuel) :
    ∃ r, select id m fuel a i j (Q - pre a i) = some r ∧ Answer a0 Q m r := by
  induction fuel generalizing a i j with
  | zero => omega
  | succ fuel ih =>
    have hb := h.bound
    have hij := h.le
    have hm : (i + j) / 2 < a.length := by omega
    have gm := List.getElem?_eq_getElem hm
    obtain ⟨b, jj, e, hp⟩ := hoare_ok a i j a[(i + j) / 2].v hij (a.length + 1) a i j 0
      { within := Within.refl a i j, bound := hb, li := le_rfl, lj := le_rfl, cross := by omega,
        left := fun k x _ h1 h2 => absurd h1 (by omega),
        right := fun k x _ h1 h2 => absurd h1 (by omega), wl := by ring,
        guard := Or.inl ⟨rfl, rfl, _, gm, rfl⟩ } (by omega)
    have hw := hp.within
    have hperm : b.Perm a0 := hw.perm.trans h.perm
    have hnb : NonNeg b := fun x hx => h.nonneg x (hw.perm.mem_iff.1 hx)
    have hl := hw.len
    have hpi : pre b i = pre a i := hw.preLow i le_rfl
    have hpj : pre b (j + 1) = pre a (j + 1) := hw.preHigh (j + 1) (by omega)
    -- separation of the outer parts after the partition
    have low : ∀ (k l : Nat) (x y : Item), b[k]? = some x → b[l]? = some y → k < i → i ≤ l →
        x.v ≤ y.v := by
      intro k l x y hx hy h1 h2
      rw [hw.same k (Or.inl h1)] at hx
      by_cases h3 : l ≤ j
      · obtain ⟨l', a1, a2, a3⟩ := hw.moved l y hy h2 h3
        exact h.low k l' x y hx a3 h1 a1
      · rw [hw.same l (Or.inr (by omega))] at hy
        exact h.low k l x y hx hy h1 h2
    have high : ∀ (k l : Nat) (x y : Item), b[k]? = some x → b[l]? = some y → k ≤ j → j < l →
        x.v ≤ y.v := by
      intro k l x y hx hy h1 h2
      rw [hw.same l (Or.inr h2)] at hy
      by_cases h3 : i ≤ k
      · obtain ⟨k', a1, a2, a3⟩ := hw.moved k x hx h3 h1
        exact h.high k' l x y a3 hy a2 h2
      · rw [hw.same k (Or.inl (by omega))] at hx
        exact h.high k l x y hx hy h1 h2
    have hlo := hp.lo
    have hhi := hp.hi
    -- everything up to `jj` is at most everything after it
    have sep : ∀ (k l : Nat) (x y : Item), b[k]? = some x → b[l]? = some y → k ≤ jj → jj < l →
        x.v ≤ y.v := by
      intro k l x y hx hy h1 h2
      by_cases h3 : k < i
      · exact low k l x y hx hy h3 (by omega)
      · by_cases h4 : j < l
        · exact high k l x y hx hy (by omega) h4
        · exact le_trans (hp.left k x hx (by omega) h1) (hp.right l y hy h2 (by omega))
    simp only [select, valueAt, gm, Option.map_some, Option.bind_eq_bind, Option.bind_some, e]
    by_cases c1 : Q - pre a i = pre b (jj + 1) - pre b i
    · rw [if_pos c1]
      have hQ : pre b (jj + 1) = Q := by rw [hpi] at c1; linarith
      have hjl : jj + 1 < b.length := by
        rcases h.lt with hlt | hone
        · have := hp.strict hlt; omega
        · exfalso
          have : jj = 0 := by omega
          subst this
          have h2 : a0.length = 1 := by rw [← h.perm.length_eq]; exact hone
          have := h1 h2
          rw [pre_all b 1 (by omega), total_perm hperm] at hQ
          linarith
      -- a pivot separating the two parts
      have hjb : jj < b.length := by omega
      obtain ⟨r, e', hr⟩ : ∃ r, boundary id m b jj = some r ∧ Answer a0 Q m r := by
        -- value separating: the largest on the left
        have hx : ∃ p', (∀ (k : Nat) (x : Item), b[k]? = some x → k ≤ jj → x.v ≤ p') ∧
            (∀ (k : Nat) (x : Item), b[k]? = some x → jj < k → p' ≤ x.v) := by
          rcases h.lt with hlt | hone
          · refine ⟨a[(i + j) / 2].v, ?_, ?_⟩
            · intro k x hx hk
              by_cases h3 : k < i
              · -- through an element of the left part and the element at j
                have hs := hp.strict hlt
                exact le_trans (low k jj x _ hx (List.getElem?_eq_getElem hjb) h3 hlo)
                  (hp.left jj _ (List.getElem?_eq_getElem hjb) hlo le_rfl)
              · exact hp.left k x hx (by omega) hk
            · intro k x hx hk
              by_cases h4 : j < k
              · have hs := hp.strict hlt
                have hg := List.getElem?_eq_getElem hjl
                exact le_trans (hp.right (jj + 1) _ hg (by omega) (by omega))
                  (high (jj + 1) k _ x hg hx (by omega) h4)
              · exact hp.right k x hx hk (by omega)
          · omega
        obtain ⟨p', hl', hr'⟩ := hx
        exact boundary_ok hperm hnb m jj p' Q hjl hQ ht hl' hr'
      exact ⟨r, e', hr⟩
    · rw [if_neg c1]
      have c1' : ¬ Q = pre b (jj + 1) := by rw [hpi] at c1; intro hc; apply c1; linarith
      by_cases c2 : Q - pre a i ≤ pre b (jj + 1) - pre b i
      · rw [if_pos c2]
        have hQlt : Q < pre b (jj + 1) := by
          rw [hpi] at c2
          exact lt_of_le_of_ne (by linarith) c1'
        by_cases c3 : i = jj
        · subst c3
          have hib : i < b.length := by omega
          have gi := List.getElem?_eq_getElem hib
          rw [if_pos rfl, gi]
          refine ⟨_, rfl, answer_at hperm hnb i b[i] Q m gi ?_ ?_ ?_ (le_of_lt hQlt) ?_ fun _ => hQlt⟩
          · intro k y hy hk
            exact low k i y _ hy gi hk le_rfl
          · intro k y hy hk
            exact sep i k _ y gi hy le_rfl hk
          · rw [hpi]; exact h.preLe
          · rw [hpi]; exact h.preLt
        · rw [if_neg c3]
          have hjj : i < j := by
            rcases h.lt with hlt | hone
            · exact hlt
            · omega
          have hs := hp.strict hjj
          have := ih b i jj
            { perm := hperm, nonneg := hnb, le := by omega, bound := by omega, lt := Or.inl (by omega),
              low := low, high := sep, preLe := by rw [hpi]; exact h.preLe, lePre := le_of_lt hQlt,
              preLt := by rw [hpi]; exact h.preLt, ltPre := fun _ => hQlt } (by omega)
          rw [hpi] at this
          exact this
      · rw [if_neg c2]
        have hQgt : pre b (jj + 1) < Q := by
          rw [hpi] at c2
          linarith
        have hjj : i < j := by
          rcases h.lt with hlt | hone
          · exact hlt
          · exfalso
            have h2 : jj = 0 := by omega
            have h3 : j = 0 := by omega
            subst h2; subst h3
            have := h.lePre
            rw [← hpj] at this
            linarith
        have hs := hp.strict hjj
        by_cases c3 : jj + 1 = j
        · have hjb : j < b.length := by omega
          have gj := List.getElem?_eq_getElem hjb
          rw [if_pos c3, gj]
          refine ⟨_, rfl, answer_at hperm hnb j b[j] Q m gj ?_ ?_ ?_ ?_ ?_ ?_⟩
          · intro k y hy hk
            exact sep k j y _ hy gj (by omega) (by omega)
          · intro k y hy hk
            exact high j k _ y gj hy le_rfl hk
          · rw [← c3]; exact le_of_lt hQgt
          · rw [hpj]; exact h.lePre
          · rw [← c3]; exact fun _ => hQgt
          · rw [hpj]; exact h.ltPre
        · rw [if_neg c3]
          have := ih b (jj + 1) j
            { perm := hperm, nonneg := hnb, le := by omega, bound := by omega, lt := Or.inl (by omega),
              low := fun k l x y hx hy h1 h2 => sep k l x y hx hy (by omega) (by omega),
              high := high, preLe := le_of_lt hQgt,
              lePre := by rw [hpj]; exact h.lePre, preLt := fun _ => hQgt,
              ltPre := by rw [hpj]; exact h.ltPre } (by omega)
          have he : Q - pre a i - (pre b (jj + 1) - pre b i) = Q - pre b (jj + 1) := by
            rw [hpi]; ring
          rw [he]
          exact this

end Verif.Quick
