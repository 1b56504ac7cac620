import Verif.Quick.Spec
import Mathlib.Tactic.Linarith
import Mathlib.Tactic.Ring
import Mathlib.Data.List.Perm.Basic
import Mathlib.Algebra.BigOperators.Group.List.Basic

/-! # Helper lemmas for C19 -/
namespace Verif.Quick
open Verif.Median (Item)

/-- Weight of the first `k` elements. -/
def pre (a : List Item) (k : Nat) : Rat := total (a.take k)

theorem total_append (a b : List Item) : total (a ++ b) = total a + total b := by simp [total]

theorem total_perm {a b : List Item} (h : a.Perm b) : total a = total b :=
  (h.map Item.w).sum_eq

theorem pre_succ (a : List Item) (k : Nat) (h : k < a.length) :
    pre a (k + 1) = pre a k + a[k].w := by
  rw [pre, List.take_succ_eq_append_getElem h, total_append]
  simp [pre, total]

theorem pre_zero (a : List Item) : pre a 0 = 0 := by simp [pre, total]

theorem pre_all (a : List Item) (k : Nat) (h : a.length ≤ k) : pre a k = total a := by
  rw [pre, List.take_of_length_le h]

/-! ## Swap -/

structure Swapped (a a' : List Item) (x y : Nat) : Prop where
  len : a'.length = a.length
  atx : a'[x]? = a[y]?
  aty : a'[y]? = a[x]?
  other : ∀ k, k ≠ x → k ≠ y → a'[k]? = a[k]?
  perm : a'.Perm a
  preLow : ∀ k, k ≤ x → pre a' k = pre a k
  preHigh : ∀ k, y < k → pre a' k = pre a k

theorem swap_ok (a : List Item) (x y : Nat) (hxy : x < y) (hy : y < a.length) :
    ∃ a', swap a x y = some a' ∧ Swapped a a' x y := by
  have hx : x < a.length := by omega
  refine ⟨_, by rw [swap, dif_pos ⟨hx, hy⟩], ?_⟩
  refine ⟨by simp, ?_, ?_, ?_, List.set_set_perm hx hy, ?_, ?_⟩
  · rw [List.getElem?_set_ne (by omega), List.getElem?_set_self (by omega),
      List.getElem?_eq_getElem hy]
  · rw [List.getElem?_set_self (by simpa using hy), List.getElem?_eq_getElem hx]
  · intro k h1 h2
    rw [List.getElem?_set_ne (by omega), List.getElem?_set_ne (by omega)]
  · intro k hk
    simp only [pre]
    rw [List.take_set, List.take_set, List.set_eq_of_length_le (by simp; omega),
      List.set_eq_of_length_le (by simp; omega)]
  · intro k hk
    simp only [pre]
    rw [List.take_set, List.take_set]
    have hx' : x < (a.take k).length := by simp; omega
    have hy' : y < (a.take k).length := by simp; omega
    have e1 : a[y] = (a.take k)[y] := by simp
    have e2 : a[x] = (a.take k)[x] := by simp
    rw [e1, e2]
    exact total_perm (List.set_set_perm hx' hy')

/-! ## Scans -/

theorem scanL_ok (a : List Item) (p : Rat) (ii : Nat) (wl : Rat) (m : Nat) (hm : m < a.length)
    (him : ii ≤ m) (hp : p ≤ a[m].v) :
    ∃ ii', scanL a p ii wl = some (ii', wl + (pre a ii' - pre a ii)) ∧ ii ≤ ii' ∧ ii' ≤ m ∧
      (∀ k x, a[k]? = some x → ii ≤ k → k < ii' → x.v < p) ∧
      (∀ x, a[ii']? = some x → p ≤ x.v) := by
  generalize hd : m - ii = d
  induction d generalizing ii wl with
  | zero =>
    obtain rfl : ii = m := by omega
    rw [scanL, dif_pos hm, if_neg (by linarith)]
    refine ⟨ii, by simp, le_rfl, le_rfl, fun k x _ h1 h2 => absurd h1 (by omega), ?_⟩
    intro x hx
    rw [List.getElem?_eq_getElem hm] at hx
    obtain rfl := Option.some.inj hx
    exact hp
  | succ d ih =>
    have hii : ii < a.length := by omega
    rw [scanL, dif_pos hii]
    by_cases hc : a[ii].v < p
    · rw [if_pos hc]
      obtain ⟨ii', e, h1, h2, h3, h4⟩ := ih (ii + 1) (wl + a[ii].w) (by omega) (by omega)
      refine ⟨ii', ?_, by omega, h2, ?_, h4⟩
      · rw [e, pre_succ a ii hii]
        congr 2
        ring
      · intro k x hx hk1 hk2
        rcases Nat.eq_or_lt_of_le hk1 with rfl | hk
        · rw [List.getElem?_eq_getElem hii] at hx
          obtain rfl := Option.some.inj hx
          exact hc
        · exact h3 k x hx (by omega) hk2
    · rw [if_neg hc]
      refine ⟨ii, by simp, le_rfl, him, fun k x _ h1 h2 => absurd h1 (by omega), ?_⟩
      intro x hx
      rw [List.getElem?_eq_getElem hii] at hx
      obtain rfl := Option.some.inj hx
      linarith

theorem scanR_ok (a : List Item) (p : Rat) (jj m : Nat) (hj : jj < a.length) (hm : m ≤ jj)
    (hp : a[m].v ≤ p) :
    ∃ jj', scanR a p jj = some jj' ∧ m ≤ jj' ∧ jj' ≤ jj ∧
      (∀ k x, a[k]? = some x → jj' < k → k ≤ jj → p < x.v) ∧
      (∀ x, a[jj']? = some x → x.v ≤ p) := by
  induction jj with
  | zero =>
    obtain rfl : m = 0 := by omega
    rw [scanR, dif_pos hj, if_neg (by linarith)]
    refine ⟨0, rfl, le_rfl, le_rfl, fun k x _ h1 h2 => absurd h1 (by omega), ?_⟩
    intro x hx
    rw [List.getElem?_eq_getElem hj] at hx
    obtain rfl := Option.some.inj hx
    exact hp
  | succ jj ih =>
    rw [scanR, dif_pos hj]
    by_cases hc : p < a[jj + 1].v
    · rw [if_pos hc]
      have hmj : m ≤ jj := by
        rcases Nat.eq_or_lt_of_le hm with rfl | h
        · linarith
        · omega
      obtain ⟨jj', e, h1, h2, h3, h4⟩ := ih (by omega) hmj hp
      refine ⟨jj', e, h1, by omega, ?_, h4⟩
      intro k x hx hk1 hk2
      rcases Nat.eq_or_lt_of_le hk2 with rfl | hk
      · rw [List.getElem?_eq_getElem hj] at hx
        obtain rfl := Option.some.inj hx
        exact hc
      · exact h3 k x hx hk1 (by omega)
    · rw [if_neg hc]
      refine ⟨jj + 1, rfl, hm, le_rfl, fun k x _ h1 h2 => absurd h1 (by omega), ?_⟩
      intro x hx
      rw [List.getElem?_eq_getElem hj] at hx
      obtain rfl := Option.some.inj hx
      linarith

/-! ## Partition -/

/-- Only elements at the indices `i .. j` have been moved among themselves. -/
structure Within (a b : List Item) (i j : Nat) : Prop where
  len : b.length = a.length
  perm : b.Perm a
  moved : ∀ k x, b[k]? = some x → i ≤ k → k ≤ j → ∃ k', i ≤ k' ∧ k' ≤ j ∧ a[k']? = some x
  same : ∀ k, k < i ∨ j < k → b[k]? = a[k]?
  preLow : ∀ k, k ≤ i → pre b k = pre a k
  preHigh : ∀ k, j < k → pre b k = pre a k

theorem Within.refl (a : List Item) (i j : Nat) : Within a a i j :=
  ⟨rfl, List.Perm.refl _, fun k x hx h1 h2 => ⟨k, h1, h2, hx⟩, fun _ _ => rfl, fun _ _ => rfl,
    fun _ _ => rfl⟩

theorem Within.swap {a b c : List Item} {i j x y : Nat} (h : Within a b i j)
    (hs : Swapped b c x y) (hx : i ≤ x) (hxy : x < y) (hy : y ≤ j) : Within a c i j := by
  refine ⟨hs.len.trans h.len, hs.perm.trans h.perm, ?_, ?_, ?_, ?_⟩
  · intro k z hz hk1 hk2
    by_cases h1 : k = x
    · subst h1
      rw [hs.atx] at hz
      exact h.moved y z hz (by omega) hy
    · by_cases h2 : k = y
      · subst h2
        rw [hs.aty] at hz
        exact h.moved x z hz hx (by omega)
      · rw [hs.other k h1 h2] at hz
        exact h.moved k z hz hk1 hk2
  · intro k hk
    rw [hs.other k (by omega) (by omega)]
    exact h.same k hk
  · intro k hk
    rw [hs.preLow k (by omega)]
    exact h.preLow k hk
  · intro k hk
    rw [hs.preHigh k (by omega)]
    exact h.preHigh k hk

/-- Result of the partition of `i .. j` at `jj`. -/
structure Parted (a b : List Item) (i j : Nat) (p : Rat) (jj : Nat) : Prop where
  within : Within a b i j
  lo : i ≤ jj
  hi : jj ≤ j
  strict : i < j → jj < j
  left : ∀ k x, b[k]? = some x → i ≤ k → k ≤ jj → x.v ≤ p
  right : ∀ k x, b[k]? = some x → jj < k → k ≤ j → p ≤ x.v

/-- Loop invariant of the partition. -/
structure HInv (a b : List Item) (i j : Nat) (p : Rat) (ii jj : Nat) (wl : Rat) : Prop where
  within : Within a b i j
  bound : j < b.length
  li : i ≤ ii
  lj : jj ≤ j
  cross : ii ≤ jj + 1
  left : ∀ k x, b[k]? = some x → i ≤ k → k < ii → x.v ≤ p
  right : ∀ k x, b[k]? = some x → jj < k → k ≤ j → p ≤ x.v
  wl : wl = pre b ii - pre b i
  guard : (ii = i ∧ jj = j ∧ ∃ x, b[(i + j) / 2]? = some x ∧ x.v = p) ∨ (i < ii ∧ jj < j)

theorem hoare_ok (a : List Item) (i j : Nat) (p : Rat) (hij : i ≤ j) (fuel : Nat) (b : List Item)
    (ii jj : Nat) (wl : Rat) (h : HInv a b i j p ii jj wl) (hf : jj + 1 - ii < fuel) :
    ∃ c jj', hoare p fuel b ii jj wl = some (c, jj', pre c (jj' + 1) - pre c i) ∧
      Parted a c i j p jj' := by
  induction fuel generalizing b ii jj wl with
  | zero => omega
  | succ fuel ih =>
    have hb := h.bound
    -- sentinels
    have sl : ∃ m, m < b.length ∧ ii ≤ m ∧ (∀ (hm : m < b.length), p ≤ b[m].v) ∧
        m ≤ jj + 1 ∧ (jj = j → m = (i + j) / 2) := by
      rcases h.guard with ⟨h1, h2, x, hx, hv⟩ | ⟨h1, h2⟩
      · have hlt : (i + j) / 2 < b.length := by omega
        refine ⟨(i + j) / 2, hlt, by omega, ?_, by omega, fun _ => rfl⟩
        intro hm
        rw [List.getElem?_eq_getElem hm] at hx
        obtain rfl := Option.some.inj hx
        exact le_of_eq hv.symm
      · refine ⟨jj + 1, by omega, h.cross, ?_, le_rfl, fun e => absurd h2 (by omega)⟩
        intro hm
        exact h.right (jj + 1) _ (List.getElem?_eq_getElem hm) (by omega) (by omega)
    obtain ⟨m, hm, him, hpm, hmj, hm0⟩ := sl
    obtain ⟨ii', e1, l1, l2, l3, l4⟩ := scanL_ok b p ii wl m hm him (hpm hm)
    have sr : ∃ m', ∃ (_ : m' < b.length), m' ≤ jj ∧ b[m'].v ≤ p ∧ ii ≤ m' + 1 ∧ i ≤ m' ∧
        (jj = j → m' = (i + j) / 2) := by
      rcases h.guard with ⟨h1, h2, x, hx, hv⟩ | ⟨h1, h2⟩
      · have hlt : (i + j) / 2 < b.length := by omega
        refine ⟨(i + j) / 2, hlt, by omega, ?_, by omega, by omega, fun _ => rfl⟩
        rw [List.getElem?_eq_getElem hlt] at hx
        obtain rfl := Option.some.inj hx
        exact le_of_eq hv
      · have hlt : ii - 1 < b.length := by have := h.cross; omega
        refine ⟨ii - 1, hlt, by have := h.cross; omega, ?_, by omega, by omega,
          fun e => absurd h2 (by omega)⟩
        exact h.left (ii - 1) _ (List.getElem?_eq_getElem hlt) (by omega) (by omega)
    obtain ⟨m', hm', hmj', hpm', hm1, hm2, hm3⟩ := sr
    obtain ⟨jj', e2, r1, r2, r3, r4⟩ := scanR_ok b p jj m' (by have := h.lj; omega) hmj' hpm'
    have hjj' : jj' < b.length := by have := h.lj; omega
    have hii' : ii' < b.length := by omega
    have hcross : ii' ≤ jj' + 1 := by
      by_contra hc
      have hk : jj' + 1 < b.length := by omega
      have e := List.getElem?_eq_getElem hk
      have c1 : b[jj' + 1].v < p := l3 (jj' + 1) _ e (by omega) (by omega)
      have c2 : p < b[jj' + 1].v := r3 (jj' + 1) _ e (by omega) (by omega)
      linarith
    have hleft : ∀ k x, b[k]? = some x → i ≤ k → k < ii' → x.v ≤ p := by
      intro k x hx h1 h2
      by_cases hk : k < ii
      · exact h.left k x hx h1 hk
      · exact le_of_lt (l3 k x hx (by omega) h2)
    have hright : ∀ k x, b[k]? = some x → jj' < k → k ≤ j → p ≤ x.v := by
      intro k x hx h1 h2
      by_cases hk : jj < k
      · exact h.right k x hx hk h2
      · exact le_of_lt (r3 k x hx h1 (by omega))
    have hwl : wl + (pre b ii' - pre b ii) = pre b ii' - pre b i := by rw [h.wl]; ring
    simp only [hoare, e1, e2, Option.bind_eq_bind, Option.bind_some]
    by_cases hd : jj' ≤ ii'
    · rw [if_pos hd]
      refine ⟨b, jj', ?_, h.within, by omega, by have := h.lj; omega, ?_, ?_, hright⟩
      · unfold meet
        by_cases he : ii' = jj'
        · subst he
          rw [if_pos rfl]
          simp only [weightAt, List.getElem?_eq_getElem hii', Option.map_some,
            Option.bind_eq_bind, Option.bind_some, hwl]
          rw [pre_succ b ii' hii']
          congr 3
          ring
        · have he' : ii' = jj' + 1 := by omega
          rw [if_neg he, hwl, he']
      · intro hlt
        rcases h.guard with ⟨h1, h2, _⟩ | ⟨h1, h2⟩
        · have := hm0 h2
          have := hm3 h2
          omega
        · omega
      · intro k x hx h1 h2
        by_cases hk : k < ii'
        · exact hleft k x hx h1 hk
        · obtain rfl : k = jj' := by omega
          exact r4 x hx
    · rw [if_neg hd]
      obtain ⟨c, e3, hs⟩ := swap_ok b ii' jj' (by omega) hjj'
      have hwc := h.within.swap hs (by have := h.li; omega) (by omega) (by have := h.lj; omega)
      have hic : ii' < c.length := by rw [hs.len]; exact hii'
      simp only [e3, Option.bind_some, weightAt, List.getElem?_eq_getElem hic, Option.map_some]
      apply ih
      · refine ⟨hwc, by rw [hs.len]; exact hb, by have := h.li; omega, by have := h.lj; omega,
          by omega, ?_, ?_, ?_, ?_⟩
        · intro k x hx h1 h2
          by_cases hk : k = ii'
          · subst hk
            rw [hs.atx] at hx
            exact r4 x hx
          · rw [hs.other k hk (by omega)] at hx
            exact hleft k x hx h1 (by omega)
        · intro k x hx h1 h2
          by_cases hk : k = jj'
          · subst hk
            rw [hs.aty] at hx
            exact l4 x hx
          · rw [hs.other k (by omega) hk] at hx
            exact hright k x hx (by omega) h2
        · rw [pre_succ c ii' hic, hs.preLow ii' le_rfl, hs.preLow i (by have := h.li; omega), hwl]
          ring
        · right
          have := h.li
          have := h.lj
          omega
      · omega

/-! ## Extreme elements of non-zero weight -/

/-- `c` is the index of the largest element of positive weight on `i .. j`, or all weights there are
not positive. -/
structure MaxNZ (a : List Item) (i j c : Nat) : Prop where
  lo : i ≤ c
  hi : c ≤ j
  pos : ∀ x, a[c]? = some x → 0 < x.w → ∀ k y, a[k]? = some y → i ≤ k → k ≤ j → 0 < y.w → y.v ≤ x.v
  zero : ∀ x, a[c]? = some x → ¬ 0 < x.w → ∀ k y, a[k]? = some y → i ≤ k → k ≤ j → ¬ 0 < y.w

theorem maxNonZero_ok (a : List Item) (i j : Nat) (hij : i ≤ j) (hj : j < a.length) :
    ∃ c, maxNonZero a i j = some c ∧ MaxNZ a i j c := by
  unfold maxNonZero
  obtain ⟨d, rfl⟩ : ∃ d, j = i + d := ⟨j - i, by omega⟩
  rw [Nat.add_sub_cancel_left]
  induction d with
  | zero =>
    refine ⟨i, rfl, le_rfl, by omega, ?_, ?_⟩
    · intro x hx _ k y hy h1 h2 _
      obtain rfl : k = i := by omega
      rw [hx] at hy
      obtain rfl := Option.some.inj hy
      exact le_rfl
    · intro x hx hw k y hy h1 h2
      obtain rfl : k = i := by omega
      rw [hx] at hy
      obtain rfl := Option.some.inj hy
      exact hw
  | succ d ih =>
    obtain ⟨c, e, h⟩ := ih (by omega) (by omega)
    rw [List.range'_concat, List.foldlM_append, e]
    have hc : c < a.length := by have := h.hi; omega
    have hn : i + (d + 1) < a.length := hj
    have e' : i + 1 + 1 * d = i + (d + 1) := by omega
    simp only [Option.bind_eq_bind, Option.bind_some, List.foldlM_cons, List.foldlM_nil, e',
      maxStep, List.getElem?_eq_getElem hc, List.getElem?_eq_getElem hn]
    have gc := List.getElem?_eq_getElem hc
    have gn := List.getElem?_eq_getElem hn
    have key : ∀ k y, a[k]? = some y → i ≤ k → k ≤ i + (d + 1) →
        (k ≤ i + d) ∨ y = a[i + (d + 1)] := by
      intro k y hy h1 h2
      rcases Nat.eq_or_lt_of_le h2 with rfl | hk
      · right
        rw [gn] at hy
        exact (Option.some.inj hy).symm
      · left; omega
    by_cases c1 : 0 < a[c].w <;> by_cases c2 : 0 < a[i + (d + 1)].w
    · by_cases c3 : a[i + (d + 1)].v > a[c].v
      · refine ⟨i + (d + 1), by simp [c1, c2, c3], by omega, le_rfl, ?_, ?_⟩
        · intro x hx hw k y hy h1 h2 hyw
          rw [gn] at hx
          obtain rfl := Option.some.inj hx
          rcases key k y hy h1 h2 with hk | rfl
          · exact le_trans (h.pos _ gc c1 k y hy h1 hk hyw) (le_of_lt c3)
          · exact le_rfl
        · intro x hx hw
          rw [gn] at hx
          obtain rfl := Option.some.inj hx
          exact absurd c2 hw
      · refine ⟨c, by simp [c1, c2, c3], h.lo, by have := h.hi; omega, ?_, ?_⟩
        · intro x hx hw k y hy h1 h2 hyw
          rw [gc] at hx
          obtain rfl := Option.some.inj hx
          rcases key k y hy h1 h2 with hk | rfl
          · exact h.pos _ gc c1 k y hy h1 hk hyw
          · linarith
        · intro x hx hw
          rw [gc] at hx
          obtain rfl := Option.some.inj hx
          exact absurd c1 hw
    · refine ⟨c, by simp [c1, c2], h.lo, by have := h.hi; omega, ?_, ?_⟩
      · intro x hx hw k y hy h1 h2 hyw
        rw [gc] at hx
        obtain rfl := Option.some.inj hx
        rcases key k y hy h1 h2 with hk | rfl
        · exact h.pos _ gc c1 k y hy h1 hk hyw
        · exact absurd hyw c2
      · intro x hx hw
        rw [gc] at hx
        obtain rfl := Option.some.inj hx
        exact absurd c1 hw
    · refine ⟨i + (d + 1), by simp [c1, c2], by omega, le_rfl, ?_, ?_⟩
      · intro x hx hw k y hy h1 h2 hyw
        rw [gn] at hx
        obtain rfl := Option.some.inj hx
        rcases key k y hy h1 h2 with hk | rfl
        · exact absurd hyw (h.zero _ gc c1 k y hy h1 hk)
        · exact le_rfl
      · intro x hx hw
        rw [gn] at hx
        obtain rfl := Option.some.inj hx
        exact absurd c2 hw
    · have hz : ∀ k y, a[k]? = some y → i ≤ k → k ≤ i + (d + 1) → ¬ 0 < y.w := by
        intro k y hy h1 h2
        rcases key k y hy h1 h2 with hk | rfl
        · exact h.zero _ gc c1 k y hy h1 hk
        · exact c2
      by_cases c3 : a[i + (d + 1)].v > a[c].v
      · refine ⟨i + (d + 1), by simp [c1, c2, c3], by omega, le_rfl, ?_, fun _ _ _ => hz⟩
        intro x hx hw
        rw [gn] at hx
        obtain rfl := Option.some.inj hx
        exact absurd hw c2
      · refine ⟨c, by simp [c1, c2, c3], h.lo, by have := h.hi; omega, ?_, fun _ _ _ => hz⟩
        intro x hx hw
        rw [gc] at hx
        obtain rfl := Option.some.inj hx
        exact absurd hw c1

structure MinNZ (a : List Item) (i j c : Nat) : Prop where
  lo : i ≤ c
  hi : c ≤ j
  pos : ∀ x, a[c]? = some x → 0 < x.w → ∀ k y, a[k]? = some y → i ≤ k → k ≤ j → 0 < y.w → x.v ≤ y.v
  zero : ∀ x, a[c]? = some x → ¬ 0 < x.w → ∀ k y, a[k]? = some y → i ≤ k → k ≤ j → ¬ 0 < y.w

theorem minNonZero_ok (a : List Item) (i j : Nat) (hij : i ≤ j) (hj : j < a.length) :
    ∃ c, minNonZero a i j = some c ∧ MinNZ a i j c := by
  unfold minNonZero
  obtain ⟨d, rfl⟩ : ∃ d, j = i + d := ⟨j - i, by omega⟩
  rw [Nat.add_sub_cancel_left]
  induction d with
  | zero =>
    refine ⟨i, rfl, le_rfl, by omega, ?_, ?_⟩
    · intro x hx _ k y hy h1 h2 _
      obtain rfl : k = i := by omega
      rw [hx] at hy
      obtain rfl := Option.some.inj hy
      exact le_rfl
    · intro x hx hw k y hy h1 h2
      obtain rfl : k = i := by omega
      rw [hx] at hy
      obtain rfl := Option.some.inj hy
      exact hw
  | succ d ih =>
    obtain ⟨c, e, h⟩ := ih (by omega) (by omega)
    rw [List.range'_concat, List.foldlM_append, e]
    have hc : c < a.length := by have := h.hi; omega
    have hn : i + (d + 1) < a.length := hj
    have e' : i + 1 + 1 * d = i + (d + 1) := by omega
    simp only [Option.bind_eq_bind, Option.bind_some, List.foldlM_cons, List.foldlM_nil, e',
      minStep, List.getElem?_eq_getElem hc, List.getElem?_eq_getElem hn]
    have gc := List.getElem?_eq_getElem hc
    have gn := List.getElem?_eq_getElem hn
    have key : ∀ k y, a[k]? = some y → i ≤ k → k ≤ i + (d + 1) →
        (k ≤ i + d) ∨ y = a[i + (d + 1)] := by
      intro k y hy h1 h2
      rcases Nat.eq_or_lt_of_le h2 with rfl | hk
      · right
        rw [gn] at hy
        exact (Option.some.inj hy).symm
      · left; omega
    by_cases c1 : 0 < a[c].w <;> by_cases c2 : 0 < a[i + (d + 1)].w
    · by_cases c3 : a[i + (d + 1)].v < a[c].v
      · refine ⟨i + (d + 1), by simp [c1, c2, c3], by omega, le_rfl, ?_, ?_⟩
        · intro x hx hw k y hy h1 h2 hyw
          rw [gn] at hx
          obtain rfl := Option.some.inj hx
          rcases key k y hy h1 h2 with hk | rfl
          · exact le_trans (le_of_lt c3) (h.pos _ gc c1 k y hy h1 hk hyw)
          · exact le_rfl
        · intro x hx hw
          rw [gn] at hx
          obtain rfl := Option.some.inj hx
          exact absurd c2 hw
      · refine ⟨c, by simp [c1, c2, c3], h.lo, by have := h.hi; omega, ?_, ?_⟩
        · intro x hx hw k y hy h1 h2 hyw
          rw [gc] at hx
          obtain rfl := Option.some.inj hx
          rcases key k y hy h1 h2 with hk | rfl
          · exact h.pos _ gc c1 k y hy h1 hk hyw
          · linarith
        · intro x hx hw
          rw [gc] at hx
          obtain rfl := Option.some.inj hx
          exact absurd c1 hw
    · refine ⟨c, by simp [c1, c2], h.lo, by have := h.hi; omega, ?_, ?_⟩
      · intro x hx hw k y hy h1 h2 hyw
        rw [gc] at hx
        obtain rfl := Option.some.inj hx
        rcases key k y hy h1 h2 with hk | rfl
        · exact h.pos _ gc c1 k y hy h1 hk hyw
        · exact absurd hyw c2
      · intro x hx hw
        rw [gc] at hx
        obtain rfl := Option.some.inj hx
        exact absurd c1 hw
    · refine ⟨i + (d + 1), by simp [c1, c2], by omega, le_rfl, ?_, ?_⟩
      · intro x hx hw k y hy h1 h2 hyw
        rw [gn] at hx
        obtain rfl := Option.some.inj hx
        rcases key k y hy h1 h2 with hk | rfl
        · exact absurd hyw (h.zero _ gc c1 k y hy h1 hk)
        · exact le_rfl
      · intro x hx hw
        rw [gn] at hx
        obtain rfl := Option.some.inj hx
        exact absurd c2 hw
    · have hz : ∀ k y, a[k]? = some y → i ≤ k → k ≤ i + (d + 1) → ¬ 0 < y.w := by
        intro k y hy h1 h2
        rcases key k y hy h1 h2 with hk | rfl
        · exact h.zero _ gc c1 k y hy h1 hk
        · exact c2
      by_cases c3 : a[i + (d + 1)].v < a[c].v
      · refine ⟨i + (d + 1), by simp [c1, c2, c3], by omega, le_rfl, ?_, fun _ _ _ => hz⟩
        intro x hx hw
        rw [gn] at hx
        obtain rfl := Option.some.inj hx
        exact absurd hw c2
      · refine ⟨c, by simp [c1, c2, c3], h.lo, by have := h.hi; omega, ?_, fun _ _ _ => hz⟩
        intro x hx hw
        rw [gc] at hx
        obtain rfl := Option.some.inj hx
        exact absurd hw c1

end Verif.Quick
