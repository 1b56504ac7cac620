import Verif.Quick.Float
import Verif.Quick.Outer

/-! # Helper lemmas for C19 with the arithmetic of the machine -/
namespace Verif.Quick
open Verif.Median (Item)

variable {ι α ω δ : Type}

/-! ## No access outside, whatever the arithmetic -/

theorem scanLF_safe (O : Ops ι α ω δ) (a : List ι) (p : α) (m : Nat) (hm : m < a.length)
    (hp : O.lt (O.val a[m]) p = false) (ii : Nat) (wl : δ) (him : ii ≤ m) :
    ∃ ii' w, scanLF O a p ii wl = some (ii', w) ∧ ii ≤ ii' ∧ ii' ≤ m ∧
      ∀ x, a[ii']? = some x → O.lt (O.val x) p = false := by
  generalize hd : m - ii = d
  induction d generalizing ii wl with
  | zero =>
    obtain rfl : ii = m := by omega
    rw [scanLF, dif_pos hm, if_neg (by simp [hp])]
    refine ⟨ii, wl, rfl, le_rfl, le_rfl, ?_⟩
    intro x hx
    rw [List.getElem?_eq_getElem hm] at hx
    obtain rfl := Option.some.inj hx
    exact hp
  | succ d ih =>
    have hii : ii < a.length := by omega
    rw [scanLF, dif_pos hii]
    cases hc : O.lt (O.val a[ii]) p with
    | true =>
      rw [if_pos rfl]
      obtain ⟨ii', w, e, h1, h2, h3⟩ := ih (ii + 1) (O.add wl (O.wt a[ii])) (by omega) (by omega)
      exact ⟨ii', w, e, by omega, h2, h3⟩
    | false =>
      rw [if_neg (by simp)]
      refine ⟨ii, wl, rfl, le_rfl, him, ?_⟩
      intro x hx
      rw [List.getElem?_eq_getElem hii] at hx
      obtain rfl := Option.some.inj hx
      exact hc

theorem scanRF_safe (O : Ops ι α ω δ) (a : List ι) (p : α) (m jj : Nat) (hj : jj < a.length) (hm : m ≤ jj)
    (hp : O.lt p (O.val a[m]) = false) :
    ∃ jj', scanRF O a p jj = some jj' ∧ m ≤ jj' ∧ jj' ≤ jj ∧
      ∀ x, a[jj']? = some x → O.lt p (O.val x) = false := by
  induction jj with
  | zero =>
    obtain rfl : m = 0 := by omega
    rw [scanRF, dif_pos hj, if_neg (by simp [hp])]
    refine ⟨0, rfl, le_rfl, le_rfl, ?_⟩
    intro x hx
    rw [List.getElem?_eq_getElem hj] at hx
    obtain rfl := Option.some.inj hx
    exact hp
  | succ jj ih =>
    rw [scanRF, dif_pos hj]
    cases hc : O.lt p (O.val a[jj + 1]) with
    | true =>
      rw [if_pos rfl]
      have hmj : m ≤ jj := by
        rcases Nat.eq_or_lt_of_le hm with rfl | h
        · rw [hp] at hc; cases hc
        · omega
      obtain ⟨jj', e, h1, h2, h3⟩ := ih (by omega) hmj hp
      exact ⟨jj', e, h1, by omega, h3⟩
    | false =>
      rw [if_neg (by simp)]
      refine ⟨jj + 1, rfl, hm, le_rfl, ?_⟩
      intro x hx
      rw [List.getElem?_eq_getElem hj] at hx
      obtain rfl := Option.some.inj hx
      exact hc

theorem swapF_safe (a : List ι) (x y : Nat) (hxy : x < y) (hy : y < a.length) :
    ∃ a', swapF a x y = some a' ∧ a'.Perm a ∧ a'[x]? = a[y]? ∧ a'[y]? = a[x]? := by
  have hx : x < a.length := by omega
  refine ⟨_, by rw [swapF, dif_pos ⟨hx, hy⟩], List.set_set_perm hx hy, ?_, ?_⟩
  · rw [List.getElem?_set_ne (by omega), List.getElem?_set_self (by omega),
      List.getElem?_eq_getElem hy]
  · rw [List.getElem?_set_self (by simpa using hy), List.getElem?_eq_getElem hx]

theorem hoareF_safe (O : Ops ι α ω δ) (p : α) (hpp : O.lt p p = false) (i j : Nat) (hij : i ≤ j)
    (fuel : Nat) (b : List ι) (ii jj : Nat) (wl : δ) (hb : j < b.length) (hi : i ≤ ii) (hj : jj ≤ j)
    (hcross : ii ≤ jj + 1)
    (hg : (ii = i ∧ jj = j ∧ ∃ x, b[(i + j) / 2]? = some x ∧ O.val x = p) ∨
      (i < ii ∧ jj < j ∧ (∀ x, b[ii - 1]? = some x → O.lt p (O.val x) = false) ∧
        ∀ x, b[jj + 1]? = some x → O.lt (O.val x) p = false))
    (hf : jj + 1 - ii < fuel) :
    ∃ c jj' w, hoareF O p fuel b ii jj wl = some (c, jj', w) ∧ c.Perm b ∧ i ≤ jj' ∧ jj' ≤ j ∧
      (i < j → jj' < j) := by
  induction fuel generalizing b ii jj wl with
  | zero => omega
  | succ fuel ih =>
    have sl : ∃ m, ∃ hm : m < b.length, ii ≤ m ∧ O.lt (O.val b[m]) p = false ∧ (jj = j → m = (i + j) / 2) := by
      rcases hg with ⟨h1, h2, x, hx, hv⟩ | ⟨h1, h2, h3, h4⟩
      · have hlt : (i + j) / 2 < b.length := by omega
        rw [List.getElem?_eq_getElem hlt] at hx
        obtain rfl := Option.some.inj hx
        exact ⟨(i + j) / 2, hlt, by omega, by rw [hv]; exact hpp, fun _ => rfl⟩
      · have hlt : jj + 1 < b.length := by omega
        exact ⟨jj + 1, hlt, by omega, h4 _ (List.getElem?_eq_getElem hlt), fun e => absurd h2 (by omega)⟩
    obtain ⟨m, hm, him, hpm, hm0⟩ := sl
    obtain ⟨ii', w, e1, l1, l2, l3⟩ := scanLF_safe O b p m hm hpm ii wl him
    have sr : ∃ m', ∃ hm : m' < b.length, m' ≤ jj ∧ O.lt p (O.val b[m']) = false ∧ i ≤ m' ∧
        (jj = j → m' = (i + j) / 2) := by
      rcases hg with ⟨h1, h2, x, hx, hv⟩ | ⟨h1, h2, h3, h4⟩
      · have hlt : (i + j) / 2 < b.length := by omega
        rw [List.getElem?_eq_getElem hlt] at hx
        obtain rfl := Option.some.inj hx
        exact ⟨(i + j) / 2, hlt, by omega, by rw [hv]; exact hpp, by omega, fun _ => rfl⟩
      · have hlt : ii - 1 < b.length := by omega
        exact ⟨ii - 1, hlt, by omega, h3 _ (List.getElem?_eq_getElem hlt), by omega,
          fun e => absurd h2 (by omega)⟩
    obtain ⟨m', hm', hmj', hpm', hm1, hm3⟩ := sr
    obtain ⟨jj', e2, r1, r2, r3⟩ := scanRF_safe O b p m' jj (by omega) hmj' hpm'
    have hii' : ii' < b.length := by omega
    have hjj' : jj' < b.length := by omega
    simp only [hoareF, e1, e2, Option.bind_eq_bind, Option.bind_some]
    by_cases hd : jj' ≤ ii'
    · rw [if_pos hd]
      have hst : i < j → jj' < j := by
        intro hlt
        by_cases hjj : jj = j
        · have := hm0 hjj; omega
        · omega
      unfold meetF
      by_cases he : ii' = jj'
      · rw [if_pos he, List.getElem?_eq_getElem hii']
        exact ⟨b, jj', _, rfl, List.Perm.refl _, by omega, by omega, hst⟩
      · rw [if_neg he]
        exact ⟨b, jj', _, rfl, List.Perm.refl _, by omega, by omega, hst⟩
    · rw [if_neg hd]
      obtain ⟨c, e3, hs, hx, hy⟩ := swapF_safe b ii' jj' (by omega) hjj'
      have hl := hs.length_eq
      have hic : ii' < c.length := by omega
      simp only [e3, Option.bind_some, List.getElem?_eq_getElem hic]
      have g1 : ∀ x, c[ii' + 1 - 1]? = some x → O.lt p (O.val x) = false := by
        intro x hx'
        rw [Nat.add_sub_cancel, hx] at hx'
        exact r3 x hx'
      have g2 : ∀ x, c[jj' - 1 + 1]? = some x → O.lt (O.val x) p = false := by
        intro x hx'
        rw [show jj' - 1 + 1 = jj' by omega, hy] at hx'
        exact l3 x hx'
      obtain ⟨d, jj'', w', e4, h1, h2, h3, h4⟩ := ih c (ii' + 1) (jj' - 1) (O.add w (O.wt c[ii']))
        (by omega) (by omega) (by omega) (by omega) (Or.inr ⟨by omega, by omega, g1, g2⟩) (by omega)
      exact ⟨d, jj'', w', e4, h1.trans hs, h2, h3, h4⟩

theorem foldlM_range_safe (f : Nat → Nat → Option Nat) (n : Nat)
    (hf : ∀ c x, c < n → x < n → f c x = some c ∨ f c x = some x) (P : Nat → Prop) :
    ∀ (k s c : Nat), c < n → s + k ≤ n → P c → (∀ x, s ≤ x → x < s + k → P x) →
      ∃ r, (List.range' s k).foldlM f c = some r ∧ r < n ∧ P r
  | 0, s, c, hc, _, hp, _ => ⟨c, rfl, hc, hp⟩
  | k + 1, s, c, hc, hs, hp, hP => by
    rw [List.range'_succ, List.foldlM_cons]
    rcases hf c s hc (by omega) with e | e
    · rw [e]
      exact foldlM_range_safe f n hf P k (s + 1) c hc (by omega) hp fun x h1 h2 => hP x (by omega) (by omega)
    · rw [e]
      exact foldlM_range_safe f n hf P k (s + 1) s (by omega) (by omega) (hP s le_rfl (by omega))
        fun x h1 h2 => hP x (by omega) (by omega)

theorem maxStepF_safe (O : Ops ι α ω δ) (a : List ι) (c x : Nat) (hc : c < a.length) (hx : x < a.length) :
    maxStepF O a c x = some c ∨ maxStepF O a c x = some x := by
  simp only [maxStepF, List.getElem?_eq_getElem hc, List.getElem?_eq_getElem hx, Option.bind_eq_bind,
    Option.bind_some]
  split <;> split <;> simp

theorem minStepF_safe (O : Ops ι α ω δ) (a : List ι) (c x : Nat) (hc : c < a.length) (hx : x < a.length) :
    minStepF O a c x = some c ∨ minStepF O a c x = some x := by
  simp only [minStepF, List.getElem?_eq_getElem hc, List.getElem?_eq_getElem hx, Option.bind_eq_bind,
    Option.bind_some]
  split <;> split <;> simp

theorem boundaryF_safe (O : Ops ι α ω δ) (m : Char) (a : List ι) (jj : Nat) (hj : jj + 1 < a.length) :
    ∃ i j x y, i ≤ jj ∧ jj < j ∧ a[i]? = some x ∧ a[j]? = some y ∧
      boundaryF O m a jj = some (boundaryValueF O m x y) := by
  obtain ⟨i, e1, h1, h2⟩ := foldlM_range_safe (maxStepF O a) a.length (maxStepF_safe O a) (· ≤ jj) (jj - 0) (0 + 1) 0
    (by omega) (by omega) (by omega) fun x h1 h2 => by omega
  obtain ⟨j, e2, h3, h4⟩ := foldlM_range_safe (minStepF O a) a.length (minStepF_safe O a) (jj < ·)
    (a.length - 1 - (jj + 1)) (jj + 1 + 1) (jj + 1)
    (by omega) (by omega) (by omega) fun x h1 h2 => by omega
  refine ⟨i, j, a[i], a[j], h2, h4, List.getElem?_eq_getElem h1, List.getElem?_eq_getElem h3, ?_⟩
  have e1' : maxNonZeroF O a 0 jj = some i := e1
  have e2' : minNonZeroF O a (jj + 1) (a.length - 1) = some j := e2
  simp [boundaryF, e1', e2', List.getElem?_eq_getElem h1, List.getElem?_eq_getElem h3]

/-- A value that is among the data, or the mean of two of them. -/
def FromData (O : Ops ι α ω δ) (a : List ι) (r : α) : Prop :=
  (∃ x ∈ a, r = O.val x) ∨ ∃ x ∈ a, ∃ y ∈ a, r = O.mean (O.val x) (O.val y)

theorem FromData.perm {O : Ops ι α ω δ} {a b : List ι} {r : α} (h : FromData O b r) (hp : b.Perm a) :
    FromData O a r := by
  rcases h with ⟨x, hx, e⟩ | ⟨x, hx, y, hy, e⟩
  · exact Or.inl ⟨x, hp.mem_iff.1 hx, e⟩
  · exact Or.inr ⟨x, hp.mem_iff.1 hx, y, hp.mem_iff.1 hy, e⟩

theorem boundaryValueF_from (O : Ops ι α ω δ) (m : Char) (a : List ι) (x y : ι) (hx : x ∈ a) (hy : y ∈ a) :
    FromData O a (boundaryValueF O m x y) := by
  unfold boundaryValueF
  split
  · exact Or.inl ⟨x, hx, rfl⟩
  · split
    · exact Or.inl ⟨y, hy, rfl⟩
    · exact Or.inr ⟨x, hx, y, hy, rfl⟩

theorem selectF_safe (O : Ops ι α ω δ) (hirr : ∀ x, O.lt x x = false) (m : Char) (fuel : Nat) :
    ∀ (a : List ι) (i j : Nat) (qs : δ), i < j → j < a.length → j - i < fuel →
      ∃ r, selectF O m fuel a i j qs = some r ∧ FromData O a r := by
  induction fuel with
  | zero => intro a i j qs _ _ h; omega
  | succ fuel ih =>
    intro a i j qs hij hj hf
    have hm : (i + j) / 2 < a.length := by omega
    obtain ⟨b, jj, w, e, hp, h1, h2, h3⟩ := hoareF_safe O (O.val a[(i + j) / 2]) (hirr _) i j (by omega)
      (a.length + 1) a i j O.zero hj le_rfl le_rfl (by omega)
      (Or.inl ⟨rfl, rfl, _, List.getElem?_eq_getElem hm, rfl⟩) (by omega)
    have hlt := h3 hij
    have hl := hp.length_eq
    simp only [selectF, List.getElem?_eq_getElem hm, Option.bind_eq_bind, Option.bind_some, e]
    split
    · obtain ⟨i', j', x, y, _, _, hx, hy, e'⟩ := boundaryF_safe O m b jj (by omega)
      exact ⟨_, e', (boundaryValueF_from O m b x y (List.mem_of_getElem? hx) (List.mem_of_getElem? hy)).perm hp⟩
    · split
      · split
        · have hi : i < b.length := by omega
          rw [List.getElem?_eq_getElem hi]
          exact ⟨_, rfl, FromData.perm (Or.inl ⟨_, List.getElem_mem hi, rfl⟩) hp⟩
        · obtain ⟨r, e', hr⟩ := ih b i jj qs (by omega) (by omega) (by omega)
          exact ⟨r, e', hr.perm hp⟩
      · split
        · have hj' : j < b.length := by omega
          rw [List.getElem?_eq_getElem hj']
          exact ⟨_, rfl, FromData.perm (Or.inl ⟨_, List.getElem_mem hj', rfl⟩) hp⟩
        · obtain ⟨r, e', hr⟩ := ih b (jj + 1) j (O.sub qs w) (by omega) (by omega) (by omega)
          exact ⟨r, e', hr.perm hp⟩

/-! ## The exact model is a case of this one -/

theorem scanRF_rat (A : Arith) (a : List Item) (p : Rat) : ∀ jj, scanRF (ratOps A) a p jj = scanR a p jj
  | 0 => by rw [scanRF, scanR]; simp [ratOps]
  | jj + 1 => by
    rw [scanRF, scanR]
    have := scanRF_rat A a p jj
    simp only [ratOps, decide_eq_true_eq] at this ⊢
    rw [this]

theorem swapF_rat (a : List Item) (x y : Nat) : swapF a x y = swap a x y := rfl

theorem maxNonZeroF_rat (A : Arith) (a : List Item) (i j : Nat) :
    maxNonZeroF (ratOps A) a i j = maxNonZero a i j := by
  unfold maxNonZeroF maxNonZero
  congr 1
  funext c x
  simp only [maxStepF, maxStep, ratOps, decide_eq_true_eq]

theorem minNonZeroF_rat (A : Arith) (a : List Item) (i j : Nat) :
    minNonZeroF (ratOps A) a i j = minNonZero a i j := by
  unfold minNonZeroF minNonZero
  congr 1
  funext c x
  simp only [minStepF, minStep, ratOps, decide_eq_true_eq]

end Verif.Quick
