import Verif.Quick.FloatLemmas

/-! # Helper lemmas for C19: how far rounding carries the result -/
namespace Verif.Quick
open Verif.Median (Item)

/-- Sums, differences and products up to `R` are off by at most `d`. -/
structure Rounds (A : Arith) (R d : Rat) : Prop where
  add : ∀ x y, |x + y| ≤ R → |A.add x y - (x + y)| ≤ d
  sub : ∀ x y, |x - y| ≤ R → |A.sub x y - (x - y)| ≤ d
  mul : ∀ x y, |x * y| ≤ R → |A.mul x y - x * y| ≤ d

/-- The method needs no mean, or means are between the numbers. -/
def MeanOk (A : Arith) (m : Char) : Prop :=
  m = 'l' ∨ m = 'h' ∨ ∀ x y, x ≤ y → x ≤ A.mean x y ∧ A.mean x y ≤ y

theorem pre_le_total (a : List Item) (hn : NonNeg a) (k : Nat) : pre a k ≤ total a := by
  have h1 := fs_nonneg (fun _ => true) (a.drop k) (hn.drop k)
  have h2 := fs_le (fun _ => true) (a.drop k) (hn.drop k)
  have := total_split a k
  linarith

theorem pre_nonneg (a : List Item) (hn : NonNeg a) (k : Nat) : 0 ≤ pre a k := by
  have h1 := fs_nonneg (fun _ => true) (a.take k) (hn.take k)
  have h2 := fs_le (fun _ => true) (a.take k) (hn.take k)
  rw [pre]
  linarith

theorem add_step (A : Arith) {R d : Rat} (hA : Rounds A R d) (x xr w e : Rat) (hx : |xr - x| ≤ e)
    (h0 : 0 ≤ x + w) (h1 : x + w + e ≤ R) : |A.add xr w - (x + w)| ≤ e + d := by
  have he := abs_le.1 hx
  have hr : |xr + w| ≤ R := abs_le.2 ⟨by linarith, by linarith⟩
  have := abs_le.1 (hA.add xr w hr)
  exact abs_le.2 ⟨by linarith, by linarith⟩

theorem scanLF_rat (A : Arith) {R d : Rat} (hA : Rounds A R d) (hd : 0 ≤ d) (a : List Item) (hn : NonNeg a)
    (p c : Rat) (hc : 0 ≤ c) (ii : Nat) (wl wr e : Rat) (l : Nat × Rat) (h : scanL a p ii wl = some l)
    (hw : wl = pre a ii - c) (hw0 : 0 ≤ wl) (he : |wr - wl| ≤ e)
    (hR : total a + e + ((a.length - ii : Nat) : Rat) * d ≤ R) :
    ∃ w, scanLF (ratOps A) a p ii wr = some (l.1, w) ∧ ii ≤ l.1 ∧ l.1 < a.length ∧
      l.2 = pre a l.1 - c ∧ 0 ≤ l.2 ∧ |w - l.2| ≤ e + ((l.1 - ii : Nat) : Rat) * d := by
  generalize hk : a.length - ii = k at *
  induction k generalizing ii wl wr e with
  | zero =>
    rw [scanL, dif_neg (by omega)] at h
    cases h
  | succ k ih =>
    have hi : ii < a.length := by omega
    rw [scanL, dif_pos hi] at h
    rw [scanLF, dif_pos hi]
    by_cases hlt : a[ii].v < p
    · rw [if_pos hlt] at h
      have hwn : 0 ≤ a[ii].w := hn _ (List.getElem_mem hi)
      have hps := pre_succ a ii hi
      have hpt := pre_le_total a hn (ii + 1)
      push_cast at hR
      have hkd : 0 ≤ (k : Rat) * d := mul_nonneg (Nat.cast_nonneg _) hd
      have hstep := add_step A hA wl wr a[ii].w e he (by linarith) (by nlinarith)
      obtain ⟨w, e1, h1, h2, h3, h4, h5⟩ := ih (ii + 1) (wl + a[ii].w) (A.add wr a[ii].w) (e + d) h
        (by rw [hps, hw]; ring) (by linarith) hstep (by omega) (by linarith)
      refine ⟨w, ?_, by omega, h2, h3, h4, ?_⟩
      · have : (ratOps A).lt ((ratOps A).val a[ii]) p = true := by simpa [ratOps] using hlt
        rw [if_pos this]
        exact e1
      · have : l.1 - ii = (l.1 - (ii + 1)) + 1 := by omega
        rw [this]
        push_cast
        linarith
    · rw [if_neg hlt] at h
      obtain rfl := Option.some.inj h
      have : ¬ (ratOps A).lt ((ratOps A).val a[ii]) p = true := by simpa [ratOps] using hlt
      rw [if_neg this]
      exact ⟨wr, rfl, le_rfl, hi, hw, hw0, by simpa using he⟩

theorem hoareF_rat (A : Arith) {R d : Rat} (hA : Rounds A R d) (hd : 0 ≤ d) (p : Rat) (i : Nat) (fuel : Nat) :
    ∀ (b : List Item) (_ : NonNeg b) (ii jj : Nat) (wl wr e : Rat) (c : List Item) (k : Nat) (w : Rat),
    hoare p fuel b ii jj wl = some (c, k, w) → i ≤ ii → wl = pre b ii - pre b i → 0 ≤ wl → |wr - wl| ≤ e →
    total b + e + ((b.length - ii : Nat) : Rat) * d ≤ R →
    ∃ w', hoareF (ratOps A) p fuel b ii jj wr = some (c, k, w') ∧
      |w' - w| ≤ e + ((b.length - ii : Nat) : Rat) * d := by
  induction fuel with
  | zero => intro b _ ii jj wl wr e c k w h; rw [hoare] at h; cases h
  | succ fuel ih =>
    intro b hn ii jj wl wr e c k w h hi hw hw0 he hR
    rw [hoare] at h
    simp only [Option.bind_eq_bind, Option.bind_eq_some_iff] at h
    obtain ⟨l, hl, jj', hj, h⟩ := h
    obtain ⟨w1, e1, h1, h2, h3, h4, h5⟩ := scanLF_rat A hA hd b hn p (pre b i) (pre_nonneg b hn i) ii wl wr e l hl
      hw hw0 he hR
    simp only [hoareF, e1, scanRF_rat, hj, Option.bind_eq_bind, Option.bind_some]
    have hsum : ((l.1 - ii : Nat) : Rat) * d + d + ((b.length - (l.1 + 1) : Nat) : Rat) * d =
        ((b.length - ii : Nat) : Rat) * d := by
      have : b.length - ii = (l.1 - ii) + 1 + (b.length - (l.1 + 1)) := by omega
      rw [this]
      push_cast
      ring
    have hrest : 0 ≤ ((b.length - (l.1 + 1) : Nat) : Rat) * d := mul_nonneg (Nat.cast_nonneg _) hd
    by_cases hm : jj' ≤ l.1
    · rw [if_pos hm] at h
      rw [if_pos hm]
      unfold meet at h
      unfold meetF
      by_cases heq : l.1 = jj'
      · rw [if_pos heq] at h
        rw [if_pos heq]
        simp only [weightAt, List.getElem?_eq_getElem h2, Option.map_some, Option.bind_eq_bind,
          Option.bind_some, Option.some.injEq, Prod.mk.injEq] at h ⊢
        obtain ⟨rfl, rfl, rfl⟩ := h
        have hwn : 0 ≤ b[l.1].w := hn _ (List.getElem_mem h2)
        have hps := pre_succ b l.1 h2
        have hpt := pre_le_total b hn (l.1 + 1)
        have hpi := pre_nonneg b hn i
        refine ⟨_, ⟨rfl, rfl, rfl⟩, ?_⟩
        have := add_step A hA l.2 w1 b[l.1].w _ h5 (by linarith) (by linarith)
        exact le_trans this (by linarith)
      · rw [if_neg heq] at h
        rw [if_neg heq]
        simp only [Option.some.injEq, Prod.mk.injEq] at h ⊢
        obtain ⟨rfl, rfl, rfl⟩ := h
        exact ⟨w1, ⟨rfl, rfl, rfl⟩, le_trans h5 (by linarith)⟩
    · rw [if_neg hm] at h
      rw [if_neg hm]
      simp only [Option.bind_eq_some_iff] at h
      obtain ⟨b', hs, x, hx, h⟩ := h
      rw [swapF_rat, hs]
      have hjl : jj' < b.length := by
        unfold swap at hs
        split at hs
        · rename_i hh; exact hh.2
        · cases hs
      obtain ⟨b'', hs', sw⟩ := swap_ok b l.1 jj' (by omega) hjl
      obtain rfl : b' = b'' := Option.some.inj (hs.symm.trans hs')
      have hil : l.1 < b'.length := by rw [sw.len]; exact h2
      simp only [weightAt, List.getElem?_eq_getElem hil, Option.map_some, Option.some.injEq] at hx
      simp only [Option.bind_some, List.getElem?_eq_getElem hil]
      have hn' : NonNeg b' := fun y hy => hn y (sw.perm.mem_iff.1 hy)
      have ht : total b' = total b := total_perm sw.perm
      have hps := pre_succ b' l.1 hil
      have hpl := sw.preLow l.1 le_rfl
      have hpi := sw.preLow i (by omega)
      have hpt := pre_le_total b' hn' (l.1 + 1)
      have hpn := pre_nonneg b' hn' i
      have hwn : 0 ≤ b'[l.1].w := hn' _ (List.getElem_mem hil)
      subst hx
      have hstep := add_step A hA l.2 w1 b'[l.1].w _ h5 (by linarith) (by linarith)
      obtain ⟨w', e', hw'⟩ := ih b' hn' (l.1 + 1) (jj' - 1) (l.2 + b'[l.1].w) (A.add w1 b'[l.1].w)
        (e + ((l.1 - ii : Nat) : Rat) * d + d) c k w h (by omega) (by rw [hps, hpl, hpi, h3]; ring)
        (by linarith) hstep (by rw [ht, sw.len]; linarith)
      refine ⟨w', e', ?_⟩
      rw [sw.len] at hw'
      exact le_trans hw' (by linarith)

theorem below_le_pre_pos (a : List Item) (h : NonNeg a) (k : Nat) (v : Rat)
    (hv : ∀ (l : Nat) (x : Item), a[l]? = some x → k ≤ l → 0 < x.w → v ≤ x.v) : below a v ≤ pre a k := by
  rw [below_eq, fs_split _ a k, fs_none _ _ (h.drop k)]
  · have := fs_le (fun x => decide (x.v < v)) _ (h.take k)
    rw [pre]; linarith
  · intro x hx hw
    obtain ⟨l, hl, e⟩ := mem_drop_idx hx
    have := hv l x e hl hw
    simp only [decide_eq_false_iff_not]
    linarith

theorem pre_le_atOrBelow_pos (a : List Item) (h : NonNeg a) (k : Nat) (v : Rat)
    (hv : ∀ (l : Nat) (x : Item), a[l]? = some x → l < k → 0 < x.w → x.v ≤ v) : pre a k ≤ atOrBelow a v := by
  rw [atOrBelow_eq, fs_split _ a k, fs_all _ _ (h.take k)]
  · have := fs_nonneg (fun x => decide (x.v ≤ v)) _ (h.drop k)
    rw [pre]; linarith
  · intro x hx hw
    obtain ⟨l, hl, e⟩ := mem_take_idx hx
    have := hv l x e hl hw
    simpa using this

/-- At most `Q + T` strictly below and at least `Q - T` at or below. -/
def Near (xs : List Item) (Q T r : Rat) : Prop := below xs r ≤ Q + T ∧ Q - T ≤ atOrBelow xs r

theorem boundaryF_near (A : Arith) (a : List Item) (hn : NonNeg a) (m : Char) (hmo : MeanOk A m)
    (jj : Nat) (hj : jj + 1 < a.length)
    (sep : ∀ (k l : Nat) (x y : Item), a[k]? = some x → a[l]? = some y → k ≤ jj → jj < l → x.v ≤ y.v) :
    ∃ r, boundaryF (ratOps A) m a jj = some r ∧ below a r ≤ pre a (jj + 1) ∧ pre a (jj + 1) ≤ atOrBelow a r := by
  obtain ⟨c, e1, hc⟩ := maxNonZero_ok a 0 jj (by omega) (by omega)
  obtain ⟨f, e2, hf⟩ := minNonZero_ok a (jj + 1) (a.length - 1) (by omega) (by omega)
  have hcl : c < a.length := by have := hc.hi; omega
  have hfl : f < a.length := by have := hf.hi; omega
  have gx := List.getElem?_eq_getElem hcl
  have gy := List.getElem?_eq_getElem hfl
  generalize a[c] = x at gx
  generalize a[f] = y at gy
  refine ⟨boundaryValueF (ratOps A) m x y, by
    simp [boundaryF, maxNonZeroF_rat, minNonZeroF_rat, e1, e2, gx, gy], ?_⟩
  have hxy : x.v ≤ y.v := sep c f x y gx gy hc.hi (by have := hf.lo; omega)
  have hb : x.v ≤ boundaryValueF (ratOps A) m x y ∧ boundaryValueF (ratOps A) m x y ≤ y.v := by
    unfold boundaryValueF
    split
    · exact ⟨le_rfl, hxy⟩
    · rename_i h1
      split
      · exact ⟨hxy, le_rfl⟩
      · rename_i h2
        rcases hmo with h | h | h
        · exact absurd (Or.inr h) h1
        · exact absurd (Or.inr h) h2
        · exact h x.v y.v hxy
  refine ⟨below_le_pre_pos a hn _ _ fun l z hz hl hw => ?_, pre_le_atOrBelow_pos a hn _ _ fun l z hz hl hw => ?_⟩
  · have hll : l < a.length := by
      by_contra hc'
      rw [List.getElem?_eq_none (by omega)] at hz
      cases hz
    by_cases hyw : 0 < y.w
    · exact le_trans hb.2 (hf.pos y gy hyw l z hz hl (by omega) hw)
    · exact absurd hw (hf.zero y gy hyw l z hz hl (by omega))
  · by_cases hxw : 0 < x.w
    · exact le_trans (hc.pos x gx hxw l z hz (by omega) (by omega) hw) hb.1
    · exact absurd hw (hc.zero x gx hxw l z hz (by omega) (by omega))

theorem selectF_near (A : Arith) {R d : Rat} (hA : Rounds A R d) (hd : 0 ≤ d) (a0 : List Item) (m : Char) (hmo : MeanOk A m)
    (Q T : Rat)
    (hQ0 : 0 ≤ Q) (hQ1 : Q ≤ total a0) (hR : total a0 + T ≤ R) (fuel : Nat) :
    ∀ (a : List Item) (i j : Nat) (qs E : Rat), a.Perm a0 → NonNeg a → i < j → j < a.length → j - i < fuel →
      (∀ (k l : Nat) (x y : Item), a[k]? = some x → a[l]? = some y → k < i → i ≤ l → x.v ≤ y.v) →
      (∀ (k l : Nat) (x y : Item), a[k]? = some x → a[l]? = some y → k ≤ j → j < l → x.v ≤ y.v) →
      |qs - (Q - pre a i)| ≤ E → pre a i ≤ Q + E → Q ≤ pre a (j + 1) + E → 0 ≤ E →
      E + ((j - i : Nat) : Rat) * ((a0.length + 1 : Nat) * d) ≤ T →
      ∃ r, selectF (ratOps A) m fuel a i j qs = some r ∧ Near a0 Q T r := by
  induction fuel with
  | zero => intro a i j qs E _ _ _ _ h; omega
  | succ fuel ih =>
    intro a i j qs E hp0 hna hij hj hf hlow hhigh hqs hpE hEp hE hT
    have hm : (i + j) / 2 < a.length := by omega
    have gm := List.getElem?_eq_getElem hm
    obtain ⟨b, jj, e, hp⟩ := hoare_ok a i j a[(i + j) / 2].v (by omega) (a.length + 1) a i j 0
      { within := Within.refl a i j, bound := hj, li := le_rfl, lj := le_rfl, cross := by omega,
        left := fun k x _ h1 h2 => absurd h1 (by omega),
        right := fun k x _ h1 h2 => absurd h1 (by omega), wl := by ring,
        guard := Or.inl ⟨rfl, rfl, _, gm, rfl⟩ } (by omega)
    have hw := hp.within
    have hperm : b.Perm a0 := hw.perm.trans hp0
    have hnb : NonNeg b := fun x hx => hna x (hw.perm.mem_iff.1 hx)
    have hl := hw.len
    have hla : a.length = a0.length := hp0.length_eq
    have hta : total a = total a0 := total_perm hp0
    have hpi : pre b i = pre a i := hw.preLow i le_rfl
    have hpj : pre b (j + 1) = pre a (j + 1) := hw.preHigh (j + 1) (by omega)
    have low : ∀ (k l : Nat) (x y : Item), b[k]? = some x → b[l]? = some y → k < i → i ≤ l →
        x.v ≤ y.v := by
      intro k l x y hx hy h1 h2
      rw [hw.same k (Or.inl h1)] at hx
      by_cases h3 : l ≤ j
      · obtain ⟨l', a1, a2, a3⟩ := hw.moved l y hy h2 h3
        exact hlow k l' x y hx a3 h1 a1
      · rw [hw.same l (Or.inr (by omega))] at hy
        exact hlow k l x y hx hy h1 h2
    have high : ∀ (k l : Nat) (x y : Item), b[k]? = some x → b[l]? = some y → k ≤ j → j < l →
        x.v ≤ y.v := by
      intro k l x y hx hy h1 h2
      rw [hw.same l (Or.inr h2)] at hy
      by_cases h3 : i ≤ k
      · obtain ⟨k', a1, a2, a3⟩ := hw.moved k x hx h3 h1
        exact hhigh k' l x y a3 hy a2 h2
      · rw [hw.same k (Or.inl (by omega))] at hx
        exact hhigh k l x y hx hy h1 h2
    have hlo := hp.lo
    have hs := hp.strict hij
    have sep : ∀ (k l : Nat) (x y : Item), b[k]? = some x → b[l]? = some y → k ≤ jj → jj < l →
        x.v ≤ y.v := by
      intro k l x y hx hy h1 h2
      by_cases h3 : k < i
      · exact low k l x y hx hy h3 (by omega)
      · by_cases h4 : j < l
        · exact high k l x y hx hy (by omega) h4
        · exact le_trans (hp.left k x hx (by omega) h1) (hp.right l y hy h2 (by omega))
    -- the rounded weight of the left part
    have hnd : 0 ≤ (a0.length : Rat) * d := mul_nonneg (Nat.cast_nonneg _) hd
    have hji : ((j - i : Nat) : Rat) = ((j - i - 1 : Nat) : Rat) + 1 := by
      have : j - i = (j - i - 1) + 1 := by omega
      rw [this]; push_cast; simp
    have hrest : 0 ≤ ((j - i - 1 : Nat) : Rat) * ((a0.length + 1 : Nat) * d) :=
      mul_nonneg (Nat.cast_nonneg _) (mul_nonneg (Nat.cast_nonneg _) hd)
    have hc1 : ((a0.length + 1 : Nat) : Rat) * d = (a0.length : Rat) * d + d := by push_cast; ring
    rw [hji, add_mul, one_mul, hc1] at hT
    rw [hc1] at hrest
    have hsub : ((a.length - i : Nat) : Rat) * d ≤ (a0.length : Rat) * d := by
      apply mul_le_mul_of_nonneg_right _ hd
      exact_mod_cast (by omega : a.length - i ≤ a0.length)
    obtain ⟨wr, er, hwr⟩ := hoareF_rat A hA hd a[(i + j) / 2].v i (a.length + 1) a hna i j 0 0 0 b jj _ e le_rfl
      (by ring) le_rfl (by simp) (by rw [hta]; linarith)
    rw [zero_add] at hwr
    have hwr' := abs_le.1 (le_trans hwr hsub)
    have hqs' := abs_le.1 hqs
    have hz : (ratOps A).zero = 0 := rfl
    have hv : (ratOps A).val a[(i + j) / 2] = a[(i + j) / 2].v := rfl
    have hT' : E + (a0.length : Rat) * d + d ≤ T := by linarith
    have heq : ∀ r, (ratOps A).eq qs r = decide (qs = r) := fun _ => rfl
    have hle : ∀ r, (ratOps A).le qs r = decide (qs ≤ r) := fun _ => rfl
    simp only [selectF, gm, Option.bind_eq_bind, Option.bind_some, hz, hv, er, heq, hle, decide_eq_true_eq]
    have hfin : ∀ (k : Nat) (hk : k < b.length), i ≤ k → k ≤ j →
        (∀ (l : Nat) (y : Item), b[l]? = some y → l < k → y.v ≤ b[k].v) →
        (∀ (l : Nat) (y : Item), b[l]? = some y → k < l → b[k].v ≤ y.v) →
        pre b k ≤ Q + T → Q ≤ pre b (k + 1) + T → Near a0 Q T b[k].v := by
      intro k hk _ _ h1 h2 h3 h4
      have gk := List.getElem?_eq_getElem hk
      have b1 := below_le_pre b hnb k b[k].v fun l y hy hl' => by
        rcases Nat.eq_or_lt_of_le hl' with rfl | h
        · rw [gk] at hy
          obtain rfl := Option.some.inj hy
          exact le_rfl
        · exact h2 l y hy h
      have b2 := pre_le_atOrBelow b hnb (k + 1) b[k].v fun l y hy hl' => by
        rcases Nat.eq_or_lt_of_le (Nat.le_of_lt_succ hl') with rfl | h
        · rw [gk] at hy
          obtain rfl := Option.some.inj hy
          exact le_rfl
        · exact h1 l y hy h
      rw [below_perm hperm] at b1
      rw [atOrBelow_perm hperm] at b2
      exact ⟨by linarith, by linarith⟩
    by_cases c1 : qs = wr
    · rw [if_pos c1]
      obtain ⟨r, e', h1, h2⟩ := boundaryF_near A b hnb m hmo jj (by omega) sep
      rw [below_perm hperm] at h1
      rw [atOrBelow_perm hperm] at h2
      exact ⟨r, e', by linarith, by linarith⟩
    · rw [if_neg c1]
      by_cases c2 : qs ≤ wr
      · rw [if_pos c2]
        by_cases c3 : i = jj
        · have hib : i < b.length := by omega
          have gi := List.getElem?_eq_getElem hib
          rw [if_pos c3, gi]
          refine ⟨_, rfl, hfin i hib le_rfl (by omega) ?_ ?_ (by linarith) (by rw [c3]; linarith)⟩
          · intro k y hy hk
            exact low k i y _ hy gi hk le_rfl
          · intro k y hy hk
            exact sep i k _ y gi hy (by omega) (by omega)
        · rw [if_neg c3]
          have hc : ((jj - i : Nat) : Rat) ≤ ((j - i - 1 : Nat) : Rat) := by
            exact_mod_cast (by omega : jj - i ≤ j - i - 1)
          have hmul := mul_le_mul_of_nonneg_right hc (by linarith : 0 ≤ (a0.length : Rat) * d + d)
          exact ih b i jj qs (E + ((a0.length : Rat) * d + d)) hperm hnb (by omega) (by omega) (by omega) low sep
            (by rw [hpi]; exact le_trans hqs (by linarith)) (by linarith) (by linarith) (by linarith)
            (by rw [hc1]; linarith)
      · rw [if_neg c2]
        have c2' : wr < qs := by
          rcases lt_or_ge wr qs with h | h
          · exact h
          · exact absurd h c2
        by_cases c3 : jj + 1 = j
        · have hjb : j < b.length := by omega
          have gj := List.getElem?_eq_getElem hjb
          rw [if_pos c3, gj]
          refine ⟨_, rfl, hfin j hjb (by omega) le_rfl ?_ ?_ (by rw [← c3]; linarith) (by rw [hpj]; linarith)⟩
          · intro k y hy hk
            exact sep k j y _ hy gj (by omega) (by omega)
          · intro k y hy hk
            exact high j k _ y gj hy le_rfl hk
        · rw [if_neg c3]
          have hc : ((j - (jj + 1) : Nat) : Rat) ≤ ((j - i - 1 : Nat) : Rat) := by
            exact_mod_cast (by omega : j - (jj + 1) ≤ j - i - 1)
          have hmul := mul_le_mul_of_nonneg_right hc (by linarith : 0 ≤ (a0.length : Rat) * d + d)
          have hpn := pre_nonneg b hnb (jj + 1)
          have hpt := pre_le_total b hnb (jj + 1)
          have htb : total b = total a0 := total_perm hperm
          have hsb := abs_le.1 (hA.sub qs wr (abs_le.2 ⟨by linarith, by linarith⟩))
          have hsubv : (ratOps A).sub qs wr = A.sub qs wr := rfl
          rw [hsubv]
          exact ih b (jj + 1) j (A.sub qs wr) (E + ((a0.length : Rat) * d + d)) hperm hnb (by omega) (by omega)
            (by omega) (fun k l x y hx hy h1 h2 => sep k l x y hx hy (by omega) (by omega)) high
            (abs_le.2 ⟨by linarith, by linarith⟩) (by linarith) (by rw [hpj]; linarith) (by linarith)
            (by rw [hc1]; linarith)

theorem totalF_near (A : Arith) {R d : Rat} (hA : Rounds A R d) (hd : 0 ≤ d) : ∀ (l : List Item) (s sr e : Rat),
    NonNeg l → 0 ≤ s → |sr - s| ≤ e → s + total l + e + (l.length : Rat) * d ≤ R →
    |l.foldl (fun t x => A.add t x.w) sr - (s + total l)| ≤ e + (l.length : Rat) * d
  | [], s, sr, e, _, _, he, _ => by simpa [total] using he
  | x :: l, s, sr, e, hn, hs, he, hR => by
    have hx : 0 ≤ x.w := hn x List.mem_cons_self
    have hl : NonNeg l := fun y hy => hn y (List.mem_cons_of_mem _ hy)
    have ht := fs_nonneg (fun _ => true) l hl
    have ht' := fs_le (fun _ => true) l hl
    rw [total_cons, List.length_cons] at *
    push_cast at *
    have hld : 0 ≤ (l.length : Rat) * d := mul_nonneg (Nat.cast_nonneg _) hd
    have hstep := add_step A hA s sr x.w e he (by linarith) (by nlinarith)
    have := totalF_near A hA hd l (s + x.w) (A.add sr x.w) (e + d) hl (by linarith) hstep (by nlinarith)
    rw [List.foldl_cons]
    have h2 : s + (x.w + total l) = s + x.w + total l := by ring
    rw [h2]
    exact le_trans this (by nlinarith)

end Verif.Quick
