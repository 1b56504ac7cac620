import Verif.Util.Spec
import Mathlib.Data.List.Nodup
import Mathlib.Data.List.Pairwise

/-!
# Lemmas on `unique_ordered` and the cache
-/
namespace Verif.Util

variable {K V : Type} [DecidableEq K]

theorem lastUse_append (M : Nat) (k : K) (ops : List (Op K V)) (o : Op K V) :
    lastUse M k (ops ++ [o]) = if Uses M k o then ops.length + 1 else lastUse M k ops := by
  induction ops with
  | nil => simp [lastUse]
  | cons o' ops ih =>
    rw [List.cons_append, lastUse, ih, lastUse]
    by_cases h : Uses M k o
    · simp [h]
    · simp [h]

theorem lastUse_le (M : Nat) (k : K) (ops : List (Op K V)) : lastUse M k ops ≤ ops.length := by
  induction ops with
  | nil => simp [lastUse]
  | cons o ops ih =>
    rw [lastUse, List.length_cons]
    split
    · omega
    · split <;> omega

theorem findItem_mem {l : List (K × V × Nat)} {k : K} {x : V × Nat} (h : findItem l k = some x) :
    (k, x) ∈ l := by
  unfold findItem at h
  cases hf : l.find? (fun p => decide (p.1 = k)) with
  | none => rw [hf] at h; simp at h
  | some p =>
    rw [hf] at h
    have h1 := List.mem_of_find?_eq_some hf
    have h2 := List.find?_some hf
    simp at h h2
    obtain ⟨a, b⟩ := p
    simp only at h h2
    subst h; subst h2; exact h1

theorem findItem_none {l : List (K × V × Nat)} {k : K} (h : findItem l k = none) : k ∉ l.map (·.1) := by
  unfold findItem at h
  simp at h
  simp
  intro v n hm
  exact h _ _ _ hm rfl

theorem findItem_of_mem {l : List (K × V × Nat)} (hn : (l.map (·.1)).Nodup) {k : K} {x : V × Nat}
    (h : (k, x) ∈ l) : findItem l k = some x := by
  induction l with
  | nil => simp at h
  | cons p l ih =>
    obtain ⟨k', y⟩ := p
    simp only [List.map_cons, List.nodup_cons] at hn
    unfold findItem
    rw [List.find?_cons]
    by_cases hk : k' = k
    · subst hk
      rcases List.mem_cons.1 h with h | h
      · cases h; simp
      · exact absurd (List.mem_map_of_mem (f := (·.1)) h) hn.1
    · have : decide (k' = k) = false := by simpa using hk
      rw [this]
      rcases List.mem_cons.1 h with h | h
      · cases h; exact absurd rfl hk
      · exact ih hn.2 h

theorem without_sublist (l : List (K × V × Nat)) (k : K) : (without l k).Sublist l := List.filter_sublist

theorem without_not_mem (l : List (K × V × Nat)) (k : K) : k ∉ (without l k).map (·.1) := by
  simp [without]

theorem sizes_without {l : List (K × V × Nat)} (hn : (l.map (·.1)).Nodup) {k : K} {v : V} {n : Nat}
    (h : (k, v, n) ∈ l) : ((without l k).map (·.2.2)).sum + n = (l.map (·.2.2)).sum := by
  induction l with
  | nil => simp at h
  | cons p l ih =>
    obtain ⟨k', v', n'⟩ := p
    simp only [List.map_cons, List.nodup_cons] at hn
    unfold without
    rw [List.filter_cons]
    by_cases hk : k' = k
    · subst hk
      have hw : l.filter (fun p => decide (p.1 ≠ k')) = l := by
        rw [List.filter_eq_self]
        intro p hp
        have : p.1 ≠ k' := by
          rintro rfl
          exact hn.1 (List.mem_map_of_mem hp)
        simpa using this
      rcases List.mem_cons.1 h with h | h
      · cases h
        simp only [ne_eq, not_true_eq_false, decide_false, Bool.false_eq_true, if_false]
        simp only [ne_eq] at hw
        rw [hw, List.map_cons, List.sum_cons]
        simp only
        omega
      · exact absurd (List.mem_map_of_mem (f := (·.1)) h) hn.1
    · rcases List.mem_cons.1 h with h | h
      · cases h; exact absurd rfl hk
      · have := ih hn.2 h
        unfold without at this
        simp only [ne_eq, hk, not_false_eq_true, decide_true, if_true, List.map_cons, List.sum_cons]
        simp only [ne_eq] at this
        omega

theorem evict_spec (M size : Nat) (curr : Nat) (l : List (K × V × Nat))
    (hc : curr = (l.map (·.2.2)).sum) (hsize : size ≤ M) :
    ∃ dropped, l = dropped ++ (evict M size curr l).2 ∧
      (evict M size curr l).1 = ((evict M size curr l).2.map (·.2.2)).sum ∧
      (evict M size curr l).1 + size ≤ M ∧
      ∀ d x, dropped = d ++ [x] → x.2.2 + (evict M size curr l).1 + size > M := by
  induction l generalizing curr with
  | nil =>
    refine ⟨[], rfl, ?_, ?_, by simp⟩
    · simpa [evict] using hc
    · simp [evict]; simp at hc; omega
  | cons p l ih =>
    obtain ⟨k, v, n⟩ := p
    simp only [List.map_cons, List.sum_cons] at hc
    unfold evict
    split
    · rename_i hgt
      obtain ⟨d, h1, h2, h3, h4⟩ := ih (curr - n) (by omega)
      refine ⟨(k, v, n) :: d, by rw [List.cons_append, ← h1], h2, h3, ?_⟩
      intro d' x hd
      cases d with
      | nil =>
        have hd' : d' = [] ∧ x = (k, v, n) := by
          cases d' with
          | nil => simp at hd; exact ⟨rfl, hd.symm⟩
          | cons a d' => simp at hd
        obtain ⟨rfl, rfl⟩ := hd'
        simp only [List.nil_append] at h1
        simp only
        rw [h2, ← h1]
        omega
      | cons y d =>
        cases d' with
        | nil => simp at hd
        | cons a d' =>
          simp at hd
          exact h4 d' x hd.2
    · rename_i hle
      exact ⟨[], rfl, by simp; omega, by simp only; omega, by simp⟩

/-- What holds after every history. -/
structure CInv (M : Nat) (ops : List (Op K V)) (c : Cache K V) : Prop where
  max : c.maxsize = M
  curr : c.curr = bytesHeld c
  fits : bytesHeld c ≤ M
  nodup : (keysHeld c).Nodup
  used : ∀ k ∈ keysHeld c, 0 < lastUse M k ops
  order : (keysHeld c).Pairwise (fun a b => lastUse M a ops < lastUse M b ops)
  value : ∀ k v n, (k, v, n) ∈ c.items → lastStored M k ops = some v

theorem lastStored_append (M : Nat) (k : K) (ops : List (Op K V)) (o : Op K V) :
    lastStored M k (ops ++ [o]) =
      match o with
      | .set k' v => if k' = k ∧ Fits M v then some v.val else lastStored M k ops
      | .del k' => if k' = k then none else lastStored M k ops
      | .get _ => lastStored M k ops := by
  unfold lastStored
  rw [List.foldl_append]
  rfl

/-- Some items go and key `k`, used now, becomes the last. -/
theorem CInv.touch {M : Nat} {ops : List (Op K V)} {c : Cache K V} (h : CInv M ops c) (o : Op K V) (k : K)
    (hu : ∀ k', Uses M k' o ↔ k' = k) (l : List (K × V × Nat)) (hl : l.Sublist c.items)
    (hk : k ∉ l.map (·.1)) (v : V) (n curr : Nat)
    (hcurr : curr = (l.map (·.2.2)).sum + n) (hfits : curr ≤ M)
    (hst : ∀ k', k' ≠ k → lastStored M k' (ops ++ [o]) = lastStored M k' ops)
    (hsv : lastStored M k (ops ++ [o]) = some v) :
    CInv M (ops ++ [o]) ⟨M, curr, l ++ [(k, v, n)]⟩ := by
  have hne : ∀ k' ∈ l.map (·.1), k' ≠ k := by rintro k' hk' rfl; exact hk hk'
  have hsub := hl.map (fun p : K × V × Nat => p.1)
  have hlu : ∀ k' ∈ l.map (·.1), lastUse M k' (ops ++ [o]) = lastUse M k' ops := by
    intro k' hk'
    rw [lastUse_append, if_neg (fun h => hne k' hk' ((hu k').1 h))]
  have hluk : lastUse M k (ops ++ [o]) = ops.length + 1 := by
    rw [lastUse_append, if_pos ((hu k).2 rfl)]
  refine ⟨rfl, by simp [bytesHeld, hcurr], by simp only [bytesHeld, List.map_append, List.sum_append,
    List.map_cons, List.map_nil, List.sum_cons, List.sum_nil]; omega, ?_, ?_, ?_, ?_⟩
  · simp only [keysHeld, List.map_append, List.map_cons, List.map_nil]
    rw [List.nodup_append]
    refine ⟨h.nodup.sublist hsub, by simp, ?_⟩
    intro a ha b hb
    simp at hb
    subst hb
    exact hne a ha
  · intro k' hk'
    simp only [keysHeld, List.map_append, List.map_cons, List.map_nil, List.mem_append,
      List.mem_singleton] at hk'
    rcases hk' with hk' | rfl
    · rw [hlu k' hk']
      exact h.used k' (hsub.subset hk')
    · rw [hluk]; omega
  · simp only [keysHeld, List.map_append, List.map_cons, List.map_nil]
    rw [List.pairwise_append]
    refine ⟨?_, by simp, ?_⟩
    · apply List.Pairwise.imp_of_mem _ (h.order.sublist hsub)
      intro a b ha hb hab
      rw [hlu a ha, hlu b hb]
      exact hab
    · intro a ha b hb
      simp at hb
      subst hb
      rw [hlu a ha, hluk]
      have := lastUse_le M a ops
      omega
  · intro k' v' n' hm
    simp only [List.mem_append, List.mem_singleton] at hm
    rcases hm with hm | hm
    · rw [hst k' (hne k' (List.mem_map_of_mem (f := (·.1)) hm))]
      exact h.value k' v' n' (hl.subset hm)
    · cases hm
      exact hsv

/-- Nothing is used. -/
theorem CInv.same {M : Nat} {ops : List (Op K V)} {c : Cache K V} (h : CInv M ops c) (o : Op K V)
    (hu : ∀ k ∈ keysHeld c, ¬ Uses M k o)
    (hst : ∀ k ∈ keysHeld c, lastStored M k (ops ++ [o]) = lastStored M k ops) : CInv M (ops ++ [o]) c := by
  have hlu : ∀ k ∈ keysHeld c, lastUse M k (ops ++ [o]) = lastUse M k ops := by
    intro k hk
    rw [lastUse_append, if_neg (hu k hk)]
  refine ⟨h.max, h.curr, h.fits, h.nodup, ?_, ?_, ?_⟩
  · intro k hk; rw [hlu k hk]; exact h.used k hk
  · apply List.Pairwise.imp_of_mem _ h.order
    intro a b ha hb hab
    rw [hlu a ha, hlu b hb]; exact hab
  · intro k v n hm
    rw [hst k (List.mem_map_of_mem (f := (·.1)) hm)]
    exact h.value k v n hm

theorem makeRoom_suffix (c : Cache K V) (k : K) (size : Nat) :
    ∃ dropped, c.items = dropped ++ (makeRoom c k size).2 := by
  have hev : ∀ curr (l : List (K × V × Nat)), ∃ d, l = d ++ (evict c.maxsize size curr l).2 := by
    intro curr l
    induction l generalizing curr with
    | nil => exact ⟨[], rfl⟩
    | cons p l ih =>
      obtain ⟨k', v, n⟩ := p
      unfold evict
      split
      · obtain ⟨d, hd⟩ := ih (curr - n)
        exact ⟨(k', v, n) :: d, by rw [List.cons_append, ← hd]⟩
      · exact ⟨[], rfl⟩
  unfold makeRoom
  split
  · exact hev _ _
  · split
    · exact hev _ _
    · exact ⟨[], rfl⟩

theorem makeRoom_curr {M : Nat} {ops : List (Op K V)} {c : Cache K V} (h : CInv M ops c) (k : K)
    (size : Nat) (hsize : size ≤ M) :
    (makeRoom c k size).1 = ((makeRoom c k size).2.map (·.2.2)).sum ∧
    ∀ old v, findItem (makeRoom c k size).2 k = some (v, old) →
      (makeRoom c k size).1 + size ≤ M + old := by
  have hcurr : c.curr = (c.items.map (·.2.2)).sum := h.curr
  have hM := h.max
  have hfit : c.curr ≤ M := h.curr ▸ h.fits
  unfold makeRoom
  split
  · obtain ⟨d, h1, h2, h3, _⟩ := evict_spec c.maxsize size c.curr c.items hcurr (by omega)
    exact ⟨h2, fun old v _ => by omega⟩
  · rename_i v0 old0 hf
    split
    · obtain ⟨d, h1, h2, h3, _⟩ := evict_spec c.maxsize size c.curr c.items hcurr (by omega)
      exact ⟨h2, fun old v _ => by omega⟩
    · refine ⟨hcurr, ?_⟩
      intro old v hv
      simp only at hv
      rw [hf] at hv
      cases hv
      simp only
      omega

theorem makeRoom_new {M : Nat} {ops : List (Op K V)} {c : Cache K V} (h : CInv M ops c) (k : K)
    (size : Nat) (hsize : size ≤ M) (hk : findItem (makeRoom c k size).2 k = none) :
    (makeRoom c k size).1 + size ≤ M := by
  have hcurr : c.curr = (c.items.map (·.2.2)).sum := h.curr
  have hM := h.max
  unfold makeRoom at hk ⊢
  split
  · obtain ⟨d, h1, h2, h3, _⟩ := evict_spec c.maxsize size c.curr c.items hcurr (by omega)
    omega
  · rename_i v0 old0 hf
    rw [hf] at hk
    simp only at hk
    split
    · obtain ⟨d, h1, h2, h3, _⟩ := evict_spec c.maxsize size c.curr c.items hcurr (by omega)
      omega
    · rename_i hlt
      rw [if_neg hlt] at hk
      simp only at hk
      rw [hf] at hk
      cases hk

theorem CInv.step {M : Nat} {ops : List (Op K V)} {c : Cache K V} (h : CInv M ops c) (o : Op K V) :
    CInv M (ops ++ [o]) (c.step o) := by
  have hM := h.max
  cases o with
  | get k =>
    simp only [Cache.step, Cache.getItem]
    split
    · rename_i hf
      apply h.same
      · intro k' hk' hu
        simp only [Uses] at hu
        subst hu
        exact findItem_none hf hk'
      · intro k' _
        rw [lastStored_append]
    · rename_i v n hf
      have hm := findItem_mem hf
      simp only
      rw [hM]
      have hs := sizes_without h.nodup hm
      apply h.touch (.get k) k (by intro k'; simp [Uses, eq_comm]) _ (without_sublist _ _)
        (without_not_mem _ _)
      · rw [h.curr]; unfold bytesHeld; omega
      · rw [h.curr]; exact h.fits
      · intro k' _; rw [lastStored_append]
      · rw [lastStored_append]; exact h.value k v n hm
  | del k =>
    simp only [Cache.step, Cache.delItem]
    split
    · rename_i hf
      apply h.same
      · intro k' _ hu; exact hu
      · intro k' hk'
        rw [lastStored_append]
        simp only
        rw [if_neg (by rintro rfl; exact findItem_none hf hk')]
    · rename_i v n hf
      have hm := findItem_mem hf
      have hs := sizes_without h.nodup hm
      have hsub := (without_sublist c.items k).map (fun p : K × V × Nat => p.1)
      have hc := h.curr
      have hfits := h.fits
      unfold bytesHeld at hc hfits
      simp only
      have hlu : ∀ k', lastUse M k' (ops ++ [.del k]) = lastUse M k' ops := by
        intro k'; rw [lastUse_append, if_neg (by simp [Uses])]
      refine ⟨hM, by unfold bytesHeld; simp only; omega, by unfold bytesHeld; simp only; omega,
        h.nodup.sublist hsub, ?_, ?_, ?_⟩
      · intro k' hk'; rw [hlu]; exact h.used k' (hsub.subset hk')
      · simp only [hlu]; exact h.order.sublist hsub
      · intro k' v' n' hm'
        simp only at hm'
        rw [lastStored_append]
        simp only
        have : k ≠ k' := by
          rintro rfl
          exact without_not_mem c.items k (List.mem_map_of_mem (f := (·.1)) hm')
        rw [if_neg this]
        exact h.value k' v' n' ((without_sublist _ _).subset hm')
  | set k v =>
    simp only [Cache.step, Cache.setItem]
    split
    · rename_i hv
      have hnf : ¬ Fits M v := by rintro ⟨n, hn, _⟩; rw [hv] at hn; cases hn
      apply h.same
      · rintro k' _ ⟨_, hf⟩; exact hnf hf
      · intro k' _; rw [lastStored_append]; simp only; rw [if_neg (fun hh => hnf hh.2)]
    · rename_i size hv
      split
      · rename_i hgt
        have hnf : ¬ Fits M v := by
          rintro ⟨n, hn, hle⟩; rw [hv] at hn; cases hn; omega
        apply h.same
        · rintro k' _ ⟨_, hf⟩; exact hnf hf
        · intro k' _; rw [lastStored_append]; simp only; rw [if_neg (fun hh => hnf hh.2)]
      · rename_i hle
        have hf : Fits M v := ⟨size, hv, by omega⟩
        simp only
        obtain ⟨d, hd⟩ := makeRoom_suffix c k size
        have hsub : (makeRoom c k size).2.Sublist c.items := by
          conv => rhs; rw [hd]
          exact List.sublist_append_right ..
        obtain ⟨hr1, hr2⟩ := makeRoom_curr h k size (by omega)
        have hnd : ((makeRoom c k size).2.map (·.1)).Nodup := h.nodup.sublist (hsub.map _)
        have hu : ∀ k', Uses M k' (.set k v) ↔ k' = k := by
          intro k'; simp only [Uses]; constructor
          · rintro ⟨rfl, _⟩; rfl
          · rintro rfl; exact ⟨rfl, hf⟩
        have hst : ∀ k', k' ≠ k → lastStored M k' (ops ++ [.set k v]) = lastStored M k' ops := by
          intro k' hk'
          rw [lastStored_append]
          simp only
          rw [if_neg (fun hh => hk' hh.1.symm)]
        have hsv : lastStored M k (ops ++ [.set k v]) = some v.val := by
          rw [lastStored_append]
          simp only
          rw [if_pos ⟨trivial, hf⟩]
        unfold store
        split
        · rename_i hn
          rw [hM]
          have := makeRoom_new h k size (by omega) hn
          exact h.touch _ k hu _ hsub (findItem_none hn) v.val size _ (by omega) this hst hsv
        · rename_i v0 old hn
          rw [hM]
          have hm := findItem_mem hn
          have hs := sizes_without hnd hm
          have := hr2 old v0 hn
          exact h.touch _ k hu _ ((without_sublist _ _).trans hsub) (without_not_mem _ _) v.val size _
            (by omega) (by omega) hst hsv

theorem CInv.run (M : Nat) (ops : List (Op K V)) : CInv M ops ((Cache.empty M).run ops) := by
  suffices ∀ later done (c : Cache K V), CInv M done c → CInv M (done ++ later) (c.run later) by
    have h0 : CInv M [] (Cache.empty M : Cache K V) :=
      ⟨rfl, rfl, Nat.zero_le _, by simp [keysHeld, Cache.empty], by simp [keysHeld, Cache.empty],
        by simp [keysHeld, Cache.empty], by simp [Cache.empty]⟩
    exact this ops [] _ h0
  intro later
  induction later with
  | nil => intro done c h; rw [List.append_nil]; exact h
  | cons o later ih =>
    intro done c h
    have := ih (done ++ [o]) (c.step o) (h.step o)
    rw [List.append_assoc] at this
    exact this

/-! ## `unique_ordered` -/

variable {α : Type} [DecidableEq α]

theorem uniqueFrom_spec (hashable : α → Bool) (seen xs : List α) (hx : ∀ x ∈ xs, hashable x = true) :
    ∃ r, uniqueFrom hashable seen xs = some r ∧ r.Nodup ∧ (∀ x, x ∈ r ↔ x ∈ xs ∧ x ∉ seen) ∧
      r.Pairwise (fun a b => xs.idxOf a < xs.idxOf b) := by
  induction xs generalizing seen with
  | nil => exact ⟨[], rfl, by simp, by simp, by simp⟩
  | cons x xs ih =>
    unfold uniqueFrom
    rw [if_pos (hx x (by simp))]
    by_cases hs : x ∈ seen
    · rw [if_pos hs]
      obtain ⟨r, h1, h2, h3, h4⟩ := ih seen (fun y hy => hx y (by simp [hy]))
      refine ⟨r, h1, h2, ?_, ?_⟩
      · intro y
        rw [h3 y, List.mem_cons]
        constructor
        · rintro ⟨a, b⟩; exact ⟨.inr a, b⟩
        · rintro ⟨rfl | a, b⟩
          · contradiction
          · exact ⟨a, b⟩
      · apply List.Pairwise.imp_of_mem _ h4
        intro a b ha hb hab
        have hax : x ≠ a := by rintro rfl; exact ((h3 x).1 ha).2 hs
        have hbx : x ≠ b := by rintro rfl; exact ((h3 x).1 hb).2 hs
        rw [List.idxOf_cons_ne _ hax, List.idxOf_cons_ne _ hbx]
        omega
    · rw [if_neg hs]
      obtain ⟨r, h1, h2, h3, h4⟩ := ih (x :: seen) (fun y hy => hx y (by simp [hy]))
      rw [h1]
      refine ⟨x :: r, rfl, ?_, ?_, ?_⟩
      · rw [List.nodup_cons]
        exact ⟨fun h => ((h3 x).1 h).2 (by simp), h2⟩
      · intro y
        rw [List.mem_cons, h3 y, List.mem_cons, List.mem_cons]
        constructor
        · rintro (rfl | ⟨a, b⟩)
          · exact ⟨.inl rfl, hs⟩
          · exact ⟨.inr a, fun h => b (.inr h)⟩
        · rintro ⟨rfl | a, b⟩
          · exact .inl rfl
          · by_cases hy : y = x
            · exact .inl hy
            · exact .inr ⟨a, fun h => h.elim hy b⟩
      · rw [List.pairwise_cons]
        have hne : ∀ a ∈ r, x ≠ a := by rintro a ha rfl; exact ((h3 x).1 ha).2 (by simp)
        constructor
        · intro a ha
          rw [List.idxOf_cons_self, List.idxOf_cons_ne _ (hne a ha)]
          omega
        · apply List.Pairwise.imp_of_mem _ h4
          intro a b ha hb hab
          rw [List.idxOf_cons_ne _ (hne a ha), List.idxOf_cons_ne _ (hne b hb)]
          omega

theorem uniqueFrom_nodup (hashable : α → Bool) (seen xs : List α) (hx : ∀ x ∈ xs, hashable x = true)
    (hn : xs.Nodup) (hd : ∀ x ∈ xs, x ∉ seen) : uniqueFrom hashable seen xs = some xs := by
  induction xs generalizing seen with
  | nil => rfl
  | cons x xs ih =>
    rw [List.nodup_cons] at hn
    unfold uniqueFrom
    rw [if_pos (hx x (by simp)), if_neg (hd x (by simp)), ih (x :: seen) (fun y hy => hx y (by simp [hy])) hn.2
      (by
        intro y hy hm
        rcases List.mem_cons.1 hm with rfl | hm
        · exact hn.1 hy
        · exact hd y (by simp [hy]) hm)]
    rfl

theorem uniqueFrom_none (hashable : α → Bool) (seen xs : List α) (x : α) (hx : x ∈ xs)
    (hh : hashable x = false) : uniqueFrom hashable seen xs = none := by
  induction xs generalizing seen with
  | nil => simp at hx
  | cons y xs ih =>
    unfold uniqueFrom
    by_cases hy : hashable y = true
    · rw [if_pos hy]
      rcases List.mem_cons.1 hx with rfl | hx
      · rw [hh] at hy; cases hy
      · split
        · exact ih seen hx
        · rw [ih _ hx]; rfl
    · rw [if_neg hy]

end Verif.Util
