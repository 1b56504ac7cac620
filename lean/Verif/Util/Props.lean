import Verif.Util.Lemmas

/-!
# C42: `unique_ordered`; C43: the array cache
-/
namespace Verif.Util

/-- C42. The result has no duplicates, the same elements as the input, and they are ordered by their first
occurrence in the input. -/
theorem C42_unique {α : Type} [DecidableEq α] (hashable : α → Bool) (xs : List α)
    (hx : ∀ x ∈ xs, hashable x = true) :
    ∃ r, uniqueOrdered hashable xs = some r ∧ r.Nodup ∧ (∀ x, x ∈ r ↔ x ∈ xs) ∧
      r.Pairwise (fun a b => xs.idxOf a < xs.idxOf b) := by
  obtain ⟨r, h1, h2, h3, h4⟩ := uniqueFrom_spec hashable [] xs hx
  exact ⟨r, h1, h2, by simpa using h3, h4⟩

/-- C42. Applying it to its own result changes nothing. -/
theorem C42_idempotent {α : Type} [DecidableEq α] (hashable : α → Bool) (xs r : List α)
    (hx : ∀ x ∈ xs, hashable x = true) (h : uniqueOrdered hashable xs = some r) :
    uniqueOrdered hashable r = some r := by
  obtain ⟨r', h1, h2, h3, h4⟩ := C42_unique hashable xs hx
  rw [h] at h1
  cases h1
  exact uniqueFrom_nodup hashable [] r (fun x hr => hx x ((h3 x).1 hr)) h2 (by simp)

/-- C42. A sequence with an element that cannot be hashed is refused (wherever it stands). -/
theorem C42_unhashable {α : Type} [DecidableEq α] (hashable : α → Bool) (xs : List α) (x : α)
    (hx : x ∈ xs) (hh : hashable x = false) : uniqueOrdered hashable xs = none :=
  uniqueFrom_none hashable [] xs x hx hh

example : uniqueOrdered (fun _ => true) [3, 1, 3, 2, 1] = some [3, 1, 2] := by decide

variable {K V : Type} [DecidableEq K]

/-- C43. After every history the bytes held are at most the budget, and no key is held twice. -/
theorem C43_budget (M : Nat) (ops : List (Op K V)) :
    bytesHeld ((Cache.empty M).run ops) ≤ M ∧ (keysHeld ((Cache.empty M).run ops)).Nodup :=
  ⟨(CInv.run M ops).fits, (CInv.run M ops).nodup⟩

/-- C43. A lookup gives the last value stored under the key, or the key is not held (any more). -/
theorem C43_lookup (M : Nat) (ops : List (Op K V)) (k : K) :
    (∃ v, (((Cache.empty M).run ops).getItem k).1 = .ok v ∧ lastStored M k ops = some v) ∨
    ((((Cache.empty M).run ops).getItem k).1 = .error .keyError ∧
      k ∉ keysHeld ((Cache.empty M).run ops)) := by
  have h := CInv.run M ops
  generalize (Cache.empty M).run ops = c at h ⊢
  unfold Cache.getItem
  split
  · rename_i hf
    exact .inr ⟨rfl, findItem_none hf⟩
  · rename_i v n hf
    exact .inl ⟨v, rfl, h.value k v n (findItem_mem hf)⟩

/-- C43. A value that is held is found right after it was stored. -/
theorem C43_stored (M : Nat) (ops : List (Op K V)) (k : K) (v : Value V) (hv : Fits M v) :
    (((Cache.empty M).run ops).setItem k v).1 = .ok () ∧
    ((((Cache.empty M).run ops).setItem k v).2.getItem k).1 = .ok v.val := by
  have h := CInv.run M ops
  have h' := h.step (.set k v)
  simp only [Cache.step] at h'
  have hmax := h.max
  generalize (Cache.empty M).run ops = c at h h' hmax ⊢
  obtain ⟨n, hn, hle⟩ := hv
  have hgt : ¬ n > c.maxsize := by omega
  have hset : c.setItem k v = (.ok (), store c.maxsize k v.val n (makeRoom c k n)) := by
    unfold Cache.setItem
    simp only [hn, if_neg hgt]
  rw [hset] at h' ⊢
  refine ⟨rfl, ?_⟩
  simp only at h' ⊢
  have hm : (k, v.val, n) ∈ (store c.maxsize k v.val n (makeRoom c k n)).items := by
    unfold store
    split <;> simp
  unfold Cache.getItem
  rw [findItem_of_mem h'.nodup hm]

/-- C43. Values that are not arrays, or larger than the budget, are refused and nothing changes. -/
theorem C43_refused (c : Cache K V) (k : K) (v : Value V) (hv : ¬ Fits c.maxsize v) :
    c.setItem k v = (.error .valueError, c) := by
  unfold Cache.setItem
  split
  · rfl
  · rename_i size hs
    rw [if_pos]
    apply Nat.lt_of_not_le
    intro hle
    exact hv ⟨size, hs, hle⟩

/-- C43. Storing under a key that is not held drops the least recently used items: the items are in the
order of their last use, the dropped ones come first, and dropping one fewer would exceed the budget. -/
theorem C43_eviction (M : Nat) (ops : List (Op K V)) (k : K) (v : Value V) (n : Nat)
    (hn : v.size = some n) (hle : n ≤ M) (hk : k ∉ keysHeld ((Cache.empty M).run ops)) :
    (keysHeld ((Cache.empty M).run ops)).Pairwise (fun a b => lastUse M a ops < lastUse M b ops) ∧
    ∃ dropped kept, ((Cache.empty M).run ops).items = dropped ++ kept ∧
      (((Cache.empty M).run ops).setItem k v).2.items = kept ++ [(k, v.val, n)] ∧
      ∀ d x, dropped = d ++ [x] → ((x :: kept).map (·.2.2)).sum + n > M := by
  have h := CInv.run M ops
  have hmax := h.max
  generalize (Cache.empty M).run ops = c at h hmax hk ⊢
  refine ⟨h.order, ?_⟩
  have hgt : ¬ n > c.maxsize := by omega
  have hset : c.setItem k v = (.ok (), store c.maxsize k v.val n (makeRoom c k n)) := by
    unfold Cache.setItem
    simp only [hn, if_neg hgt]
  have hf : findItem c.items k = none := by
    cases hf : findItem c.items k with
    | none => rfl
    | some x => exact absurd (List.mem_map_of_mem (f := (·.1)) (findItem_mem hf)) hk
  have hmr : makeRoom c k n = evict c.maxsize n c.curr c.items := by unfold makeRoom; rw [hf]
  obtain ⟨d, h1, h2, h3, h4⟩ := evict_spec c.maxsize n c.curr c.items h.curr (by omega)
  rw [hset, hmr]
  refine ⟨d, (evict c.maxsize n c.curr c.items).2, h1, ?_, ?_⟩
  · have hf' : findItem (evict c.maxsize n c.curr c.items).2 k = none := by
      cases hf' : findItem (evict c.maxsize n c.curr c.items).2 k with
      | none => rfl
      | some x =>
        have hm : (k, x) ∈ c.items := by
          rw [h1]
          exact List.mem_append_right _ (findItem_mem hf')
        exact absurd (List.mem_map_of_mem (f := (·.1)) hm) hk
    unfold store
    rw [hf']
  · intro d' x hd
    have := h4 d' x hd
    rw [List.map_cons, List.sum_cons]
    omega

/-- C43. Replacing a value by one that is not larger drops nothing. -/
theorem C43_replace (M : Nat) (ops : List (Op K V)) (k : K) (v : Value V) (n old : Nat) (v0 : V)
    (hn : v.size = some n) (hle : n ≤ old) (hk : (k, v0, old) ∈ ((Cache.empty M).run ops).items) :
    (((Cache.empty M).run ops).setItem k v).2.items
      = without ((Cache.empty M).run ops).items k ++ [(k, v.val, n)] := by
  have h := CInv.run M ops
  have hmax := h.max
  have hfits := h.fits
  generalize (Cache.empty M).run ops = c at h hmax hfits hk ⊢
  have hs := sizes_without h.nodup hk
  unfold bytesHeld at hfits
  have hgt : ¬ n > c.maxsize := by omega
  have hf := findItem_of_mem h.nodup hk
  unfold Cache.setItem
  simp only [hn, if_neg hgt]
  have hmr : makeRoom c k n = (c.curr, c.items) := by
    unfold makeRoom
    rw [hf]
    simp only
    rw [if_neg (by omega)]
  unfold store
  rw [hmr]
  simp only
  rw [hf]

/-- C43. Replacing a value by a larger one drops items from the front of the order of use only. -/
theorem C43_replace_larger_partial (M : Nat) (ops : List (Op K V)) (k : K) (v : Value V) (n : Nat)
    (hn : v.size = some n) (hle : n ≤ M) :
    ∃ dropped kept, ((Cache.empty M).run ops).items = dropped ++ kept ∧
      (((Cache.empty M).run ops).setItem k v).2.items = without kept k ++ [(k, v.val, n)] := by
  have h := CInv.run M ops
  have hmax := h.max
  generalize (Cache.empty M).run ops = c at h hmax ⊢
  have hgt : ¬ n > c.maxsize := by omega
  unfold Cache.setItem
  simp only [hn, if_neg hgt]
  obtain ⟨d, hd⟩ := makeRoom_suffix c k n
  refine ⟨d, _, hd, ?_⟩
  unfold store
  split
  · rename_i hf
    simp only
    congr 1
    unfold without
    rw [eq_comm, List.filter_eq_self]
    intro p hp
    have : p.1 ≠ k := by
      rintro rfl
      exact findItem_none hf (List.mem_map_of_mem hp)
    simpa using this
  · rfl

/-- C43 fails when the value of a held key is replaced by a larger one: the old value, which is going to be
replaced, is still counted, so that an item is dropped although everything fits. Budget 10; items 1 (4
bytes) and 2 (4 bytes); replacing item 2 by 6 bytes drops item 1, although 4 + 6 = 10. -/
theorem C43_replace_larger_violated :
    let c := (Cache.empty 10 : Cache Nat Nat).run [.set 1 ⟨0, some 4⟩, .set 2 ⟨0, some 4⟩]
    keysHeld c = [1, 2] ∧ bytesHeld c = 8 ∧ keysHeld (c.setItem 2 ⟨0, some 6⟩).2 = [2] := by
  decide

example : keysHeld ((Cache.empty 10 : Cache Nat Nat).run
    [.set 1 ⟨0, some 4⟩, .set 2 ⟨0, some 4⟩, .get 1, .set 3 ⟨0, some 5⟩, .set 4 ⟨0, some 11⟩, .set 5 ⟨0, none⟩])
      = [1, 3] := by decide

end Verif.Util
