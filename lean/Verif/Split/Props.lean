import Verif.Split.Lemmas

/-!
# Property theorems C01, C02, C03
-/
namespace Verif.Split

/-- **C01** Splitting `n` items over `m ≥ 1` processes succeeds, and the returned rows describe
ranges that tile `[0, n)` in rank order, own each index exactly once, have the stated lengths and
are balanced with the longer ones first. What one process computes for itself (`split_local`) is its
column of the table. -/
theorem C01_split_tiles (n m : Nat) (hm : 1 ≤ m) :
    ∃ num start stop : Nat → Nat,
      splitM n m = .ok ⟨(List.range m).map num, (List.range m).map start, (List.range m).map stop⟩ ∧
      Tiles n m start stop ∧ OwnedOnce n m start stop ∧ Balanced m num ∧
      (∀ r, r < m → stop r = start r + num r) ∧
      (∀ r, r < m → splitLocal n m r = .ok (num r, start r, stop r)) := by
  refine ⟨fun r => n / m + if r < n % m then 1 else 0, blk n m, fun r => blk n m (r + 1),
    ?_, ?_, ?_, ?_, ?_, ?_⟩
  · obtain ⟨s, hs, h1, h2, h3, hr⟩ := splitM_ok n m hm
    rw [hs]
    congr 1
    have aux : ∀ (l : List Nat) (g : Nat → Nat), l.length = m → (∀ r, r < m → l[r]? = some (g r)) →
        l = (List.range m).map g := by
      intro l g hl hg
      apply List.ext_getElem?
      intro r
      by_cases hrm : r < m
      · rw [hg r hrm]; simp [hrm]
      · rw [List.getElem?_eq_none (by omega), List.getElem?_eq_none (by simp; omega)]
    cases s
    simp only [Split.mk.injEq]
    exact ⟨aux _ _ h1 fun r h => (hr r h).1, aux _ _ h2 fun r h => (hr r h).2.1,
      aux _ _ h3 fun r h => (hr r h).2.2⟩
  · exact ⟨blk_zero n m, fun _ _ => rfl, fun r _ => blk_mono n m (by omega),
      fun r h => by rw [h]; exact blk_last n m hm⟩
  · intro g hg
    obtain ⟨r, h1, h2, h3⟩ := blk_owner n m hm g hg
    exact ⟨r, ⟨h1, h2, h3⟩, fun r' _ ha hb => blk_owner_unique n m g r r' h2 h3 ha hb⟩
  · intro i j hij hj
    constructor <;> (dsimp only; split <;> split <;> omega)
  · intro r _
    exact blk_succ n m r
  · intro r hr
    exact splitLocal_ok n m r hr

/-- Seven items over three processes. -/
example : splitM 7 3 = .ok ⟨[3, 2, 2], [0, 3, 5], [3, 5, 7]⟩ := by decide

/-- **C01**, the rejected input: no processes is a division by zero. -/
theorem C01_no_process_is_error (n : Nat) : splitM n 0 = .error .zeroDivision := rfl

/-- **C02** method `con`: all parts exist and their concatenation in part order is the list. -/
theorem C02_con_concat {α : Type} (xs : List α) (n : Nat) (hn : 1 ≤ n) (perm : List Nat) :
    ∃ piece : Nat → List α,
      (∀ i, i < n → partitionList xs i n .con perm = .ok (piece i)) ∧
      ((List.range n).map piece).flatten = xs ∧
      Balanced n (fun i => (piece i).length) := by
  refine ⟨fun i => (xs.drop (blk xs.length n i)).take (blk xs.length n (i + 1) - blk xs.length n i),
    ?_, ?_, ?_⟩
  · intro i hi
    simp only [partitionList, partitionBounds_ok _ _ _ hi]
  · rw [take_drop_flatten xs (blk xs.length n) n (blk_zero _ _) (fun i => blk_mono _ _ (by omega)),
      blk_last _ _ hn, List.take_length]
  · intro i j hij hj
    simp only [List.length_take, List.length_drop]
    have h1 := blk_le xs.length n (show i + 1 ≤ n by omega) hn
    have h2 := blk_le xs.length n (show j + 1 ≤ n by omega) hn
    have h3 := blk_succ xs.length n i
    have h4 := blk_succ xs.length n j
    constructor <;> (split at h3 <;> split at h4 <;> omega)

example : partitionList ['a', 'b', 'c', 'd', 'e'] 0 2 .con [] = .ok ['a', 'b', 'c'] := by rfl

/-- **C02** method `alt`: part `i` has at position `k` exactly the element at index `i + k*n`, so the
element at index `g` is found in part `g % n` at position `g / n` and in no other place. -/
theorem C02_alt_indices {α : Type} (xs : List α) (n : Nat) (hn : 1 ≤ n) (perm : List Nat) :
    ∃ piece : Nat → List α,
      (∀ i, i < n → partitionList xs i n .alt perm = .ok (piece i)) ∧
      (∀ i k, (piece i)[k]? = xs[i + k * n]?) ∧
      (∀ g, g < xs.length → ∃ i k, (i < n ∧ i + k * n = g) ∧
        ∀ i' k', i' < n → i' + k' * n = g → i' = i ∧ k' = k) := by
  refine ⟨fun i => strided xs i n, ?_, ?_, ?_⟩
  · intro i hi
    simp only [partitionList, partitionBounds_ok _ _ _ hi]
  · intro i k
    exact strided_getElem? xs i n hn k
  · intro g _
    refine ⟨g % n, g / n, ⟨Nat.mod_lt _ hn, by rw [Nat.mul_comm]; exact Nat.mod_add_div g n⟩, ?_⟩
    rintro i' k' hi' rfl
    constructor
    · rw [Nat.add_mul_mod_self_right, Nat.mod_eq_of_lt hi']
    · rw [Nat.add_mul_div_right _ _ hn, Nat.div_eq_of_lt hi', Nat.zero_add]

example : partitionList [10, 11, 12, 13, 14] 1 2 .alt [] = .ok [11, 13] := by
  simp [partitionList, partitionBounds_ok, strided, everyNth]

/-- **C02** method `rand` with the same permutation on every caller: the parts together are a
rearrangement of the list. -/
theorem C02_rand_rearrangement {α : Type} (xs : List α) (n : Nat) (hn : 1 ≤ n) (perm : List Nat)
    (hperm : perm.Perm (List.range xs.length)) :
    ∃ piece : Nat → List α,
      (∀ i, i < n → partitionList xs i n .rand perm = .ok (piece i)) ∧
      (((List.range n).map piece).flatten).Perm xs := by
  have hlen : perm.length = xs.length := by simpa using hperm.length_eq
  refine ⟨fun i => ((perm.drop (blk xs.length n i)).take
      (blk xs.length n (i + 1) - blk xs.length n i)).filterMap (xs[·]?), ?_, ?_⟩
  · intro i hi
    simp only [partitionList, partitionBounds_ok _ _ _ hi]
  · have h1 : ((List.range n).map fun i => ((perm.drop (blk xs.length n i)).take
        (blk xs.length n (i + 1) - blk xs.length n i)).filterMap (xs[·]?)).flatten
        = perm.filterMap (xs[·]?) := by
      have := take_drop_flatten perm (blk xs.length n) n (blk_zero _ _)
        (fun i => blk_mono _ _ (by omega))
      rw [blk_last _ _ hn, ← hlen, List.take_length] at this
      conv_rhs => rw [← this]
      rw [List.filterMap_flatten, List.map_map, ← hlen]
      rfl
    rw [h1]
    refine (hperm.filterMap _).trans (List.Perm.of_eq ?_)
    apply List.ext_getElem?
    intro k
    have : (List.range xs.length).filterMap (xs[·]?) = xs := by
      have hz : (List.range xs.length).map (xs[·]?) = xs.map some := by
        apply List.ext_getElem?
        intro k
        simp only [List.getElem?_map]
        by_cases hk : k < xs.length
        · simp [hk]
        · have hk' := Nat.le_of_not_lt hk
          simp [hk']
      have hf : ∀ l : List Nat, l.filterMap (xs[·]?) = (l.map (xs[·]?)).filterMap id := by
        intro l; rw [List.filterMap_map]; rfl
      rw [hf, hz, List.filterMap_map]
      exact List.filterMap_some
    rw [this]

example : partitionList ['a', 'b', 'c'] 0 2 .rand [2, 0, 1] = .ok ['c', 'a'] := by rfl

/-- **C02**: why the proviso on `rand` is needed. When two processes draw different permutations
(which is what `partition_list_mpi` with unseeded processes does), an element can be lost and
another one handed out twice. -/
theorem C02_rand_independent_draws_lose :
    ∃ p q : List Nat, p.Perm (List.range 2) ∧ q.Perm (List.range 2) ∧
      partitionList ['a', 'b'] 0 2 .rand p = .ok ['a'] ∧
      partitionList ['a', 'b'] 1 2 .rand q = .ok ['a'] :=
  ⟨[0, 1], [1, 0], List.Perm.refl _, List.Perm.swap _ _ _, rfl, rfl⟩

/-- **C02** any other method is an error. -/
theorem C02_unknown_method {α : Type} (xs : List α) (i n : Nat) (hi : i < n) (perm : List Nat) :
    partitionList xs i n .other perm = .error .valueError := by
  simp only [partitionList, partitionBounds_ok _ _ _ hi]

example : partitionList [1, 2, 3] 1 2 .other [] = .error .valueError := by rfl

/-- **C03** `parallel_map` on any number of processes is `map`, in the original order, on every
process that gets a result: all of them without a root, only the root otherwise. The root is one of the processes (`hroot`; another
one is refused, `C03_bad_root`). -/
theorem C03_parallel_map_is_map {α β : Type} (f : α → β) (xs : List α) (root : Option Nat)
    (m : Method) (hm : m = .con ∨ m = .alt) (size rank : Nat) (hr : rank < size)
    (hroot : ∀ k, root = some k → k < size) :
    parallelMap f xs root m size rank =
      if size = 1 ∨ root = none ∨ root = some rank then .ok (some (xs.map f)) else .ok none := by
  have hs : 0 < size := by omega
  unfold parallelMap
  by_cases h1 : size = 1
  · simp [h1]
  · rw [if_neg h1]
    -- the enumerated list and one result list per rank
    let zs := (List.range xs.length).zip xs
    have hsorted : zs.Pairwise fun a b => a.1 < b.1 := by
      have := range_zip_pairwise xs 0
      rwa [← List.range_eq_range'] at this
    have hpiece : ∃ piece : Nat → List (Nat × α),
        (∀ r, r < size → partitionList zs r size m [] = .ok (piece r)) ∧
        (((List.range size).map piece).flatten).Perm zs := by
      rcases hm with rfl | rfl
      · obtain ⟨p, h, hf, -⟩ := C02_con_concat zs size hs []
        exact ⟨p, h, List.Perm.of_eq hf⟩
      · refine ⟨fun i => strided zs i size, ?_, ?_⟩
        · intro i hi
          simp only [partitionList, partitionBounds_ok _ _ _ hi]
        · exact strided_flatten_perm zs size hs (hsorted.imp (fun h e => by rw [e] at h; omega))
    obtain ⟨piece, hp, hperm⟩ := hpiece
    have hg : gatherAll size (localResults f xs m size)
        = .ok ((List.range size).map fun r => (piece r).map fun p => (p.1, f p.2)) := by
      apply mapM_ok
      intro r hr'
      rw [List.mem_range] at hr'
      have := hp r hr'
      simp only [zs] at this
      simp only [localResults, this]
    rw [hg]
    have hres : (sortByKey ((List.range size).map
        fun r => (piece r).map fun p => (p.1, f p.2)).flatten).map Prod.snd = xs.map f := by
      have hperm' : (((List.range size).map
          fun r => (piece r).map fun p => (p.1, f p.2)).flatten).Perm
          (zs.map fun p => (p.1, f p.2)) := by
        have := hperm.map fun p => (p.1, f p.2)
        rw [List.map_flatten, List.map_map] at this
        exact this
      rw [sorted_perm_eq ((sortByKey_perm _).trans hperm') (sortByKey_sorted _)
        (by rw [List.pairwise_map]; exact hsorted)]
      rw [List.map_map]
      have : (Prod.snd ∘ fun p : Nat × α => (p.1, f p.2)) = f ∘ Prod.snd := rfl
      rw [this, ← List.map_map, List.map_snd_zip (by simp)]
    have hno : root.any (fun k => decide (size ≤ k)) = false := by
      cases root with
      | none => rfl
      | some k => simpa using hroot k rfl
    simp only [hres, h1, false_or, hno, Bool.false_eq_true, if_false]

example : parallelMap (· * 2) [1, 2, 3] none .con 2 0 = .ok (some [2, 4, 6]) := by rfl

/-- **C03** a root that is not one of several processes is refused. -/
theorem C03_bad_root {α β : Type} (f : α → β) (xs : List α) (root : Nat) (m : Method) (hm : m = .con ∨ m = .alt) (size rank : Nat)
    (hs : 1 < size) (hr : rank < size) (hroot : size ≤ root) :
    parallelMap f xs (some root) m size rank = .error .mpiError := by
  have h := C03_parallel_map_is_map f xs none m hm size rank hr (by simp)
  have h1 : size ≠ 1 := by omega
  unfold parallelMap at h ⊢
  simp only [h1, if_false, false_or, Option.any_none, Bool.false_eq_true] at h ⊢
  cases hg : gatherAll size (localResults f xs m size) with
  | error e => rw [hg] at h; simp at h
  | ok l => simp [hroot]

example : parallelMap (· * 2) [1, 2, 3] (some 2) .con 2 0 = .error .mpiError := by rfl

/-- **C03** with an unknown method every call on more than one process fails. -/
theorem C03_unknown_method {α β : Type} (f : α → β) (xs : List α) (root : Option Nat)
    (size rank : Nat) (hs : 1 < size) :
    parallelMap f xs root .other size rank = .error .valueError := by
  have h1 : size ≠ 1 := by omega
  have h0 : localResults f xs .other size 0 = .error .valueError := by
    simp only [localResults, C02_unknown_method _ 0 size (by omega)]
  obtain ⟨k, rfl⟩ : ∃ k, size = k + 1 := ⟨size - 1, by omega⟩
  have hg : gatherAll (k + 1) (localResults f xs .other (k + 1)) = .error .valueError := by
    unfold gatherAll
    rw [List.range_succ_eq_map, List.mapM_cons, h0]
    rfl
  simp only [parallelMap, h1, if_false, hg]

example : parallelMap (· + 1) [1, 2] none .other 2 0 = .error .valueError := by rfl

end Verif.Split
