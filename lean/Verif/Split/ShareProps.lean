import Verif.Split.Share
import Verif.Split.Props
import Verif.Slice.Lemmas

/-!
# C101: work that is shared out over processes is done once, and the results are the same everywhere
-/
namespace Verif.Split

/-! ### Helpers -/

theorem strided_map {α β : Type} (g : α → β) (xs : List α) (i n : Nat) (hn : 0 < n) : strided (xs.map g) i n = (strided xs i n).map g := by
  apply List.ext_getElem?
  intro k
  rw [strided_getElem? _ _ _ hn, List.getElem?_map, List.getElem?_map, strided_getElem? _ _ _ hn]

theorem strided_flatten_perm' {α : Type} (xs : List α) (n : Nat) (hn : 0 < n) :
    (((List.range n).map fun i => strided xs i n).flatten).Perm xs := by
  have hnd : ((List.range xs.length).zip xs).Nodup := by
    have := range_zip_pairwise xs 0
    rw [← List.range_eq_range'] at this
    exact this.imp (fun h e => by rw [e] at h; omega)
  have h := (strided_flatten_perm ((List.range xs.length).zip xs) n hn hnd).map Prod.snd
  rw [List.map_flatten, List.map_map, List.map_snd_zip (by simp)] at h
  have e : (List.map Prod.snd ∘ fun i => strided ((List.range xs.length).zip xs) i n) = fun i => strided xs i n := by
    funext i
    simp only [Function.comp_apply]
    rw [← strided_map _ _ _ _ hn, List.map_snd_zip (by simp)]
  rwa [e] at h

/-- The draws are one and the same rearrangement, or are not used. -/
def Drawn (m : Method) (n size : Nat) (draw : Nat → List Nat) : Prop :=
  m = .rand → ∃ p : List Nat, p.Perm (List.range n) ∧ ∀ r, r < size → draw r = p

theorem pieces (α : Type) (xs : List α) (m : Method) (hm : m ≠ .other) (size : Nat) (hs : 0 < size) (draw : Nat → List Nat)
    (hd : Drawn m xs.length size draw) :
    ∃ piece : Nat → List α, (∀ r, r < size → partitionList xs r size m (draw r) = .ok (piece r)) ∧ (((List.range size).map piece).flatten).Perm xs := by
  cases m with
  | con =>
    refine ⟨fun i => (xs.drop (blk xs.length size i)).take (blk xs.length size (i + 1) - blk xs.length size i), ?_, ?_⟩
    · intro i hi
      simp only [partitionList, partitionBounds_ok _ _ _ hi]
    · rw [take_drop_flatten xs (blk xs.length size) size (blk_zero _ _) (fun i => blk_mono _ _ (by omega)), blk_last _ _ hs, List.take_length]
  | alt =>
    refine ⟨fun i => strided xs i size, ?_, strided_flatten_perm' xs size hs⟩
    intro i hi
    simp only [partitionList, partitionBounds_ok _ _ _ hi]
  | rand =>
    obtain ⟨p, hp, he⟩ := hd rfl
    obtain ⟨piece, h1, h2⟩ := C02_rand_rearrangement xs size hs p hp
    exact ⟨piece, fun r hr => by rw [he r hr]; exact h1 r hr, h2⟩
  | other => exact absurd rfl hm

theorem applyAll_some {α β : Type} (f : α → Option β) (l : List (Nat × α)) (g : α → β) (h : ∀ p ∈ l, f p.2 = some (g p.2)) :
    applyAll f l = some (l.map fun p => (p.1, g p.2)) := by
  induction l with
  | nil => rfl
  | cons p l ih =>
    rw [applyAll, h p List.mem_cons_self]
    simp only [ih fun q hq => h q (List.mem_cons_of_mem _ hq), List.map_cons]

theorem applyAll_isSome {α β : Type} (f : α → Option β) (l : List (Nat × α)) : (applyAll f l).isSome = true ↔ ∀ p ∈ l, (f p.2).isSome = true := by
  induction l with
  | nil => simp [applyAll]
  | cons p l ih =>
    rw [applyAll]
    cases hf : f p.2 with
    | none => simp [hf]
    | some y =>
      cases ha : applyAll f l with
      | none =>
        rw [ha] at ih
        simp only [Option.isSome_none, Bool.false_eq_true, List.mem_cons, forall_eq_or_imp, hf, Option.isSome_some, true_and, false_iff] at ih ⊢
        exact ih
      | some r =>
        rw [ha] at ih
        simp only [Option.isSome_some, List.mem_cons, forall_eq_or_imp, hf, true_and, true_iff] at ih ⊢
        exact ih

theorem mem_zip_range {α : Type} (xs : List α) (x : α) : x ∈ xs ↔ ∃ p ∈ (List.range xs.length).zip xs, p.2 = x := by
  have h : ((List.range xs.length).zip xs).map Prod.snd = xs := List.map_snd_zip (by simp)
  constructor
  · intro hx
    rw [← h] at hx
    obtain ⟨p, hp, e⟩ := List.mem_map.mp hx
    exact ⟨p, hp, e⟩
  · rintro ⟨p, hp, rfl⟩
    have := List.mem_map_of_mem (f := Prod.snd) hp
    rwa [h] at this

theorem share_eq {α β : Type} (f : α → Option β) (xs : List α) (m : Method) (size : Nat) (draw : Nat → List Nat) (piece : Nat → List (Nat × α))
    (hp : ∀ r, r < size → partitionList ((List.range xs.length).zip xs) r size m (draw r) = .ok (piece r)) (r : Nat) (hr : r < size) :
    share f xs m size draw r = applyAll f (piece r) := by
  simp only [share, hp r hr]

theorem all_share {α β : Type} (f : α → Option β) (xs : List α) (m : Method) (size : Nat) (draw : Nat → List Nat) (piece : Nat → List (Nat × α))
    (hp : ∀ r, r < size → partitionList ((List.range xs.length).zip xs) r size m (draw r) = .ok (piece r))
    (hperm : (((List.range size).map piece).flatten).Perm ((List.range xs.length).zip xs)) :
    ((List.range size).all fun r => (share f xs m size draw r).isSome) = true ↔ ∀ x ∈ xs, (f x).isSome = true := by
  rw [List.all_eq_true]
  constructor
  · intro h x hx
    obtain ⟨p, hp', rfl⟩ := (mem_zip_range xs x).mp hx
    obtain ⟨l, hl, hpl⟩ := List.mem_flatten.mp (hperm.mem_iff.mpr hp')
    obtain ⟨r, hr, rfl⟩ := List.mem_map.mp hl
    have := h r hr
    rw [share_eq f xs m size draw piece hp r (List.mem_range.mp hr)] at this
    exact (applyAll_isSome f _).mp this p hpl
  · intro h r hr
    rw [share_eq f xs m size draw piece hp r (List.mem_range.mp hr)]
    refine (applyAll_isSome f _).mpr fun p hpl => h p.2 ?_
    exact (mem_zip_range xs p.2).mpr ⟨p, hperm.mem_iff.mp (List.mem_flatten.mpr ⟨_, List.mem_map.mpr ⟨r, hr, rfl⟩, hpl⟩), rfl⟩

theorem sorted_all {α β : Type} (f : α → Option β) (g : α → β) (xs : List α) (hf : ∀ x ∈ xs, f x = some (g x)) (m : Method) (size : Nat) (draw : Nat → List Nat)
    (piece : Nat → List (Nat × α))
    (hp : ∀ r, r < size → partitionList ((List.range xs.length).zip xs) r size m (draw r) = .ok (piece r))
    (hperm : (((List.range size).map piece).flatten).Perm ((List.range xs.length).zip xs)) :
    (sortByKey ((List.range size).flatMap fun r => (share f xs m size draw r).getD [])).map (·.2) = xs.map g := by
  have hmem : ∀ r, r < size → ∀ p ∈ piece r, f p.2 = some (g p.2) := by
    intro r hr p hpr
    exact hf p.2 ((mem_zip_range xs p.2).mpr ⟨p, hperm.mem_iff.mp (List.mem_flatten.mpr ⟨_, List.mem_map.mpr ⟨r, List.mem_range.mpr hr, rfl⟩, hpr⟩), rfl⟩)
  have e : ((List.range size).flatMap fun r => (share f xs m size draw r).getD []) =
      (((List.range size).map piece).flatten).map fun p => (p.1, g p.2) := by
    rw [List.map_flatten, List.map_map, List.flatMap_def]
    congr 1
    apply List.map_congr_left
    intro r hr
    rw [List.mem_range] at hr
    rw [share_eq f xs m size draw piece hp r hr, applyAll_some f _ g (hmem r hr)]
    rfl
  have hsorted : ((List.range xs.length).zip xs).Pairwise fun a b => a.1 < b.1 := by
    have := range_zip_pairwise xs 0
    rwa [← List.range_eq_range'] at this
  rw [e, sorted_perm_eq ((sortByKey_perm _).trans (hperm.map _)) (sortByKey_sorted _) (by rw [List.pairwise_map]; exact hsorted)]
  rw [List.map_map]
  have : ((fun x : Nat × β => x.2) ∘ fun p : Nat × α => (p.1, g p.2)) = g ∘ Prod.snd := rfl
  rw [this, ← List.map_map, List.map_snd_zip (by simp)]

/-! ### Properties -/

/-- **C101** for lists: the parts that all processes of a communicator get together are the list, each element once.
Missing: draws that differ (`C101_draws_violated`). -/
theorem C101_list_partial {α : Type} (xs : List α) (m : Method) (hm : m ≠ .other) (size : Nat) (hs : 0 < size) (world : Nat → Proc) (draw : Nat → List Nat)
    (hd : Drawn m xs.length size draw) :
    ∃ piece : Nat → List α, (∀ r, r < size → partitionListMpi xs m (some ⟨r, size⟩) (world r) draw = .ok (piece r)) ∧
      (((List.range size).map piece).flatten).Perm xs :=
  pieces α xs m hm size hs draw hd

/-- **C101** without a communicator: the processes of the world share the list. -/
theorem C101_world_partial {α : Type} (xs : List α) (m : Method) (hm : m ≠ .other) (size : Nat) (hs : 0 < size) (draw : Nat → List Nat)
    (hd : Drawn m xs.length size draw) :
    ∃ piece : Nat → List α, (∀ r, r < size → partitionListMpi xs m none ⟨r, size⟩ draw = .ok (piece r)) ∧
      (((List.range size).map piece).flatten).Perm xs :=
  pieces α xs m hm size hs draw hd

example : Drawn .rand 3 2 (fun _ => [2, 0, 1]) ∧ partitionListMpi ['a', 'b', 'c'] .rand (some ⟨0, 2⟩) ⟨0, 4⟩ (fun _ => [2, 0, 1]) = .ok ['c', 'a'] ∧
    partitionListMpi ['a', 'b', 'c'] .rand (some ⟨1, 2⟩) ⟨1, 4⟩ (fun _ => [2, 0, 1]) = .ok ['b'] :=
  ⟨fun _ => ⟨[2, 0, 1], by decide, fun _ _ => rfl⟩, rfl, rfl⟩

/-- **C101** for ranges: for a step that is not zero, the numbers that all processes get together are, each once, those from `a` on before `b` at a
distance of a multiple of the step (before in the direction of the step). `Slice.pyRange a b s` is only used for its length, the number of these numbers. -/
theorem C101_range_partial (a b s : Int) (hs0 : s ≠ 0) (m : Method) (hm : m ≠ .other) (size : Nat) (hs : 0 < size) (world : Nat → Proc) (draw : Nat → List Nat)
    (hd : Drawn m (Slice.pyRange a b s).length size draw) :
    ∃ piece : Nat → List Int, (∀ r, r < size → mpirange [a, b, s] m (some ⟨r, size⟩) (world r) draw = .ok (piece r)) ∧
      (((List.range size).map piece).flatten).Nodup ∧
      ∀ x, x ∈ ((List.range size).map piece).flatten ↔ (s ∣ x - a ∧ if 0 < s then a ≤ x ∧ x < b else b < x ∧ x ≤ a) := by
  obtain ⟨piece, h1, h2⟩ := pieces Int (Slice.pyRange a b s) m hm size hs draw hd
  refine ⟨piece, fun r hr => ?_, ?_, fun x => ?_⟩
  · simp only [mpirange, rangeOf, hs0, if_false, partitionListMpi, h1 r hr]
  · rw [h2.nodup_iff]
    rcases Int.lt_or_lt_of_ne hs0 with h | h
    · exact (Slice.pyRange_pairwise_neg a b s h).imp fun h => by omega
    · exact (Slice.pyRange_pairwise_pos a b s h).imp fun h => by omega
  · rw [h2.mem_iff]
    rcases Int.lt_or_lt_of_ne hs0 with h | h
    · rw [Slice.mem_pyRange_neg a b s h, if_neg (by omega)]
      constructor
      · rintro ⟨h1, h2, h3⟩
        exact ⟨by rw [← Int.dvd_neg] at h3; rwa [Int.neg_sub] at h3, h1, h2⟩
      · rintro ⟨h3, h1, h2⟩
        exact ⟨h1, h2, by rw [← Int.dvd_neg] at h3; rwa [Int.neg_sub] at h3⟩
    · rw [Slice.mem_pyRange_pos a b s h, if_pos h]
      tauto

/-- **C101** with fewer arguments, and those that are refused on every process. -/
theorem C101_range_arguments (m : Method) (comm : Option Proc) (world : Proc) (draw : Nat → List Nat) :
    (∀ b, mpirange [b] m comm world draw = mpirange [0, b, 1] m comm world draw) ∧
    (∀ a b, mpirange [a, b] m comm world draw = mpirange [a, b, 1] m comm world draw) ∧
    (∀ a b, mpirange [a, b, 0] m comm world draw = .error (.py .valueError)) ∧
    (∀ l, l.length = 0 ∨ 3 < l.length → mpirange l m comm world draw = .error .typeError) := by
  refine ⟨fun _ => rfl, fun _ _ => rfl, fun _ _ => rfl, fun l hl => ?_⟩
  match l, hl with
  | [], _ => rfl
  | _ :: _ :: _ :: _ :: _, _ => rfl
  | [_], h => simp at h
  | [_, _], h => simp at h
  | [_, _, _], h => simp at h

example : mpirange [10, 0, -3] .con (some ⟨0, 2⟩) ⟨0, 2⟩ (fun _ => []) = .ok [10, 7] ∧ mpirange [10, 0, -3] .con (some ⟨1, 2⟩) ⟨1, 2⟩ (fun _ => []) = .ok [4, 1] := by
  decide

/-- The violation: processes that draw different numbers (they do, unless the program gives all the same seed) get some elements twice and some not at all. -/
theorem C101_draws_violated :
    ∃ draw : Nat → List Nat, (∀ r, (draw r).Perm (List.range 2)) ∧
      ∀ r, r < 2 → partitionListMpi ['a', 'b'] .rand (some ⟨r, 2⟩) ⟨r, 2⟩ draw = .ok ['a'] := by
  refine ⟨fun r => if r = 0 then [0, 1] else [1, 0], fun r => ?_, fun r hr => ?_⟩
  · by_cases h : r = 0 <;> simp only [h, if_true, if_false] <;> decide
  · obtain rfl | rfl : r = 0 ∨ r = 1 := by omega
    · rfl
    · rfl

/-- **C101** for `parallel_map` with a function that does not raise: every process returns, those that get a result the results in the order of the list.
Missing: draws that differ (`C101_map_draws_violated`). -/
theorem C101_map_partial {α β : Type} (f : α → Option β) (g : α → β) (xs : List α) (hf : ∀ x ∈ xs, f x = some (g x)) (root : Option Nat) (m : Method) (hm : m ≠ .other)
    (size rank : Nat) (hr : rank < size) (hroot : ∀ k, root = some k → k < size ∨ size = 1) (draw : Nat → List Nat) (hd : Drawn m xs.length size draw) :
    parallelMapAll f xs root m size draw rank = .returned (if size = 1 ∨ root = none ∨ root = some rank then some (xs.map g) else none) := by
  unfold parallelMapAll
  by_cases h1 : size = 1
  · have : applyAll f ((List.range xs.length).zip xs) = _ := applyAll_some f _ g fun p hp => hf p.2 ((mem_zip_range xs p.2).mpr ⟨p, hp, rfl⟩)
    simp only [h1, if_true, this, true_or, List.map_map]
    congr 2
    have : ((fun x : Nat × β => x.2) ∘ fun p : Nat × α => (p.1, g p.2)) = g ∘ Prod.snd := rfl
    rw [this, ← List.map_map, List.map_snd_zip (by simp)]
  · have hlen : ((List.range xs.length).zip xs).length = xs.length := by simp
    obtain ⟨piece, hp, hperm⟩ := pieces _ ((List.range xs.length).zip xs) m hm size (by omega) draw (by rw [hlen]; exact hd)
    have ha := (all_share f xs m size draw piece hp hperm).mpr fun x hx => by rw [hf x hx]; rfl
    have hmine : (share f xs m size draw rank).isSome = true := (List.all_eq_true.mp ha) rank (List.mem_range.mpr hr)
    obtain ⟨l, hl⟩ := Option.isSome_iff_exists.mp hmine
    have hno : root.any (fun k => decide (size ≤ k)) = false := by
      cases root with
      | none => rfl
      | some k =>
        have := hroot k rfl
        simp only [Option.any_some, decide_eq_false_iff_not]
        omega
    simp only [h1, if_false, hl, ha, if_true, false_or, hno, Bool.false_eq_true, sorted_all f g xs hf m size draw piece hp hperm]
    split <;> rfl

/-- The violation: with draws that differ a result is lost and another one is there twice. -/
theorem C101_map_draws_violated :
    ∃ draw : Nat → List Nat, (∀ r, (draw r).Perm (List.range 2)) ∧
      ∀ r, r < 2 → parallelMapAll (fun n : Nat => some (10 * n)) [1, 2] none .rand 2 draw r = .returned (some [10, 10]) := by
  refine ⟨fun r => if r = 0 then [0, 1] else [1, 0], fun r => ?_, fun r hr => ?_⟩
  · by_cases h : r = 0 <;> simp only [h, if_true, if_false] <;> decide
  · obtain rfl | rfl : r = 0 ∨ r = 1 := by omega
    · rfl
    · rfl

example : parallelMapAll (fun n : Nat => some (10 * n)) [1, 2, 3] (some 1) .alt 2 (fun _ => []) 1 = .returned (some [10, 20, 30]) ∧
    parallelMapAll (fun n : Nat => some (10 * n)) [1, 2, 3] (some 1) .alt 2 (fun _ => []) 0 = .returned none := by
  constructor <;> simp [parallelMapAll, share, partitionList, partitionBounds_ok, strided, everyNth, applyAll, List.range_succ, sortByKey, insertByKey]

/-- **C101** for functions that may raise: a list that is returned is complete and right, so no process returns if a call of the function raises. (Same proviso on draws.) -/
theorem C101_no_wrong_result_partial {α β : Type} (f : α → Option β) (xs : List α) (root : Option Nat) (m : Method) (hm : m ≠ .other) (size rank : Nat) (hr : rank < size)
    (draw : Nat → List Nat) (hd : Drawn m xs.length size draw) (l : Option (List β)) (h : parallelMapAll f xs root m size draw rank = .returned l) :
    (∀ x ∈ xs, (f x).isSome = true) ∧ ∀ r, l = some r → r.map some = xs.map f := by
  have hall : ∀ x ∈ xs, (f x).isSome = true := by
    unfold parallelMapAll at h
    by_cases h1 : size = 1
    · simp only [h1, if_true] at h
      intro x hx
      obtain ⟨p, hp, rfl⟩ := (mem_zip_range xs x).mp hx
      cases ha : applyAll f ((List.range xs.length).zip xs) with
      | none => rw [ha] at h; cases h
      | some r => exact (applyAll_isSome f _).mp (by rw [ha]; rfl) p hp
    · have hlen : ((List.range xs.length).zip xs).length = xs.length := by simp
      obtain ⟨piece, hp, hperm⟩ := pieces _ ((List.range xs.length).zip xs) m hm size (by omega) draw (by rw [hlen]; exact hd)
      rw [← all_share f xs m size draw piece hp hperm]
      simp only [h1, if_false] at h
      split at h
      · cases h
      · split at h
        · assumption
        · cases h
  refine ⟨hall, fun r hl => ?_⟩
  subst hl
  have hroot : ∀ k, root = some k → k < size ∨ size = 1 := by
    intro k hk
    subst hk
    by_cases h1 : size = 1
    · exact .inr h1
    · unfold parallelMapAll at h
      simp only [h1, if_false] at h
      split at h
      · cases h
      · split at h
        · split at h
          · cases h
          · rename_i hk
            simp only [Option.any_some, decide_eq_true_eq] at hk
            exact .inl (by omega)
        · cases h
  by_cases hn : Nonempty β
  · obtain ⟨y0⟩ := hn
    have hf : ∀ x ∈ xs, f x = some ((f x).getD y0) := by
      intro x hx
      obtain ⟨y, hy⟩ := Option.isSome_iff_exists.mp (hall x hx)
      rw [hy]; rfl
    rw [C101_map_partial f (fun x => (f x).getD y0) xs hf root m hm size rank hr hroot draw hd] at h
    split at h
    · obtain rfl : xs.map (fun x => (f x).getD y0) = r := by simpa using h
      rw [List.map_map]
      exact List.map_congr_left fun x hx => (hf x hx).symm
    · simp at h
  · have hr' : r = [] := by
      cases r with
      | nil => rfl
      | cons y _ => exact absurd ⟨y⟩ hn
    have hx' : xs = [] := by
      cases xs with
      | nil => rfl
      | cons x _ =>
        obtain ⟨y, -⟩ := Option.isSome_iff_exists.mp (hall x List.mem_cons_self)
        exact absurd ⟨y⟩ hn
    rw [hr', hx']; rfl

/-- **C101** who raises: with more than one process, those that have an element in their part for which the function raises, and only those (the draws do not matter, and the root is a rank). -/
theorem C101_raises {α β : Type} (f : α → Option β) (xs : List α) (root : Option Nat) (m : Method) (size rank : Nat) (hs : 1 < size)
    (hroot : ∀ k, root = some k → k < size) (draw : Nat → List Nat) (l : List (Nat × α))
    (hl : partitionList ((List.range xs.length).zip xs) rank size m (draw rank) = .ok l) :
    parallelMapAll f xs root m size draw rank = .raised ↔ ∃ p ∈ l, f p.2 = none := by
  have h1 : size ≠ 1 := by omega
  have hno : root.any (fun k => decide (size ≤ k)) = false := by
    cases root with
    | none => rfl
    | some k =>
      have := hroot k rfl
      simp only [Option.any_some, decide_eq_false_iff_not]
      omega
  have hsh : share f xs m size draw rank = applyAll f l := by simp only [share, hl]
  have hiff := applyAll_isSome f l
  unfold parallelMapAll
  simp only [h1, if_false, hsh, hno, Bool.false_eq_true]
  cases ha : applyAll f l with
  | none =>
    rw [ha] at hiff
    simp only [true_iff]
    have : ¬ ∀ p ∈ l, (f p.2).isSome = true := fun h => by simpa using hiff.mpr h
    push Not at this
    obtain ⟨p, hp, h⟩ := this
    exact ⟨p, hp, by simpa using h⟩
  | some r =>
    rw [ha] at hiff
    have : ∀ p ∈ l, (f p.2).isSome = true := hiff.mp rfl
    constructor
    · intro h
      simp only at h
      split at h
      · split at h <;> cases h
      · cases h
    · rintro ⟨p, hp, h⟩
      have := this p hp
      rw [h] at this
      cases this

example : (1 : Nat) < 2 ∧ partitionList ((List.range 2).zip [1, 2]) 0 2 .con [] = .ok [(0, 1)] ∧
    parallelMapAll (fun n : Nat => if n = 2 then none else some n) [2, 2] none .con 2 (fun _ => []) 1 = .raised := ⟨by decide, rfl, rfl⟩

/-- The violation: if the function raises on one process, another one, which has done its part, waits for ever. -/
theorem C101_exception_violated :
    parallelMapAll (fun n : Nat => if n = 1 then none else some n) [1, 2] none .con 2 (fun _ => []) 0 = .raised ∧
    parallelMapAll (fun n : Nat => if n = 1 then none else some n) [1, 2] none .con 2 (fun _ => []) 1 = .waiting := ⟨rfl, rfl⟩

/-- **C101** an unknown method is refused on all of several processes. -/
theorem C101_method_partial {α β : Type} (f : α → Option β) (xs : List α) (root : Option Nat) (size rank : Nat) (hs : 1 < size) (hr : rank < size) (draw : Nat → List Nat) :
    parallelMapAll f xs root .other size draw rank = .raised := by
  have h1 : size ≠ 1 := by omega
  simp only [parallelMapAll, h1, if_false, share, C02_unknown_method _ rank size hr]

example : parallelMapAll (fun n : Nat => some n) [1, 2] none .other 2 (fun _ => []) 1 = .raised := rfl

/-- The violation: one process alone takes an unknown method. -/
theorem C101_method_violated {α β : Type} (f : α → β) (xs : List α) (root : Option Nat) (draw : Nat → List Nat) :
    parallelMapAll (fun x => some (f x)) xs root .other 1 draw 0 = .returned (some (xs.map f)) := by
  have : applyAll (fun x => some (f x)) ((List.range xs.length).zip xs) = _ := applyAll_some _ _ f fun p _ => rfl
  simp only [parallelMapAll, if_true, this, List.map_map]
  congr 2
  have : ((fun x : Nat × β => x.2) ∘ fun p : Nat × α => (p.1, f p.2)) = f ∘ Prod.snd := rfl
  rw [this, ← List.map_map, List.map_snd_zip (by simp)]

end Verif.Split
