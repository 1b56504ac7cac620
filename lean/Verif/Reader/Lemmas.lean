import Verif.Reader.Spec
import Verif.Tod.Props
import Mathlib.Data.List.Forall2
import Verif.Mem.CopyLemmas
import Mathlib.Data.Finset.Card
import Mathlib.Data.List.Nodup
import Mathlib.Tactic.Common
import Mathlib.Tactic.Ring
import Mathlib.Tactic.Linarith

/-!
# Lemmas about readers
-/
namespace Verif.Reader

open Verif.Mem (Str Node sortKeys)

variable {α : Type}

theorem hasAxis_iff (ta : List String) (d : TDs α) : hasAxis ta d = true ↔ Timed ta d := by
  simp [hasAxis, Timed]

theorem at_dset (d d' : TDs α) (p : List Str) : At (.dset d) p d' ↔ p = [] ∧ d' = d := by
  constructor
  · intro h
    cases h
    exact ⟨rfl, rfl⟩
  · rintro ⟨rfl, rfl⟩
    exact .here _

theorem at_group (a : List (Str × Nat)) (kids : List (Str × Tree α)) (p : List Str) (d : TDs α) :
    At (.group a kids) p d ↔ ∃ k n q, (k, n) ∈ kids ∧ p = k :: q ∧ At n q d := by
  constructor
  · intro h
    cases h with
    | kid _ _ k n q _ h1 h2 => exact ⟨k, n, q, h1, rfl, h2⟩
  · rintro ⟨k, n, q, h1, rfl, h2⟩
    exact .kid _ _ _ _ _ _ h1 h2

/-- What the stack has. -/
def Below (s : List (List Str × Tree α)) (p : List Str) (d : TDs α) : Prop := ∃ q n r, (q, n) ∈ s ∧ p = q ++ r ∧ At n r d

theorem below_cons (q : List Str) (n : Tree α) (s : List (List Str × Tree α)) (p : List Str) (d : TDs α) :
    Below ((q, n) :: s) p d ↔ (∃ r, p = q ++ r ∧ At n r d) ∨ Below s p d := by
  constructor
  · rintro ⟨q', n', r, h1, h2, h3⟩
    rcases List.mem_cons.1 h1 with h | h
    · cases h
      exact .inl ⟨r, h2, h3⟩
    · exact .inr ⟨q', n', r, h, h2, h3⟩
  · rintro (⟨r, h2, h3⟩ | ⟨q', n', r, h1, h2, h3⟩)
    · exact ⟨q, n, r, List.mem_cons_self, h2, h3⟩
    · exact ⟨q', n', r, List.mem_cons_of_mem _ h1, h2, h3⟩

theorem below_append (s t : List (List Str × Tree α)) (p : List Str) (d : TDs α) : Below (s ++ t) p d ↔ Below s p d ∨ Below t p d := by
  unfold Below
  constructor
  · rintro ⟨q, n, r, h1, h2⟩
    rcases List.mem_append.1 h1 with h | h
    · exact .inl ⟨q, n, r, h, h2⟩
    · exact .inr ⟨q, n, r, h, h2⟩
  · rintro (⟨q, n, r, h1, h2⟩ | ⟨q, n, r, h1, h2⟩)
    · exact ⟨q, n, r, List.mem_append.2 (.inl h1), h2⟩
    · exact ⟨q, n, r, List.mem_append.2 (.inr h1), h2⟩

theorem below_kids (a : List (Str × Nat)) (kids : List (Str × Tree α)) (q p : List Str) (d : TDs α) :
    Below ((sortKeys kids).map fun x => (q ++ [x.1], x.2)) p d ↔ ∃ r, p = q ++ r ∧ At (.group a kids) r d := by
  constructor
  · rintro ⟨q', n, r, h1, h2, h3⟩
    obtain ⟨⟨k, n'⟩, h4, h5⟩ := List.mem_map.1 h1
    cases h5
    refine ⟨k :: r, by simpa using h2, (at_group a kids _ d).2 ⟨k, _, r, (Mem.sortKeys_perm kids).mem_iff.1 h4, rfl, h3⟩⟩
  · rintro ⟨r, h1, h2⟩
    obtain ⟨k, n, r', h3, rfl, h4⟩ := (at_group a kids _ d).1 h2
    exact ⟨q ++ [k], n, r', List.mem_map.2 ⟨(k, n), (Mem.sortKeys_perm kids).mem_iff.2 h3, rfl⟩, by simpa using h1, h4⟩

theorem crawl_mem (ta : List String) (s : List (List Str × Tree α)) (p : List Str) (d : TDs α) :
    ((p, d) ∈ (crawl ta s).1 ↔ Below s p d ∧ Timed ta d) ∧ ((p, .dset d) ∈ (crawl ta s).2 ↔ Below s p d ∧ ¬ Timed ta d) := by
  fun_induction crawl ta s with
  | case1 => simp [Below]
  | case2 q e s r h ih =>
    rw [below_cons]
    have ht : Timed ta e := (hasAxis_iff ta e).1 h
    have he : (∃ r, p = q ++ r ∧ At (.dset e) r d) ↔ p = q ∧ d = e := by
      constructor
      · rintro ⟨r, h1, h2⟩
        obtain ⟨rfl, rfl⟩ := (at_dset e d r).1 h2
        simpa using h1
      · rintro ⟨rfl, rfl⟩
        exact ⟨[], by simp, .here _⟩
    rw [he]
    constructor
    · rw [List.mem_cons, ih.1]
      constructor
      · rintro (h1 | h1)
        · cases h1
          exact ⟨.inl ⟨rfl, rfl⟩, ht⟩
        · exact ⟨.inr h1.1, h1.2⟩
      · rintro ⟨⟨rfl, rfl⟩ | h1, h2⟩
        · exact .inl rfl
        · exact .inr ⟨h1, h2⟩
    · rw [ih.2]
      constructor
      · rintro ⟨h1, h2⟩
        exact ⟨.inr h1, h2⟩
      · rintro ⟨⟨rfl, rfl⟩ | h1, h2⟩
        · exact absurd ht h2
        · exact ⟨h1, h2⟩
  | case3 q e s r h ih =>
    rw [below_cons]
    have ht : ¬ Timed ta e := fun h' => h ((hasAxis_iff ta e).2 h')
    have he : (∃ r, p = q ++ r ∧ At (.dset e) r d) ↔ p = q ∧ d = e := by
      constructor
      · rintro ⟨r, h1, h2⟩
        obtain ⟨rfl, rfl⟩ := (at_dset e d r).1 h2
        simpa using h1
      · rintro ⟨rfl, rfl⟩
        exact ⟨[], by simp, .here _⟩
    rw [he]
    constructor
    · rw [ih.1]
      constructor
      · rintro ⟨h1, h2⟩
        exact ⟨.inr h1, h2⟩
      · rintro ⟨⟨rfl, rfl⟩ | h1, h2⟩
        · exact absurd h2 ht
        · exact ⟨h1, h2⟩
    · rw [List.mem_cons, ih.2]
      constructor
      · rintro (h1 | h1)
        · cases h1
          exact ⟨.inl ⟨rfl, rfl⟩, ht⟩
        · exact ⟨.inr h1.1, h1.2⟩
      · rintro ⟨⟨rfl, rfl⟩ | h1, h2⟩
        · exact .inl rfl
        · exact .inr ⟨h1, h2⟩
  | case4 q a kids s r ih =>
    rw [below_cons, ← below_kids a kids q p d, ← below_append]
    refine ⟨ih.1, ?_⟩
    rw [List.mem_cons, ih.2]
    constructor
    · rintro (h1 | h1)
      · cases h1
      · exact h1
    · exact .inr

theorem below_root (t : Tree α) (p : List Str) (d : TDs α) : Below [([], t)] p d ↔ At t p d := by
  simp [Below]

/-- All entries of a stack are datasets. -/
theorem crawl_flat (ta : List String) (l : List (Str × TDs α)) :
    (crawl ta (l.map fun x => ([x.1], Node.dset x.2))).1 = (l.filter fun x => hasAxis ta x.2).map fun x => ([x.1], x.2) := by
  induction l with
  | nil => simp [crawl]
  | cons x l ih =>
    rw [List.map_cons, crawl]
    by_cases h : hasAxis ta x.2 = true
    · simp only [h, if_true]
      rw [List.filter_cons_of_pos (by simpa using h), List.map_cons, ih]
    · simp only [h, if_false, Bool.false_eq_true]
      rw [List.filter_cons_of_neg (by simpa using h), ih]

theorem crawl_flat2 (ta : List String) (l : List (Str × TDs α)) :
    (crawl ta (l.map fun x => ([x.1], Node.dset x.2))).2 = (l.filter fun x => !hasAxis ta x.2).map fun x => ([x.1], Node.dset x.2) := by
  induction l with
  | nil => simp [crawl]
  | cons x l ih =>
    rw [List.map_cons, crawl]
    by_cases h : hasAxis ta x.2 = true
    · simp only [h, if_true]
      rw [List.filter_cons_of_neg (by simp [h]), ih]
    · simp only [h, if_false, Bool.false_eq_true]
      rw [List.filter_cons_of_pos (by simpa using h), List.map_cons, ih]

theorem exists_dsets (l : List (Str × Tree α)) (h : ∀ x ∈ l, isDset x.2 = true) : ∃ m : List (Str × TDs α), l = m.map fun x => (x.1, Node.dset x.2) := by
  induction l with
  | nil => exact ⟨[], rfl⟩
  | cons x l ih =>
    obtain ⟨m, hm⟩ := ih fun y hy => h y (List.mem_cons_of_mem _ hy)
    obtain ⟨k, n⟩ := x
    cases n with
    | dset d => exact ⟨(k, d) :: m, by rw [List.map_cons, hm]⟩
    | group _ _ => exact absurd (h _ List.mem_cons_self) (by simp [isDset])

/-- The search in a container. -/
theorem crawl_visible (ta : List String) (a : List (Str × Nat)) (kids : List (Str × Tree α)) :
    ∃ m : List (Str × TDs α), (∀ k d, (k, d) ∈ m ↔ (k, Node.dset d) ∈ kids) ∧ ((kids.map Prod.fst).Nodup → (m.map Prod.fst).Nodup) ∧
      (crawl ta [([], visible (.group a kids))]).1 = (m.filter fun x => hasAxis ta x.2).map (fun x => ([x.1], x.2)) ∧
      (crawl ta [([], visible (.group a kids))]).2 = ([], visible (.group a kids)) :: (m.filter fun x => !hasAxis ta x.2).map fun x => ([x.1], Node.dset x.2) := by
  have hp := Mem.sortKeys_perm (kids.filter fun x => isDset x.2)
  obtain ⟨m, hm⟩ := exists_dsets (sortKeys (kids.filter fun x => isDset x.2)) (fun x hx => by
    have := hp.mem_iff.1 hx
    exact (List.mem_filter.1 this).2)
  have hc : crawl ta [([], visible (.group a kids))] =
      ((crawl ta (m.map fun x => ([x.1], Node.dset x.2))).1, ([], visible (.group a kids)) :: (crawl ta (m.map fun x => ([x.1], Node.dset x.2))).2) := by
    unfold visible
    rw [crawl]
    simp only [List.append_nil, List.nil_append, hm, List.map_map, Function.comp_def]
  refine ⟨m, ?_, ?_, ?_, ?_⟩
  · intro k d
    have h1 : (k, d) ∈ m ↔ (k, Node.dset d) ∈ sortKeys (kids.filter fun x => isDset x.2) := by
      rw [hm, List.mem_map]
      constructor
      · intro h
        exact ⟨_, h, rfl⟩
      · rintro ⟨⟨k', d'⟩, h, h'⟩
        cases h'
        exact h
    rw [h1, hp.mem_iff, List.mem_filter]
    simp [isDset]
  · intro hnd
    have h1 : m.map Prod.fst = (sortKeys (kids.filter fun x => isDset x.2)).map Prod.fst := by
      rw [hm, List.map_map]
      rfl
    rw [h1, (hp.map Prod.fst).nodup_iff]
    exact hnd.sublist (List.filter_sublist.map _)
  · rw [hc]
    exact crawl_flat ta m
  · rw [hc]
    simp only
    rw [crawl_flat2]

theorem copyRest_flat (l : List (Str × TDs α)) (r : Rest α) :
    copyRest (l.map fun x => ([x.1], Node.dset x.2)) r = .ok { r with fixed := r.fixed ++ l.map fun x => ([x.1], x.2) } := by
  induction l generalizing r with
  | nil => simp [copyRest]
  | cons x l ih =>
    rw [List.map_cons, copyRest, ih]
    simp

theorem joined_one (k : Str) : joined [k] = String.ofList k := by
  unfold joined
  congr 1
  simp [List.intercalate]

/-- The element at a position of a sorted list is at most the number of smaller ones away from the front. -/
theorem sorted_lt (s : List ℚ) (hs : s.Pairwise (· ≤ ·)) (x : ℚ) (j : Nat) (hj : j < s.length) (h : s[j] < x) : j < s.countP (· < x) := by
  have h1 : (s.take (j + 1)).countP (· < x) = (s.take (j + 1)).length := by
    rw [List.countP_eq_length]
    intro y hy
    obtain ⟨i, hi, rfl⟩ := List.mem_iff_getElem.1 hy
    rw [List.getElem_take]
    rw [List.length_take] at hi
    have hle : s[i] ≤ s[j] := by
      rcases Nat.lt_or_ge i j with hij | hij
      · exact List.pairwise_iff_getElem.1 hs i j (by omega) hj hij
      · have : i = j := by omega
        subst this
        exact le_refl _
    simpa using lt_of_le_of_lt hle h
  have h2 := (List.take_sublist (j + 1) s).countP_le (p := (· < x))
  rw [h1, List.length_take] at h2
  omega

theorem sorted_gt (s : List ℚ) (hs : s.Pairwise (· ≤ ·)) (x : ℚ) (j : Nat) (hj : j < s.length) (h : x < s[j]) : s.length - j ≤ s.countP (x < ·) := by
  have h1 : (s.drop j).countP (x < ·) = (s.drop j).length := by
    rw [List.countP_eq_length]
    intro y hy
    obtain ⟨i, hi, rfl⟩ := List.mem_iff_getElem.1 hy
    rw [List.getElem_drop]
    rw [List.length_drop] at hi
    have hle : s[j] ≤ s[j + i] := by
      rcases Nat.eq_zero_or_pos i with hij | hij
      · subst hij
        exact le_refl _
      · exact List.pairwise_iff_getElem.1 hs j (j + i) hj (by omega) (by omega)
    simpa using lt_of_lt_of_le h hle
  have h2 := (List.drop_sublist j s).countP_le (p := (x < ·))
  rw [h1, List.length_drop] at h2
  exact h2

theorem count_three (l : List ℚ) (x : ℚ) : l.countP (· < x) + l.count x + l.countP (x < ·) = l.length := by
  induction l with
  | nil => rfl
  | cons y l ih =>
    rw [List.countP_cons, List.countP_cons, List.count_cons, List.length_cons]
    rcases lt_trichotomy y x with h | h | h
    · have h1 : ¬ x < y := not_lt.2 h.le
      have h2 : y ≠ x := h.ne
      simp [h, h1, h2]
      omega
    · subst h
      simp
      omega
    · have h1 : ¬ y < x := not_lt.2 h.le
      have h2 : y ≠ x := h.ne'
      simp [h, h1, h2]
      omega

/-- If most are the same then that is the median. -/
theorem median_majority (l : List ℚ) (x : ℚ) (h : l.length < 2 * l.count x) : median l = some x := by
  have hne : l ≠ [] := by
    rintro rfl
    simp at h
  have hp := List.perm_insertionSort (· ≤ ·) l
  have hs := List.pairwise_insertionSort (· ≤ ·) l
  set s := l.insertionSort (· ≤ ·) with hsdef
  have hlen : s.length = l.length := hp.length_eq
  have hcnt : s.count x = l.count x := hp.count_eq x
  have h3 := count_three s x
  have key : ∀ j (hj : j < s.length), s.countP (· < x) ≤ j → j < s.length - s.countP (x < ·) → s[j] = x := by
    intro j hj h1 h2
    rcases lt_trichotomy s[j] x with h4 | h4 | h4
    · have := sorted_lt s hs x j hj h4
      omega
    · exact h4
    · have := sorted_gt s hs x j hj h4
      omega
  have hpos : 0 < l.length := List.length_pos_of_ne_nil hne
  unfold median
  rw [if_neg hne]
  simp only [← hsdef]
  split
  · have hj : l.length / 2 < s.length := by omega
    rw [List.getElem?_eq_getElem hj, key _ hj (by omega) (by omega)]
  · have hj1 : l.length / 2 - 1 < s.length := by omega
    have hj2 : l.length / 2 < s.length := by omega
    rw [List.getElem?_eq_getElem hj1, List.getElem?_eq_getElem hj2, key _ hj1 (by omega) (by omega), key _ hj2 (by omega) (by omega)]
    simp only [Option.some.injEq]
    ring

theorem steps_length (l : List ℚ) : (steps l).length = l.length - 1 := by
  fun_induction steps l with
  | case1 x y l ih => simp [ih]
  | case2 l h =>
    match l, h with
    | [], _ => rfl
    | [x], _ => rfl
    | x :: y :: l, h => exact absurd rfl (h x y l)

theorem steps_get (l : List ℚ) (i : Nat) (x y : ℚ) (hx : l[i]? = some x) (hy : l[i + 1]? = some y) : (steps l)[i]? = some (y - x) := by
  fun_induction steps l generalizing i with
  | case1 u v l ih =>
    cases i with
    | zero =>
      simp only [List.getElem?_cons_zero, List.getElem?_cons_succ, Option.some.injEq] at hx hy ⊢
      rw [hx, hy]
    | succ i => exact ih i hx hy
  | case2 l h =>
    match l, h with
    | [], _ => simp at hx
    | [x], _ => simp at hy
    | x :: y :: l, h => exact absurd rfl (h x y l)

theorem count_ge (l : List ℚ) (x : ℚ) (S : Finset ℕ) (h : ∀ i ∈ S, l[i]? = some x) : S.card ≤ l.count x := by
  induction l generalizing S with
  | nil =>
    have : S = ∅ := by
      by_contra hne
      obtain ⟨i, hi⟩ := Finset.nonempty_of_ne_empty hne
      simpa using h i hi
    simp [this]
  | cons y l ih =>
    set T : Finset ℕ := (S.erase 0).image (· - 1) with hT
    have h1 : T.card = (S.erase 0).card := by
      apply Finset.card_image_of_injOn
      intro a ha b hb hab
      have ha0 : a ≠ 0 := (Finset.mem_erase.1 ha).1
      have hb0 : b ≠ 0 := (Finset.mem_erase.1 hb).1
      have : a - 1 = b - 1 := hab
      omega
    have h2 := ih T (fun i hi => by
      obtain ⟨j, hj, rfl⟩ := Finset.mem_image.1 hi
      obtain ⟨j1, j2⟩ := Finset.mem_erase.1 hj
      have := h j j2
      obtain ⟨k, rfl⟩ : ∃ k, j = k + 1 := ⟨j - 1, by omega⟩
      simpa using this)
    rw [List.count_cons]
    by_cases h0 : 0 ∈ S
    · have := h 0 h0
      simp only [List.getElem?_cons_zero, Option.some.injEq] at this
      rw [Finset.card_erase_of_mem h0] at h1
      simp only [this, beq_self_eq_true, if_true]
      omega
    · rw [Finset.erase_eq_of_notMem h0] at h1
      omega

theorem median_mostly (δ : ℚ) (stamps : List ℚ) (h : Mostly δ stamps) : median (steps stamps) = some δ := by
  obtain ⟨S, h1, h2⟩ := h
  apply median_majority
  rw [steps_length]
  have := count_ge (steps stamps) δ S (fun i hi => by
    obtain ⟨x, y, hx, hy, he⟩ := h1 i hi
    rw [steps_get stamps i x y hx hy, he])
  omega

/-! ### Files as inputs of the concatenation -/

theorem itemOf_dset (ta : List String) (a : List (Str × Nat)) (kids : List (Str × Tree α)) (x : Tod.Dset α) :
    x ∈ (itemOf ta (.group a kids)).dsets ↔ ∃ k d, (k, Node.dset d) ∈ kids ∧ Timed ta d ∧ x = ⟨String.ofList k, d.axes, d.data⟩ := by
  obtain ⟨m, h1, -, h3, -⟩ := crawl_visible ta a kids
  unfold itemOf
  simp only [h3, List.map_map, List.mem_map, List.mem_filter, Function.comp_apply, joined_one]
  constructor
  · rintro ⟨⟨k, d⟩, ⟨h, h'⟩, rfl⟩
    exact ⟨k, d, (h1 k d).1 h, (hasAxis_iff ta d).1 h', rfl⟩
  · rintro ⟨k, d, h, h', rfl⟩
    exact ⟨(k, d), ⟨(h1 k d).2 h, (hasAxis_iff ta d).2 h'⟩, rfl⟩

theorem ofList_inj : Function.Injective String.ofList := by
  intro a b h
  have := congrArg String.toList h
  simpa using this

theorem itemOf_nodup (ta : List String) (a : List (Str × Nat)) (kids : List (Str × Tree α)) (h : (kids.map Prod.fst).Nodup) :
    ((itemOf ta (.group a kids)).dsets.map Tod.Dset.name).Nodup := by
  obtain ⟨m, -, h2, h3, -⟩ := crawl_visible ta a kids
  unfold itemOf
  simp only [h3, List.map_map]
  have : (Tod.Dset.name ∘ (fun x : List Str × TDs α => (⟨joined x.1, x.2.axes, x.2.data⟩ : Tod.Dset α)) ∘ fun x : Str × TDs α => ([x.1], x.2)) =
      String.ofList ∘ Prod.fst := by
    funext x
    exact joined_one x.1
  rw [this, ← List.map_map]
  exact ((h2 h).sublist (List.filter_sublist.map _)).map ofList_inj

theorem itemOf_index (ta : List String) (t : Tree α) (a : String) (l : List α) (h : HasMap t a l) : (itemOf ta t).index a = some l := by
  obtain ⟨at', kids, g, m, d, rfl, h1, h2, rfl⟩ := h
  unfold itemOf kidsOf
  simp only [h1, h2]

theorem find_timeAxis (ta : List String) (axes : List String) (a : String) :
    axes.find? (fun a => decide (a ∈ ta)) = some a ↔ ∃ before after, axes = before ++ a :: after ∧ a ∈ ta ∧ ∀ b ∈ before, b ∉ ta := by
  rw [List.find?_eq_some_iff_append]
  simp only [decide_eq_true_eq, Bool.not_eq_true', decide_eq_false_iff_not]
  constructor
  · rintro ⟨h, p, q, rfl, h'⟩
    exact ⟨p, q, rfl, h, h'⟩
  · rintro ⟨p, q, rfl, h, h'⟩
    exact ⟨h, p, q, rfl, h'⟩

theorem timed_find (ta : List String) (d : TDs α) (h : Timed ta d) : ∃ a, d.axes.find? (fun a => decide (a ∈ ta)) = some a := by
  obtain ⟨a, h1, h2⟩ := h
  cases hf : d.axes.find? (fun a => decide (a ∈ ta)) with
  | some b => exact ⟨b, rfl⟩
  | none =>
    have := List.find?_eq_none.1 hf a h1
    simp [h2] at this

theorem uniform (ta : List String) (files : List (Tree α)) (h : Alike ta files) : Tod.Uniform ta (files.map (itemOf ta)) := by
  refine ⟨?_, ?_, ?_, ?_⟩
  · intro it hit a ha
    obtain ⟨f, hf, rfl⟩ := List.mem_map.1 hit
    obtain ⟨l, hl⟩ := h.maps f hf a ha
    rw [itemOf_index ta f a l hl]
    rfl
  · intro it hit
    obtain ⟨f, hf, rfl⟩ := List.mem_map.1 hit
    obtain ⟨a, kids, rfl, hnd⟩ := h.once f hf
    exact itemOf_nodup ta a kids hnd
  · intro it hit x hx
    obtain ⟨f, hf, rfl⟩ := List.mem_map.1 hit
    obtain ⟨a, kids, rfl, hnd⟩ := h.once f hf
    obtain ⟨k, d, h1, h2, rfl⟩ := (itemOf_dset ta a kids x).1 hx
    obtain ⟨b, hb⟩ := timed_find ta d h2
    have hta := (find_timeAxis ta d.axes b).1 hb
    have hbm : b ∈ ta := by
      obtain ⟨_, _, _, h', _⟩ := hta
      exact h'
    obtain ⟨l, hl⟩ := h.maps _ hf b hbm
    exact ⟨b, hbm, l, hb, itemOf_index ta _ b l hl, h.long _ hf k d b l ⟨a, kids, rfl, h1⟩ hta hl⟩
  · intro it hit it' hit' x hx
    obtain ⟨f, hf, rfl⟩ := List.mem_map.1 hit
    obtain ⟨f', hf', rfl⟩ := List.mem_map.1 hit'
    obtain ⟨a, kids, rfl, hnd⟩ := h.once f hf
    obtain ⟨k, d, h1, h2, rfl⟩ := (itemOf_dset ta a kids x).1 hx
    obtain ⟨d', ⟨a', kids', rfl, h3⟩, h4⟩ := h.same _ hf _ hf' k d ⟨a, kids, rfl, h1⟩ h2
    refine ⟨⟨String.ofList k, d'.axes, d'.data⟩, (itemOf_dset ta a' kids' _).2 ⟨k, d', h3, ?_, rfl⟩, rfl, h4⟩
    unfold Timed at h2 ⊢
    rw [h4]
    exact h2

theorem filter_nodup {β : Type} (l : List (Tod.Dset β)) (hnd : (l.map Tod.Dset.name).Nodup) (x : Tod.Dset β) (hx : x ∈ l) :
    l.filter (fun d => d.name == x.name) = [x] := by
  induction l with
  | nil => simp at hx
  | cons y l ih =>
    rw [List.map_cons, List.nodup_cons] at hnd
    rcases List.mem_cons.1 hx with rfl | h
    · rw [List.filter_cons_of_pos (by simp), List.filter_eq_nil_iff.2]
      intro z hz hzn
      apply hnd.1
      rw [← eq_of_beq hzn]
      exact List.mem_map.2 ⟨z, hz, rfl⟩
    · rw [List.filter_cons_of_neg, ih hnd.2 h]
      intro hyn
      apply hnd.1
      rw [eq_of_beq hyn]
      exact List.mem_map.2 ⟨x, h, rfl⟩

theorem column_one (ta : List String) (f : Tree α) (hf : ∃ a kids, f = .group a kids ∧ (kids.map Prod.fst).Nodup) (k : Str) (d : TDs α) (h : InRoot f k d)
    (ht : Timed ta d) : Tod.column (String.ofList k) (itemOf ta f) = d.data := by
  obtain ⟨a, kids, rfl, hnd⟩ := hf
  obtain ⟨a', kids', he, hk⟩ := h
  cases he
  unfold Tod.column
  have hx := (itemOf_dset ta a kids ⟨String.ofList k, d.axes, d.data⟩).2 ⟨k, d, hk, ht, rfl⟩
  have := filter_nodup _ (itemOf_nodup ta a kids hnd) _ hx
  simp only at this
  rw [this]
  simp

/-- Pieces put together. -/
theorem flatMap_pieces {β γ : Type} (R : β → List γ → Prop) (g : β → List γ) (l : List β) (ps : List (List γ)) (h : List.Forall₂ R l ps)
    (hg : ∀ b ∈ l, ∀ p, R b p → g b = p) : l.flatMap g = ps.flatten := by
  induction h with
  | nil => rfl
  | cons h1 h2 ih =>
    rw [List.flatMap_cons, List.flatten_cons, hg _ List.mem_cons_self _ h1, ih fun b hb => hg b (List.mem_cons_of_mem _ hb)]

theorem allIndex_pieces (ta : List String) (files : List (Tree α)) (a : String) (ps : List (List α)) (h : List.Forall₂ (fun f l => HasMap f a l) files ps) :
    Tod.allIndex (files.map (itemOf ta)) a = ps.flatten := by
  unfold Tod.allIndex
  rw [List.flatMap_map]
  apply flatMap_pieces _ _ _ _ h
  intro f _ l hl
  rw [itemOf_index ta f a l hl]
  rfl

/-! ### Nothing else is made by the concatenation -/

theorem copyDset_names (ta : List String) (wanted : Option (List String)) (filt : List α → List α) (S E cur : String → Int) (it : Tod.Item α)
    (ds ds' : String → Option (List (Option α))) (d : Tod.Dset α) (h : Tod.copyDset ta wanted filt S E cur it ds d = .ok ds') (n : String) (hn : ds' n ≠ none) :
    ds n ≠ none ∨ n = d.name := by
  unfold Tod.copyDset at h
  split at h
  · split at h
    · cases h
    · split at h
      · cases h
        exact .inl hn
      · simp only at h
        split at h
        · cases h
        · split at h
          · cases h
          · cases h
            unfold Tod.put at hn
            by_cases he : n = d.name
            · exact .inr he
            · rw [if_neg he] at hn
              exact .inl hn
  · cases h
    exact .inl hn

theorem foldlM_names (ta : List String) (wanted : Option (List String)) (filt : List α → List α) (S E cur : String → Int) (it : Tod.Item α) (l : List (Tod.Dset α))
    (ds ds' : String → Option (List (Option α))) (h : l.foldlM (Tod.copyDset ta wanted filt S E cur it) ds = .ok ds') (n : String) (hn : ds' n ≠ none) :
    ds n ≠ none ∨ ∃ d ∈ l, n = d.name := by
  induction l generalizing ds with
  | nil =>
    cases h
    exact .inl hn
  | cons x l ih =>
    rw [List.foldlM_cons] at h
    cases hx : Tod.copyDset ta wanted filt S E cur it ds x with
    | error e => rw [hx] at h; cases h
    | ok ds1 =>
      rw [hx] at h
      rcases ih ds1 h with h1 | ⟨d, h1, h2⟩
      · rcases copyDset_names ta wanted filt S E cur it ds ds1 x hx n h1 with h2 | h2
        · exact .inl h2
        · exact .inr ⟨x, List.mem_cons_self, h2⟩
      · exact .inr ⟨d, List.mem_cons_of_mem _ h1, h2⟩

theorem items_names (ta : List String) (wanted : Option (List String)) (filt : List α → List α) (S E : String → Int) (l : List (Tod.Item α))
    (st st' : (String → Int) × Tod.Out α) (h : l.foldlM (Tod.copyItem ta wanted filt S E) st = .ok st') (n : String) (hn : st'.2.dsets n ≠ none) :
    st.2.dsets n ≠ none ∨ ∃ it ∈ l, ∃ d ∈ it.dsets, n = d.name := by
  induction l generalizing st with
  | nil =>
    cases h
    exact .inl hn
  | cons x l ih =>
    rw [List.foldlM_cons] at h
    cases hx : Tod.copyItem ta wanted filt S E st x with
    | error e => rw [hx] at h; cases h
    | ok st1 =>
      rw [hx] at h
      rcases ih st1 h with h1 | ⟨it, h1, h2⟩
      · unfold Tod.copyItem at hx
        cases h3 : ta.foldlM (Tod.copyIndex S E st.1 x) st.2.index with
        | error e => rw [h3] at hx; cases hx
        | ok idx =>
          rw [h3] at hx
          cases h4 : x.dsets.foldlM (Tod.copyDset ta wanted filt S E st.1 x) st.2.dsets with
          | error e =>
            simp only [bind, Except.bind, h4] at hx
            cases hx
          | ok ds =>
            simp only [bind, Except.bind, h4, pure, Except.pure] at hx
            cases hx
            rcases foldlM_names ta wanted filt S E st.1 x _ _ _ h4 n h1 with h5 | h5
            · exact .inl h5
            · exact .inr ⟨x, List.mem_cons_self, h5⟩
      · exact .inr ⟨it, List.mem_cons_of_mem _ h1, h2⟩

theorem concatenate_names (ta : List String) (items : List (Tod.Item α)) (start stop : String → Option Int) (wanted : Option (List String)) (out : Tod.Out α)
    (h : Tod.concatenate ta items start stop wanted = .ok out) (n : String) (hn : out.dsets n ≠ none) : ∃ it ∈ items, ∃ d ∈ it.dsets, n = d.name := by
  unfold Tod.concatenate at h
  cases items with
  | nil => cases h
  | cons first rest =>
    simp only at h
    split at h
    · cases h
    · generalize hf : List.foldlM (m := Except Tod.PyErr) _ _ (first :: rest) = r at h
      cases r with
      | error e => cases h
      | ok st =>
        cases h
        rcases items_names ta wanted id _ _ _ _ _ hf n hn with h1 | h1
        · exact absurd rfl h1
        · exact h1

end Verif.Reader
