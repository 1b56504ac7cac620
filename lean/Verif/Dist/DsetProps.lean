import Verif.Dist.Dset
import Verif.Dist.IndexProps

/-!
# C121: datasets in memory as sequences, and comparing them
-/
namespace Verif.Dist

open Verif.Mpi (blockStart blockLen block_owner sum_blockLen blockStart_last)
open Verif.Reshape (InShape)

variable {α : Type}

/-! ## Specification -/

/-- Row `i` of an array. -/
def IsRow (G : NArr α) (i : Nat) (R : NArr α) : Prop :=
  R.shape = G.shape.tail ∧ ∀ j, InShape j R.shape → R.val j = G.val (i :: j)

/-- Two arrays are the same: shape and elements. -/
def SameArr (same : α → α → Bool) (G H : NArr α) : Prop :=
  G.shape = H.shape ∧ ∀ i, InShape i G.shape → same (G.val i) (H.val i) = true

/-! ## Lemmas -/

theorem mem_places (s i : List Nat) : i ∈ places s ↔ InShape i s := by
  induction s generalizing i with
  | nil =>
    simp only [places, List.mem_singleton, InShape]
    constructor
    · rintro rfl; exact .nil
    · intro h; cases h; rfl
  | cons n s ih =>
    simp only [places, List.mem_flatMap, List.mem_range, List.mem_map]
    constructor
    · rintro ⟨a, ha, j, hj, rfl⟩
      exact .cons ha ((ih j).1 hj)
    · intro h
      cases h with
      | cons h1 h2 => exact ⟨_, h1, _, (ih _).2 h2, rfl⟩

theorem sameArr_iff (same : α → α → Bool) (A B : NArr α) (h : A.shape ≠ [] ∧ B.shape ≠ [] ∨ A.shape = [] ∧ B.shape = []) :
    sameArr same A B = true ↔ SameArr same A B := by
  unfold sameArr SameArr
  rcases h with ⟨h1, h2⟩ | ⟨h1, h2⟩
  · rw [if_neg h1, if_neg h2]
    simp only [Bool.and_eq_true, decide_eq_true_eq, List.all_eq_true, mem_places]
  · rw [if_pos h1]
    simp only [h1, h2, places, List.all_cons, List.all_nil, Bool.and_true, true_and]
    constructor
    · intro h i hi; cases hi; exact h
    · intro h; exact h [] .nil

theorem walk_full (s : List Nat) : walk (List.replicate s.length Idx.full) s = .ok (s.map fun n => .kept (List.range n)) := by
  induction s with
  | nil => rfl
  | cons n s ih =>
    simp only [List.length_cons, List.replicate_succ, List.map_cons]
    rw [walk]
    · have : axisOf n Idx.full = .ok (.kept (List.range n)) := by
        simp only [axisOf, Idx.full, if_neg (show ¬ (none : Option Int) = some 0 by simp), Option.getD_none, positions_all]
      rw [this, ih]
    · simp

theorem outShape_full (s : List Nat) : outShape (s.map fun n => .kept (List.range n)) = s := by
  induction s with
  | nil => rfl
  | cons n s ih => simp [outShape, ih]

theorem srcIdx_full (s j : List Nat) (h : InShape j s) : srcIdx (s.map fun n => .kept (List.range n)) j = j := by
  induction h with
  | nil => rfl
  | cons h1 _ ih => simp [srcIdx, ih, List.getD_eq_getElem?_getD, h1]

theorem spelled_int (i : Nat) (n : Nat) : SpelledOut [.int i] (n + 1) (.int i :: List.replicate n Idx.full) := by
  refine ⟨by simp [List.mem_replicate], ?_, [.int i], [], n, by simp, .inr ⟨rfl, rfl⟩⟩
  unfold used
  rw [List.filter_eq_self.2 (fun x hx => ?_)]
  · simp
  · simp only [List.mem_cons, List.mem_replicate] at hx
    rcases hx with rfl | ⟨_, rfl⟩ <;> rfl

theorem npGetitem_row (G : NArr α) (n : Nat) (s : List Nat) (hs : G.shape = n :: s) (i : Nat) :
    (i < n → ∃ R, npGetitem G [.int i] = .ok R ∧ IsRow G i R) ∧ (n ≤ i → npGetitem G [.int i] = .error .indexError) := by
  have he : npExpand [.int (i : Int)] G.shape.length = .ok (.int i :: List.replicate s.length Idx.full) := by
    rw [npExpand_iff, hs]; exact spelled_int i s.length
  have hsim : simple (.int (i : Int) :: List.replicate s.length Idx.full) = true := by
    simp [simple, List.any_replicate, Idx.isList, Idx.adv, List.filter_replicate]
  have hw : walk (.int (i : Int) :: List.replicate s.length Idx.full) (n :: s) =
      match axisOf n (.int i) with
      | .error x => .error x
      | .ok a => .ok (a :: s.map fun n => .kept (List.range n)) := by
    rw [walk]
    · rw [walk_full]
      cases axisOf n (.int (i : Int)) <;> rfl
    · simp
  constructor
  · intro hi
    have ha : axisOf n (.int (i : Int)) = .ok (.fixed i) := by
      simp only [axisOf, normIndex]
      rw [if_pos (by omega), if_neg (by omega)]
      simp
    rw [ha] at hw
    refine ⟨⟨s, fun j => G.val (i :: srcIdx (s.map fun n => .kept (List.range n)) j)⟩, ?_, by simp [hs], fun j hj => ?_⟩
    · unfold npGetitem
      rw [he]
      simp only [hs, hw, hsim, if_true, outShape, outShape_full, srcIdx]
    · show G.val (i :: srcIdx _ j) = _
      rw [srcIdx_full s j hj]
  · intro hi
    have ha : axisOf n (.int (i : Int)) = .error .indexError := by
      simp only [axisOf, normIndex]
      rw [if_neg (by omega)]
    rw [ha] at hw
    unfold npGetitem
    rw [he]
    simp only [hs, hw]

theorem seqIter_spec {β : Type} (get : Nat → Except PyErr β) (n : Nat) (e : PyErr) (x : Nat → β) (h : ∀ i < n, get i = .ok (x i)) (hn : get n = .error e)
    (fuel i : Nat) (hi : i ≤ n) (hf : n - i < fuel) : seqIter get fuel i = (List.range' i (n - i)).map x := by
  induction fuel generalizing i with
  | zero => omega
  | succ fuel ih =>
    rw [seqIter]
    by_cases hlt : i < n
    · rw [h i hlt]
      simp only
      rw [ih (i + 1) (by omega) (by omega), show n - i = (n - (i + 1)) + 1 by omega, List.range'_succ]
      simp
    · have : i = n := by omega
      subst this
      rw [hn]
      simp

theorem blockLen_lt (n P r : Nat) (hn : 2 ≤ n) (hP : 2 ≤ P) : blockLen n P r < n := by
  unfold blockLen
  have h1 : n / P ≤ n / 2 := Nat.div_le_div_left hP (by omega)
  have h2 := Nat.div_add_mod n P
  split
  · by_cases h3 : n = 2
    · subst h3
      have : 2 / P = 0 := by
        rcases Nat.lt_or_ge 2 P with h | h
        · exact Nat.div_eq_of_lt h
        · have : P = 2 := by omega
          subst this; simp at *
      omega
    · omega
  · omega

/-! ## C121 -/

/-- C121: a common dataset has the length of its first axis, and going through it gives its rows, in order. -/
theorem C121_common (G : NArr α) (n : Nat) (s : List Nat) (hs : G.shape = n :: s) (rest fuel : Nat) (hf : n < fuel) :
    lenDset (.common G rest) = some n ∧ (iterDset fuel (.common G rest)).length = n ∧
      ∀ i < n, ∃ R, (iterDset fuel (.common G rest))[i]? = some (.plain R) ∧ IsRow G i R := by
  have h := npGetitem_row G n s hs
  choose x hx using fun i : Fin n => (h i).1 i.2
  have hit : iterDset fuel (.common G rest) = (List.range' 0 (n - 0)).map fun i => if hi : i < n then Got.plain (x ⟨i, hi⟩) else .plain G := by
    refine seqIter_spec _ n .indexError _ (fun i hi => ?_) ?_ fuel 0 (by omega) (by omega)
    · rw [(hx ⟨i, hi⟩).1]; simp [hi, Except.map]
    · rw [(h n).2 (le_refl _)]; rfl
  refine ⟨by simp [lenDset, hs], by rw [hit]; simp, fun i hi => ⟨x ⟨i, hi⟩, ?_, (hx ⟨i, hi⟩).2⟩⟩
  rw [hit]
  simp [List.getElem?_range', hi]

/-- C121: the length of a dataset that is not distributed over its first axis, on every process. Missing: the first axis
(`C121_first_axis_violated`). -/
theorem C121_length_partial (G : NArr α) (a : Nat) (c : Comm) (A : MArr α) (hA : IsBlock G a c A) (ha : a ≠ 0) (rest : Nat) :
    lenDset (.dist A rest) = G.shape.head? := by
  simp only [lenDset, hA.shape]
  cases h : G.shape with
  | nil => simp
  | cons n s =>
    cases a with
    | zero => exact absurd rfl ha
    | succ a => simp

/-- C121: going through such a dataset gives every process its part of every row, distributed over the axis that the distributed axis became. Missing: the first
axis. -/
theorem C121_rows_partial (G : NArr α) (a : Nat) (c : Comm) (A : MArr α) (hA : IsBlock G a c A) (ha : a ≠ 0) (n : Nat) (hn : G.shape.head? = some n)
    (rest fuel : Nat) (hf : n < fuel) :
    (iterDset fuel (.dist A rest)).length = n ∧
      ∀ i < n, ∃ R B, (iterDset fuel (.dist A rest))[i]? = some (.mpi B) ∧ IsRow G i R ∧ IsBlock R (a - 1) c B := by
  obtain ⟨s, hs⟩ : ∃ s, G.shape = n :: s := by
    cases h : G.shape with
    | nil => rw [h] at hn; simp at hn
    | cons m s => rw [h] at hn; simp at hn; exact ⟨s, by rw [hn]⟩
  have hlt := hA.lt
  rw [hs] at hlt
  simp only [List.length_cons] at hlt
  have hsp : ∀ i : Nat, SpelledOut [.int i] G.shape.length (.int i :: List.replicate s.length Idx.full) := fun i => by rw [hs]; exact spelled_int i s.length
  have hsim : ∀ i : Nat, simple (.int (i : Int) :: List.replicate s.length Idx.full) = true := fun i => by
    simp [simple, List.any_replicate, Idx.isList, Idx.adv, List.filter_replicate]
  have hen : ∀ i : Nat, EntryAt (.int (i : Int) :: List.replicate s.length Idx.full) a .full (a - 1) := by
    intro i
    refine ⟨.int i :: List.replicate (a - 1) Idx.full, List.replicate (s.length - a) Idx.full, ?_, by simp, ?_, ?_⟩
    · rw [List.cons_append]
      congr 1
      rw [← List.replicate_succ, ← List.replicate_add]
      congr 1
      omega
    · unfold used
      rw [List.filter_eq_self.2 (fun x hx => ?_)]
      · simp; omega
      · simp only [List.mem_cons, List.mem_replicate] at hx
        rcases hx with rfl | ⟨_, rfl⟩ <;> rfl
    · simp [Idx.isInt, List.filter_replicate]
  have h := npGetitem_row G n s hs
  have hB : ∀ i : Fin n, ∃ R B, getitem A [.int (i : Nat)] = .ok (.mpi B) ∧ IsRow G i R ∧ IsBlock R (a - 1) c B := by
    intro i
    obtain ⟨R, hR, hrow⟩ := (h i).1 i.2
    obtain ⟨B, h1, h2⟩ := C63_getitem_partial G a c A hA _ _ (hsp i) (hsim i) (a - 1) (hen i) R hR
    exact ⟨R, B, h1, hrow, h2⟩
  choose R B h1 h2 h3 using hB
  have hend : ∃ e, getitem A [.int (n : Nat)] = .error e := by
    cases hg : getitem A [.int (n : Nat)] with
    | error e => exact ⟨e, rfl⟩
    | ok y =>
      obtain ⟨R, hR⟩ := (C63_accepts G a c A hA _ _ (hsp n) (hsim n) (a - 1) (hen n)).1 ⟨y, hg⟩
      rw [(h n).2 (le_refl _)] at hR
      cases hR
  obtain ⟨e, he⟩ := hend
  have hit : iterDset fuel (.dist A rest) = (List.range' 0 (n - 0)).map fun i => if hi : i < n then Got.mpi (B ⟨i, hi⟩) else .mpi A := by
    refine seqIter_spec _ n e _ (fun i hi => ?_) he fuel 0 (by omega) (by omega)
    have := h1 ⟨i, hi⟩
    simp only at this
    rw [this]; simp [hi]
  refine ⟨by rw [hit]; simp, fun i hi => ⟨R ⟨i, hi⟩, B ⟨i, hi⟩, ?_, h2 _, h3 _⟩⟩
  rw [hit]
  simp [List.getElem?_range', hi]

/-- The array of three rows of two, over the second axis: process 0 goes through the first number of each row. -/
example : (iterDset 9 (.dist (⟨⟨[3, 1], fun i => i⟩, [3, 2], 1, [3, 1], [0, 0], ⟨7, 2, 0⟩⟩ : MArr (List Nat)) 0)).length = 3 := by decide +kernel

/-- C121 is violated for the first axis: with at least two rows and two processes every process gives another length than the shape says, and goes through the rows it
holds only, as plain arrays; row 0 is not the first on any process but the first. -/
theorem C121_first_axis_violated (G : NArr α) (n : Nat) (s : List Nat) (hs : G.shape = n :: s) (c : Comm) (A : MArr α) (hA : IsBlock G 0 c A)
    (h2 : 2 ≤ n) (hc : 2 ≤ c.size) (rest fuel : Nat) (hf : n < fuel) :
    lenDset (.dist A rest) = some (blockLen n c.size c.rank) ∧ blockLen n c.size c.rank ≠ n ∧
      (iterDset fuel (.dist A rest)).length = blockLen n c.size c.rank ∧
      ∀ i < blockLen n c.size c.rank, ∃ R, (iterDset fuel (.dist A rest))[i]? = some (.plain R) ∧ IsRow G (blockStart n c.size c.rank + i) R := by
  have hlen := blockLen_lt n c.size c.rank h2 hc
  have hsh : A.arr.shape = blockLen n c.size c.rank :: s := by rw [hA.shape, hs]; simp
  have hel := hA.elems
  rw [hs] at hel
  simp only [List.getD_cons_zero] at hel
  have hg : ∀ i : Nat, getitem A [.int i] = (npGetitem A.arr [.int i]).map .plain := by
    intro i
    refine C63_local G 0 c A hA _ (.int i :: List.replicate s.length Idx.full) (by rw [hs]; exact spelled_int i s.length) (.int i) 0
      ⟨[], _, rfl, by simp, rfl, rfl⟩ (by simp) (by simp)
  obtain ⟨l1, l2, l3⟩ := C121_common A.arr (blockLen n c.size c.rank) s hsh rest fuel (by omega)
  have hit : iterDset fuel (.dist A rest) = iterDset fuel (.common A.arr rest) := by
    simp only [iterDset]
    congr 1
    funext i
    exact hg i
  refine ⟨l1, by omega, by rw [hit]; exact l2, fun i hi => ?_⟩
  obtain ⟨R, e, hr⟩ := l3 i hi
  refine ⟨R, by rw [hit]; exact e, ?_, fun j hj => ?_⟩
  · rw [hr.1, hsh, hs]
    simp
  · rw [hr.2 j hj, hel (i :: j) (by rw [hsh]; exact .cons hi (by rw [hr.1, hsh] at hj; exact hj))]
    simp [Nat.add_comm]

/-- The hypotheses hold, for process 1 of 2 and the rows 0, 1, 2: it has the last row only. -/
example : IsBlock (⟨[3], fun i => i⟩ : NArr (List Nat)) 0 ⟨7, 2, 1⟩ ⟨⟨[1], fun i => i.modify 0 (· + 2)⟩, [3], 0, [1], [2], ⟨7, 2, 1⟩⟩ ∧
    lenDset (.dist (⟨⟨[1], fun i => i.modify 0 (· + 2)⟩, [3], 0, [1], [2], ⟨7, 2, 1⟩⟩ : MArr (List Nat)) 0) = some 1 :=
  ⟨⟨by decide, by decide, rfl, rfl, rfl, rfl, rfl, rfl, fun _ _ => rfl⟩, rfl⟩

theorem inShape_set {i s : List Nat} {a m : Nat} (h : InShape i s) (f : Nat → Nat) (hm : ∀ x, i[a]? = some x → f x < m) : InShape (i.modify a f) (s.set a m) := by
  induction h generalizing a with
  | nil => simp only [List.modify_nil, List.set_nil]; exact .nil
  | cons h1 h2 ih =>
    cases a with
    | zero => simp only [List.modify_zero_cons, List.set_cons_zero]; exact .cons (hm _ rfl) h2
    | succ a => simp only [List.modify_succ_cons, List.set_cons_succ]; exact .cons h1 (ih fun x hx => hm x (by simpa using hx))

theorem inShape_at {i s : List Nat} (h : InShape i s) (a : Nat) (ha : a < s.length) : ∃ x, i[a]? = some x ∧ x < s.getD a 0 := by
  induction h generalizing a with
  | nil => simp at ha
  | cons h1 _ ih =>
    cases a with
    | zero => exact ⟨_, rfl, by simpa using h1⟩
    | succ a => simpa using ih a (by simpa using ha)

theorem modify_back (i : List Nat) (a d : Nat) (h : ∀ x, i[a]? = some x → d ≤ x) : (i.modify a (· - d)).modify a (· + d) = i := by
  induction i generalizing a with
  | nil => simp
  | cons x i ih =>
    cases a with
    | zero => have := h x rfl; simp; omega
    | succ a => simpa using ih a fun y hy => h y (by simpa using hy)

theorem inShape_unset {i s : List Nat} {a m d n : Nat} (h : InShape i (s.set a m)) (hn : s[a]? = some n) (hm : m + d ≤ n) : InShape (i.modify a (· + d)) s := by
  induction s generalizing a i with
  | nil => simp at hn
  | cons k s ih =>
    cases a with
    | zero =>
      simp only [List.getElem?_cons_zero, Option.some.injEq] at hn
      subst hn
      cases h with
      | cons h1 h2 => simp only [List.modify_zero_cons]; exact .cons (by omega) h2
    | succ a =>
      simp only [List.set_cons_succ] at h
      cases h with
      | cons h1 h2 => simp only [List.modify_succ_cons]; exact .cons h1 (ih h2 (by simpa using hn))

/-- C121: two datasets that are distributed over the same axis: they are equal on all processes exactly if they hold the same array (and agree in everything else).
Missing: that all processes answer the same (`C121_disagree_violated`), and other ways of distributing (`C121_axes_violated`, `C121_kinds_violated`). -/
theorem C121_equal_partial (same : α → α → Bool) (G H : NArr α) (a : Nat) (c : Nat → Comm) (P : Nat) (hP : 0 < P) (hc : ∀ r < P, (c r).size = P ∧ (c r).rank = r)
    (A B : Nat → MArr α) (hA : ∀ r < P, IsBlock G a (c r) (A r)) (hB : ∀ r < P, IsBlock H a (c r) (B r)) (m n : Nat) :
    (∀ r < P, eqDset same (.dist (A r) m) (.dist (B r) n) = true) ↔ m = n ∧ SameArr same G H := by
  have hlG := (hA 0 hP).lt
  have hlH := (hB 0 hP).lt
  have hGa : G.shape[a]? = some (G.shape.getD a 0) := by rw [List.getD_eq_getElem?_getD, List.getElem?_eq_getElem hlG]; rfl
  have hloc : ∀ r < P, eqDset same (.dist (A r) m) (.dist (B r) n) = true ↔ m = n ∧ SameArr same (A r).arr (B r).arr := by
    intro r hr
    have h1 : (A r).arr.shape ≠ [] := by rw [(hA r hr).shape]; intro h; have := congrArg List.length h; simp at this; simp [this] at hlG
    have h2 : (B r).arr.shape ≠ [] := by rw [(hB r hr).shape]; intro h; have := congrArg List.length h; simp at this; simp [this] at hlH
    simp only [eqDset, Bool.and_eq_true, decide_eq_true_eq]
    rw [sameArr_iff same _ _ (.inl ⟨h1, h2⟩)]
  constructor
  · intro h
    have h' := fun r hr => (hloc r hr).1 (h r hr)
    refine ⟨(h' 0 hP).1, ?_⟩
    have hsh : ∀ r < P, G.shape.set a (blockLen (G.shape.getD a 0) P r) = H.shape.set a (blockLen (H.shape.getD a 0) P r) := by
      intro r hr
      have := (h' r hr).2.1
      rw [(hA r hr).shape, (hB r hr).shape, (hc r hr).1, (hc r hr).2] at this
      exact this
    have hlen : G.shape.length = H.shape.length := by
      have := congrArg List.length (hsh 0 hP); simpa using this
    have hN : G.shape.getD a 0 = H.shape.getD a 0 := by
      have hbl : ∀ r < P, blockLen (G.shape.getD a 0) P r = blockLen (H.shape.getD a 0) P r := by
        intro r hr
        have := congrArg (fun l => l[a]?) (hsh r hr)
        simpa [List.getElem?_set_self hlG, List.getElem?_set_self hlH] using this
      rw [← blockStart_last (G.shape.getD a 0) P hP, ← blockStart_last (H.shape.getD a 0) P hP, ← sum_blockLen, ← sum_blockLen]
      congr 1
      exact List.map_congr_left fun r hr => hbl r (List.mem_range.1 hr)
    have hGH : G.shape = H.shape := by
      have h0 := hsh 0 hP
      apply List.ext_getElem?
      intro k
      by_cases hk : k = a
      · subst hk
        rw [hGa, hN, List.getD_eq_getElem?_getD, List.getElem?_eq_getElem hlH]; rfl
      · have := congrArg (fun l => l[k]?) h0
        simpa [List.getElem?_set_ne (Ne.symm hk)] using this
    refine ⟨hGH, fun i hi => ?_⟩
    obtain ⟨x, hx, hxn⟩ := inShape_at hi a hlG
    obtain ⟨r, hr, h1, h2⟩ := block_owner (G.shape.getD a 0) P hP x hxn
    have hmem : InShape (i.modify a (· - blockStart (G.shape.getD a 0) P r)) (A r).arr.shape := by
      rw [(hA r hr).shape, (hc r hr).1, (hc r hr).2]
      refine inShape_set hi _ fun y hy => ?_
      rw [hx] at hy
      cases hy
      omega
    have hs := (h' r hr).2.2 _ hmem
    rw [(hA r hr).elems _ hmem, (hB r hr).elems _ (by rw [← (h' r hr).2.1]; exact hmem), (hc r hr).1, (hc r hr).2, ← hN,
      modify_back _ _ _ (fun y hy => by rw [hx] at hy; cases hy; exact h1)] at hs
    exact hs
  · rintro ⟨rfl, hGH, hel⟩ r hr
    refine (hloc r hr).2 ⟨rfl, ?_, fun i hi => ?_⟩
    · rw [(hA r hr).shape, (hB r hr).shape, hGH]
    · have hi' : InShape i (B r).arr.shape := by
        rw [(hB r hr).shape, ← hGH, ← (hA r hr).shape]; exact hi
      rw [(hA r hr).elems _ hi, (hB r hr).elems _ hi', ← hGH]
      apply hel
      rw [(hA r hr).shape, (hc r hr).1, (hc r hr).2] at hi
      rw [(hc r hr).1, (hc r hr).2]
      refine inShape_unset hi hGa ?_
      have := Verif.Mpi.block_le (G.shape.getD a 0) P hr
      omega

/-- Process `r` of two, and its part of a list of two numbers. -/
def two (r : Nat) : Comm := ⟨7, 2, r⟩

def partOf (f : Nat → Nat) (r : Nat) : MArr Nat := ⟨⟨[1], fun i => f (i.getD 0 0 + r)⟩, [2], 0, [1], [r], two r⟩

theorem partOf_block (f : Nat → Nat) (r : Nat) (hr : r < 2) : IsBlock (⟨[2], fun i => f (i.getD 0 0)⟩ : NArr Nat) 0 (two r) (partOf f r) := by
  have h : ∀ d i, InShape i [1] → f (i.getD 0 0 + d) = f ((i.modify 0 (· + d)).getD 0 0) := by
    intro d i hi
    cases hi with
    | cons h1 h2 => simp
  have hs : blockStart 2 2 r = r := by
    rcases r with _ | _ | r
    · decide
    · decide
    · omega
  have hl : blockLen 2 2 r = 1 := by
    rcases r with _ | _ | r
    · decide
    · decide
    · omega
  refine ⟨by simp, by simpa [two] using hr, rfl, rfl, rfl, ?_, rfl, ?_, ?_⟩
  · simp [partOf, two, hl]
  · simp [partOf, two, hs]
  · intro i hi
    have := h r i hi
    simp only [partOf, two, List.getD_cons_zero, hs]
    exact this

/-- The hypotheses of `C121_equal_partial` hold for two lists on two processes. -/
example : ∀ r < 2, (two r).size = 2 ∧ (two r).rank = r ∧ IsBlock (⟨[2], fun i => i.getD 0 0⟩ : NArr Nat) 0 (two r) (partOf id r) :=
  fun r hr => ⟨rfl, rfl, partOf_block id r hr⟩

/-- C121 is violated: for any two lists of two numbers that agree in the first and differ in the second, process 0 says that they are equal and process 1 that they
are not. -/
theorem C121_disagree_violated (f g : Nat → Nat) (h0 : f 0 = g 0) (h1 : f 1 ≠ g 1) (m : Nat) :
    eqDset (· == ·) (.dist (partOf f 0) m) (.dist (partOf g 0) m) = true ∧ eqDset (· == ·) (.dist (partOf f 1) m) (.dist (partOf g 1) m) = false := by
  constructor
  · simp [eqDset, sameArr, partOf, places, h0]
  · simp [eqDset, sameArr, partOf, places, h1]

example : eqDset (· == ·) (.dist (partOf id 0) 3) (.dist (partOf (· * 5) 0) 3) = true := (C121_disagree_violated id (· * 5) rfl (by decide) 3).1

/-- C121 is violated: the same array, distributed over two different axes, is different on every process whose part has different shapes. -/
theorem C121_axes_violated (same : α → α → Bool) (G : NArr α) (a b : Nat) (c : Comm) (A B : MArr α) (hA : IsBlock G a c A) (hB : IsBlock G b c B) (hab : a ≠ b)
    (h2 : 2 ≤ G.shape.getD a 0) (hc : 2 ≤ c.size) (m : Nat) : eqDset same (.dist A m) (.dist B m) = false := by
  have hne : A.arr.shape ≠ B.arr.shape := by
    rw [hA.shape, hB.shape]
    intro h
    have := congrArg (fun l => l[a]?) h
    simp only [List.getElem?_set_self hA.lt, List.getElem?_set_ne (Ne.symm hab)] at this
    have hl := blockLen_lt (G.shape.getD a 0) c.size c.rank h2 hc
    rw [List.getElem?_eq_getElem hA.lt] at this
    rw [List.getD_eq_getElem?_getD, List.getElem?_eq_getElem hA.lt] at this hl
    simp only [Option.getD_some, Option.some.injEq] at this hl
    omega
  have h1 : A.arr.shape ≠ [] := by rw [hA.shape]; intro h; have := congrArg List.length h; simp at this; have := hA.lt; simp_all
  have h3 : B.arr.shape ≠ [] := by rw [hB.shape]; intro h; have := congrArg List.length h; simp at this; have := hA.lt; simp_all
  simp [eqDset, sameArr, h1, h3, hne]

example : IsBlock (⟨[2, 2], fun i => i⟩ : NArr (List Nat)) 0 (two 0) ⟨⟨[1, 2], fun i => i.modify 0 (· + 0)⟩, [2, 2], 0, [1, 2], [0, 0], two 0⟩ ∧
    IsBlock (⟨[2, 2], fun i => i⟩ : NArr (List Nat)) 1 (two 0) ⟨⟨[2, 1], fun i => i.modify 1 (· + 0)⟩, [2, 2], 1, [2, 1], [0, 0], two 0⟩ :=
  ⟨⟨by decide, by decide, rfl, rfl, rfl, rfl, rfl, rfl, fun _ _ => rfl⟩, ⟨by decide, by decide, rfl, rfl, rfl, rfl, rfl, rfl, fun _ _ => rfl⟩⟩

/-- C121 is violated: a common dataset and a distributed one are never equal, even with one process, which holds the whole array either way. -/
theorem C121_kinds_violated (same : α → α → Bool) (G : NArr α) (A : MArr α) (m n : Nat) :
    eqDset same (.common G m) (.dist A n) = false ∧ eqDset same (.dist A n) (.common G m) = false := ⟨rfl, rfl⟩

/-- C121: common datasets are equal exactly if they hold the same array, if both have axes or both have none. Missing: one with axes and one without
(`C121_no_axes_violated`). -/
theorem C121_common_equal_partial (same : α → α → Bool) (G H : NArr α) (h : G.shape ≠ [] ∧ H.shape ≠ [] ∨ G.shape = [] ∧ H.shape = []) (m n : Nat) :
    eqDset same (.common G m) (.common H n) = true ↔ m = n ∧ SameArr same G H := by
  simp only [eqDset, Bool.and_eq_true, decide_eq_true_eq, sameArr_iff same G H h]

example : eqDset (· == ·) (.common ⟨[2], fun i => i⟩ 0) (.common ⟨[2], fun i => i⟩ 0 : Dset (List Nat)) = true ∧
    eqDset (· == ·) (.common ⟨[2], fun i => i⟩ 0) (.common ⟨[2, 1], fun i => i⟩ 0 : Dset (List Nat)) = false := by decide +kernel

/-- C121 is violated: a dataset that holds one number without axes is equal to every dataset that holds this number in all its places, whatever its shape, and to every
one without elements. -/
theorem C121_no_axes_violated (same : α → α → Bool) (x : α) (hx : same x x = true) (s : List Nat) (m : Nat) :
    eqDset same (.common ⟨[], fun _ => x⟩ m) (.common ⟨s, fun _ => x⟩ m) = true ∧
    (∀ v : List Nat → α, eqDset same (.common ⟨[], fun _ => x⟩ m) (.common ⟨0 :: s, v⟩ m) = true) := by
  constructor
  · simp [eqDset, sameArr, hx]
  · intro v
    simp [eqDset, sameArr, places]

end Verif.Dist
