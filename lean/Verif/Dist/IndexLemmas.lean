import Verif.Dist.IndexSpec
import Verif.Dist.UfuncLemmas
import Verif.Dist.TransposeLemmas
import Mathlib.Tactic.Common

/-!
# Lemmas about indexing
-/
namespace Verif.Dist

open Verif.Mpi (blockStart blockLen)
open Verif.Reshape (InShape)

variable {α β : Type}

theorem used_cons (e : Idx) (es : List Idx) : used (e :: es) = (if e.uses then 1 else 0) + used es := by
  unfold used
  rw [List.filter_cons]
  cases e.uses <;> simp; omega

theorem used_append (l r : List Idx) : used (l ++ r) = used l + used r := by simp [used]

theorem used_full (k : Nat) : used (List.replicate k .full) = k := by
  induction k with
  | zero => rfl
  | succ k ih => rw [List.replicate_succ, used_cons, ih]; simp [Idx.uses]; omega

theorem used_count (l : List Idx) : used l + l.count .newaxis + l.count .ellipsis = l.length := by
  induction l with
  | nil => rfl
  | cons e l ih =>
    rw [used_cons, List.count_cons, List.count_cons, List.length_cons]
    cases e <;> simp [Idx.uses] <;> omega

theorem ellipsis_not_replicate (k : Nat) : Idx.ellipsis ∉ List.replicate k .full := by
  simp [List.mem_replicate]

theorem flatMap_none (m : List Idx) (f : List Idx) (h : .ellipsis ∉ m) :
    (m.flatMap fun e => if e = .ellipsis then f else [e]) = m := by
  induction m with
  | nil => rfl
  | cons e m ih =>
    simp only [List.mem_cons, not_or] at h
    rw [List.flatMap_cons, ih h.2, if_neg (Ne.symm h.1)]
    rfl

theorem count_zero {l : List Idx} (h : .ellipsis ∉ l) : l.count .ellipsis = 0 := List.count_eq_zero.2 h

/-- `numpy` spells an index out as specified. -/
theorem npExpand_iff (sel : List Idx) (n : Nat) (es : List Idx) :
    npExpand sel n = .ok es ↔ SpelledOut sel n es := by
  unfold npExpand SpelledOut
  constructor
  · intro h
    split at h
    · simp at h
    · rename_i h1
      split at h
      · simp at h
      · rename_i h2
        split at h
        · rename_i h3
          obtain ⟨l, r, rfl⟩ := List.append_of_mem h3
          have hc : (l ++ Idx.ellipsis :: r).count .ellipsis = l.count .ellipsis + r.count .ellipsis + 1 := by
            simp; omega
          have hl : .ellipsis ∉ l := List.count_eq_zero.1 (by omega)
          have hr : .ellipsis ∉ r := List.count_eq_zero.1 (by omega)
          have h := (Except.ok.inj h).symm
          rw [List.flatMap_append, List.flatMap_cons, flatMap_none l _ hl, flatMap_none r _ hr, if_pos rfl] at h
          subst h
          rw [used_append, used_cons] at h2
          refine ⟨?_, ?_, l, r, _, by rw [List.append_assoc], .inl rfl⟩
          · simp [hl, hr]
          · rw [used_append, used_append, used_full, used_append, used_cons]
            simp [Idx.uses] at h2 ⊢
            omega
        · rename_i h3
          have h := (Except.ok.inj h).symm
          subst h
          refine ⟨?_, ?_, sel, [], n - used sel, by simp, .inr ⟨rfl, rfl⟩⟩
          · simp [h3]
          · rw [used_append, used_full]; omega
  · rintro ⟨h1, h2, l, r, k, rfl, rfl | ⟨rfl, rfl⟩⟩
    · simp only [List.mem_append, not_or] at h1
      rw [used_append, used_append, used_full] at h2
      have hu : used (l ++ Idx.ellipsis :: r) = used l + used r := by
        rw [used_append, used_cons]; simp [Idx.uses]
      rw [if_neg (by simp [count_zero h1.1.1, count_zero h1.2]), if_neg (by omega), if_pos (by simp)]
      congr 1
      rw [List.flatMap_append, List.flatMap_cons, flatMap_none l _ h1.1.1, flatMap_none r _ h1.2, if_pos rfl, hu]
      have : n - (used l + used r) = k := by omega
      rw [this, List.append_assoc]
    · simp only [List.mem_append, not_or] at h1
      rw [used_append, used_append, used_full] at h2
      have h3 : used ([] : List Idx) = 0 := rfl
      rw [if_neg (by simp [count_zero h1.1.1]), if_neg (by omega), if_neg h1.1.1]
      congr 1
      have : n - used sel = k := by omega
      rw [this]
      simp

theorem axisMap_length (es : List Idx) (h : .ellipsis ∉ es) (k : Nat) : (axisMap es k).length = used es := by
  induction es generalizing k with
  | nil => rfl
  | cons e es ih =>
    simp only [List.mem_cons, not_or] at h
    rw [used_cons]
    simp only [axisMap]
    cases e <;> simp [ih h.2, Idx.uses] at * <;> omega

/-- The code spells an index out in the same way. -/
theorem sanitize_eq (sel : List Idx) (n : Nat) :
    sanitize sel n = match npExpand sel n with
      | .error _ => .error .indexError
      | .ok es => .ok (es, axisMap es 0, finalMap es 0) := by
  unfold sanitize
  by_cases h1 : 1 < sel.count .ellipsis
  · rw [if_pos h1]; unfold npExpand; rw [if_pos h1]
  · rw [if_neg h1]
    by_cases h3 : .ellipsis ∈ sel
    · obtain ⟨l, r, rfl⟩ := List.append_of_mem h3
      have hc : (l ++ Idx.ellipsis :: r).count .ellipsis = l.count .ellipsis + r.count .ellipsis + 1 := by
        simp; omega
      have hl : .ellipsis ∉ l := List.count_eq_zero.1 (by omega)
      have hr : .ellipsis ∉ r := List.count_eq_zero.1 (by omega)
      have hu : used (l ++ Idx.ellipsis :: r) = used l + used r := by
        rw [used_append, used_cons]; simp [Idx.uses]
      have h4 := used_count (l ++ Idx.ellipsis :: r)
      have hi : (l ++ Idx.ellipsis :: r).idxOf .ellipsis = l.length := by
        rw [List.idxOf_append_of_notMem hl]; simp
      rw [if_neg (show ¬ (l ++ Idx.ellipsis :: r).count .ellipsis = 0 by omega)]
      simp only
      rw [hi]
      by_cases h5 : n < used l + used r
      · rw [if_pos (by omega)]
        unfold npExpand
        rw [if_neg h1, if_pos (by omega)]
      · rw [if_neg (by omega)]
        have h6 : ((n : Int) - (l ++ Idx.ellipsis :: r).length + ((l ++ Idx.ellipsis :: r).count Idx.newaxis : Nat) + 1).toNat
            = n - (used l + used r) := by omega
        rw [h6]
        have h7 : npExpand (l ++ Idx.ellipsis :: r) n =
            .ok (l ++ List.replicate (n - (used l + used r)) .full ++ r) := by
          rw [npExpand_iff]
          refine ⟨by simp [hl, hr], ?_, l, r, _, rfl, .inl rfl⟩
          rw [used_append, used_append, used_full]
          omega
        rw [h7]
        simp only [List.take_left', List.drop_append, Nat.add_sub_cancel_left]
        rw [List.drop_of_length_le (by omega)]
        simp only [List.drop_succ_cons, List.drop_zero, List.nil_append]
        rw [if_neg]
        rw [axisMap_length _ (by simp [hl, hr]), used_append, used_append, used_full]
        omega
    · have h0 : sel.count .ellipsis = 0 := count_zero h3
      rw [if_pos h0]
      have hu : used (sel ++ [Idx.ellipsis]) = used sel := by
        rw [used_append]; rfl
      have h4 := used_count (sel ++ [Idx.ellipsis])
      have hc : (sel ++ [Idx.ellipsis]).count .ellipsis = 1 := by simp [h0]
      have hi : (sel ++ [Idx.ellipsis]).idxOf .ellipsis = sel.length := by
        rw [List.idxOf_append_of_notMem h3]; simp
      simp only
      rw [hi]
      by_cases h5 : n < used sel
      · rw [if_pos (by omega)]
        unfold npExpand
        rw [if_neg h1, if_pos (by omega)]
      · rw [if_neg (by omega)]
        have h6 : ((n : Int) - (sel ++ [Idx.ellipsis]).length + ((sel ++ [Idx.ellipsis]).count Idx.newaxis : Nat) + 1).toNat
            = n - used sel := by omega
        rw [h6]
        have h7 : npExpand sel n = .ok (sel ++ List.replicate (n - used sel) .full) := by
          rw [npExpand_iff]
          refine ⟨by simp [h3], ?_, sel, [], n - used sel, by simp, .inr ⟨rfl, rfl⟩⟩
          rw [used_append, used_full]
          omega
        rw [h7]
        simp only [List.take_left']
        rw [List.drop_of_length_le (by simp), List.append_nil, if_neg]
        rw [axisMap_length _ (by simp [h3]), used_append, used_full]
        omega

/-- An index that is spelled out stays as it is. -/
theorem npExpand_self (es : List Idx) (n : Nat) (h : .ellipsis ∉ es) (hu : used es = n) :
    npExpand es n = .ok es := by
  rw [npExpand_iff]
  exact ⟨h, hu, es, [], 0, by simp, .inr ⟨rfl, rfl⟩⟩

theorem axisMap_at (pre : List Idx) (e : Idx) (post : List Idx) (k : Nat) (h : .ellipsis ∉ pre)
    (he : e ≠ .newaxis) : (axisMap (pre ++ e :: post) k)[used pre]? = some (k + pre.length) := by
  induction pre generalizing k with
  | nil => simp [axisMap, he, used]
  | cons x pre ih =>
    simp only [List.mem_cons, not_or] at h
    have := ih (k + 1) h.2
    rw [used_cons]
    simp only [List.cons_append, axisMap, List.length_cons]
    cases x <;> simp [Idx.uses, Nat.add_comm 1] at * <;> (try rw [this]) <;> (congr 1; omega)

/-- Number of entries that leave an axis in the result. -/
def keeps (es : List Idx) : Nat := (es.filter (!·.isInt)).length

theorem finalMap_at (pre : List Idx) (e : Idx) (post : List Idx) (k : Nat) :
    (finalMap (pre ++ e :: post) k)[pre.length]? =
      some (if e.isInt then none else some (k + keeps pre)) := by
  induction pre generalizing k with
  | nil => cases e <;> simp [finalMap, keeps, Idx.isInt]
  | cons x pre ih =>
    simp only [List.cons_append, List.length_cons]
    cases x with
    | int i =>
      rw [show keeps (.int i :: pre) = keeps pre from rfl]
      exact ih k
    | _ =>
      have := ih (k + 1)
      simp only [finalMap, List.getElem?_cons_succ, this]
      cases e <;> simp [keeps, Idx.isInt] <;> omega

theorem normIndex_lt {n : Nat} {i : Int} {p : Nat} (h : normIndex n i = .ok p) : p < n := by
  unfold normIndex at h
  split at h
  · have := Except.ok.inj h
    split at this <;> omega
  · simp at h

theorem mapM_index_lt {n : Nat} {l : List Int} {ps : List Nat} (h : l.mapM (normIndex n) = .ok ps) :
    ∀ p ∈ ps, p < n := by
  induction l generalizing ps with
  | nil => simp [pure, Except.pure] at h; subst h; simp
  | cons x l ih =>
    rw [List.mapM_cons] at h
    cases hx : normIndex n x with
    | error e => rw [hx] at h; simp [bind, Except.bind] at h
    | ok y =>
      cases hl : l.mapM (normIndex n) with
      | error e => rw [hx, hl] at h; simp [bind, Except.bind] at h
      | ok ys =>
        rw [hx, hl] at h
        simp only [bind, Except.bind, pure, Except.pure, Except.ok.injEq] at h
        subst h
        intro p hp
        rcases List.mem_cons.1 hp with rfl | hp
        · exact normIndex_lt hx
        · exact ih hl p hp

/-- What is selected lies inside the axis. -/
def Ax.Inside (n : Nat) : Ax → Prop
  | .kept ps => ∀ p ∈ ps, p < n
  | .fixed p => p < n
  | .new => False

theorem axisOf_inside {n : Nat} {e : Idx} {a : Ax} (h : axisOf n e = .ok a) : a.Inside n := by
  cases e with
  | int i =>
    simp only [axisOf] at h
    split at h
    · rename_i p hp
      obtain rfl := Except.ok.inj h
      exact normIndex_lt hp
    · simp at h
  | sl s t u =>
    simp only [axisOf] at h
    split at h
    · simp at h
    · obtain rfl := Except.ok.inj h
      intro p hp
      unfold Slice.Spec.positions at hp
      simp only at hp
      split at hp <;> simp at hp <;> exact hp.1
  | list l =>
    simp only [axisOf] at h
    split at h
    · rename_i ps hps
      obtain rfl := Except.ok.inj h
      exact mapM_index_lt hps
    · simp at h
  | newaxis => simp [axisOf] at h
  | ellipsis => simp [axisOf] at h

theorem walk_cons (e : Idx) (es : List Idx) (d : Nat) (s : List Nat) (h : e ≠ .newaxis) :
    walk (e :: es) (d :: s) = match axisOf d e with
      | .error x => .error x
      | .ok a =>
        match walk es s with
        | .ok as => .ok (a :: as)
        | .error x => .error x := by
  cases e <;> first | rfl | exact absurd rfl h

/-- Selections are made axis by axis. -/
theorem walk_append (pre : List Idx) (h : .ellipsis ∉ pre) (es : List Idx) (s1 s : List Nat)
    (hl : s1.length = used pre) :
    walk (pre ++ es) (s1 ++ s) = match walk pre s1 with
      | .error x => .error x
      | .ok as =>
        match walk es s with
        | .ok bs => .ok (as ++ bs)
        | .error x => .error x := by
  induction pre generalizing s1 with
  | nil =>
    have : s1 = [] := List.eq_nil_of_length_eq_zero (by simpa [used] using hl)
    subst this
    simp only [List.nil_append, walk]
    cases walk es s <;> rfl
  | cons e pre ih =>
    simp only [List.mem_cons, not_or] at h
    rw [used_cons] at hl
    by_cases he : e = .newaxis
    · subst he
      have := ih h.2 s1 (by simpa [Idx.uses] using hl)
      simp only [List.cons_append, walk, this]
      cases walk pre s1 with
      | error x => rfl
      | ok as => cases walk es s <;> rfl
    · have hu : e.uses = true := by cases e <;> simp_all [Idx.uses]
      rw [hu] at hl
      cases s1 with
      | nil => simp at hl; omega
      | cons d s1 =>
        have := ih h.2 s1 (by simp at hl; omega)
        simp only [List.cons_append]
        rw [walk_cons _ _ _ _ he, walk_cons _ _ _ _ he, this]
        cases axisOf d e with
        | error x => rfl
        | ok a =>
          simp only
          cases walk pre s1 with
          | error x => rfl
          | ok as => cases walk es s <;> rfl

theorem outShape_append (as bs : List Ax) : outShape (as ++ bs) = outShape as ++ outShape bs := by
  induction as with
  | nil => rfl
  | cons a as ih => cases a <;> simp [outShape, ih]

theorem srcIdx_append (as bs : List Ax) (j k : List Nat) (h : j.length = (outShape as).length) :
    srcIdx (as ++ bs) (j ++ k) = srcIdx as j ++ srcIdx bs k := by
  induction as generalizing j with
  | nil =>
    have : j = [] := List.eq_nil_of_length_eq_zero (by simpa [outShape] using h)
    subst this
    simp [srcIdx]
  | cons a as ih =>
    cases a with
    | fixed p =>
      simp only [outShape] at h
      simp [srcIdx, ih j h]
    | kept ps =>
      cases j with
      | nil => simp [outShape] at h
      | cons x j => simp [srcIdx, ih j (by simpa [outShape] using h)]
    | new =>
      cases j with
      | nil => simp [outShape] at h
      | cons x j => simp [srcIdx, ih j (by simpa [outShape] using h)]

theorem walk_src {es : List Idx} {s : List Nat} {as : List Ax} (h : walk es s = .ok as) {j : List Nat}
    (hj : InShape j (outShape as)) : InShape (srcIdx as j) s := by
  induction es generalizing s as j with
  | nil =>
    cases s with
    | nil =>
      simp only [walk, Except.ok.injEq] at h
      subst h
      exact .nil
    | cons d s => simp [walk] at h
  | cons e es ih =>
    by_cases he : e = .newaxis
    · subst he
      simp only [walk] at h
      split at h
      · rename_i bs hbs
        obtain rfl := Except.ok.inj h
        simp only [outShape] at hj
        cases hj with
        | cons h1 h2 => exact ih hbs h2
      · simp at h
    · cases s with
      | nil => cases e <;> simp_all [walk]
      | cons d s =>
        rw [walk_cons _ _ _ _ he] at h
        split at h
        · simp at h
        · rename_i a ha
          split at h
          · rename_i bs hbs
            obtain rfl := Except.ok.inj h
            have hin := axisOf_inside ha
            cases a with
            | new => exact hin.elim
            | fixed p => exact .cons hin (ih hbs hj)
            | kept ps =>
              simp only [outShape] at hj
              cases hj with
              | cons h1 h2 =>
                refine .cons ?_ (ih hbs h2)
                rw [List.getD_eq_getElem _ _ h1]
                exact hin _ (List.getElem_mem h1)
          · simp at h

theorem positions_all (n : Nat) : Slice.Spec.positions n none none 1 = List.range n := by
  unfold Slice.Spec.positions
  simp only [Int.zero_lt_one, if_true]
  rw [List.filter_eq_self]
  intro g hg
  have := List.mem_range.1 hg
  simp [Slice.Spec.Selects, Slice.Spec.ascFrom, Slice.Spec.ascTo]
  omega

theorem axisOf_full (n : Nat) : axisOf n .full = .ok (.kept (List.range n)) := by
  simp [axisOf, positions_all]

/-- The entries decide how many axes the result has. -/
theorem walk_keeps {es : List Idx} {s : List Nat} {as : List Ax} (h : walk es s = .ok as) :
    (outShape as).length = keeps es := by
  induction es generalizing s as with
  | nil =>
    cases s with
    | nil =>
      simp only [walk, Except.ok.injEq] at h
      subst h
      rfl
    | cons d s => simp [walk] at h
  | cons e es ih =>
    by_cases he : e = .newaxis
    · subst he
      simp only [walk] at h
      split at h
      · rename_i bs hbs
        obtain rfl := Except.ok.inj h
        simp [outShape, ih hbs, keeps, Idx.isInt]
      · simp at h
    · cases s with
      | nil => cases e <;> simp_all [walk]
      | cons d s =>
        rw [walk_cons _ _ _ _ he] at h
        split at h
        · simp at h
        · rename_i a ha
          split at h
          · rename_i bs hbs
            obtain rfl := Except.ok.inj h
            have := ih hbs
            cases e with
            | int i =>
              simp only [axisOf] at ha
              split at ha
              · obtain rfl := Except.ok.inj ha
                simpa [outShape, keeps, Idx.isInt] using this
              · simp at ha
            | sl x y z =>
              simp only [axisOf] at ha
              split at ha
              · simp at ha
              · obtain rfl := Except.ok.inj ha
                simpa [outShape, keeps, Idx.isInt] using this
            | list l =>
              simp only [axisOf] at ha
              split at ha
              · obtain rfl := Except.ok.inj ha
                simpa [outShape, keeps, Idx.isInt] using this
              · simp at ha
            | newaxis => simp at he
            | ellipsis => simp [axisOf] at ha
          · simp at h

theorem modify_middle (l : List β) (x : β) (r : List β) (f : β → β) :
    (l ++ x :: r).modify l.length f = l ++ f x :: r := by
  induction l with
  | nil => simp
  | cons y l ih => simp [ih]

/-- What `getitem` does for an array whose distributed axis is recorded by its own number. -/
theorem getitem_eq (G : NArr α) (a : Nat) (c : Comm) (A : MArr α) (hA : IsBlock G a c A) (sel es : List Idx)
    (h : SpelledOut sel G.shape.length es) (e : Idx) (b : Nat) (he : EntryAt es a e b) :
    getitem A sel =
      if e ≠ .full ∧ e ≠ .sl (some 0) (some (blockLen (G.shape.getD a 0) c.size c.rank : Int)) none then
        (npGetitem A.arr es).map .plain
      else if b = a then (npGetitem A.arr es >>= fun R => finalize A R.shape R >>= fun B => pure (.mpi B))
      else (npGetitem A.arr es >>= fun R => if R.shape = [] then pure (.plain R) else
        viewFrom R b (G.shape.getD a 0) (blockStart (G.shape.getD a 0) c.size c.rank) c >>= fun B =>
          pure (.mpi B)) := by
  have hAl : A.arr.shape.length = G.shape.length := by rw [hA.shape]; simp
  have hlt := hA.lt
  obtain ⟨e1, e2, -⟩ := block_get hA
  obtain ⟨pre, post, rfl, hne, hpre, rfl⟩ := he
  have hel := h.1
  simp only [List.mem_append, List.mem_cons, not_or] at hel
  have h1 := axisMap_at pre e post 0 hel.1 hne
  have h2 := finalMap_at pre e post 0
  have hl1 : a < (axisMap (pre ++ e :: post) 0).length := by rw [← hpre]; exact (List.getElem?_eq_some_iff.1 h1).1
  have e3 : pyGet (axisMap (pre ++ e :: post) 0) (a : Int) = .ok pre.length := by
    rw [pyGet_nat _ _ hl1]
    congr 1
    rw [hpre, List.getElem?_eq_getElem hl1, Nat.zero_add] at h1
    exact Option.some.inj h1
  have e4 : pyGet (pre ++ e :: post) (pre.length : Int) = .ok e := by
    rw [pyGet_nat _ _ (by simp)]; simp
  have e5 : pyGet A.arr.shape (a : Int) = .ok (blockLen (G.shape.getD a 0) c.size c.rank) := by
    rw [pyGet_nat _ _ (by omega)]
    congr 1
    simp only [hA.shape, List.getElem_set_self]
  have e6 : pyGet (finalMap (pre ++ e :: post) 0) (pre.length : Int) =
      .ok (if e.isInt then none else some (keeps pre)) := by
    rw [pyGet_nat _ _ (List.getElem?_eq_some_iff.1 h2).1]
    congr 1
    have h3 := h2
    rw [List.getElem?_eq_getElem (List.getElem?_eq_some_iff.1 h2).1] at h3
    rw [Option.some.inj h3]
    cases e <;> simp
  unfold getitem
  rw [hAl, sanitize_eq, (npExpand_iff _ _ _).2 h]
  simp only [bind, Except.bind]
  rw [hA.axis, e3]
  simp only
  rw [e4]
  simp only
  rw [e5]
  simp only
  split
  · cases npGetitem A.arr (pre ++ e :: post) <;> rfl
  · rename_i hcond
    rw [e6]
    have hns : e.isInt = false := by
      cases e <;> simp [Idx.isInt] at hcond ⊢
    rw [hns]
    simp only
    change (if ((keeps pre : Nat) : Int) = (a : Int) then _ else _) = if keeps pre = a then _ else _
    by_cases hk : keeps pre = a
    · rw [if_pos hk, if_pos (by omega)]
    · rw [if_neg hk, if_neg (by omega), e1, e2, hA.comm]
      cases npGetitem A.arr (pre ++ e :: post) with
      | error x => rfl
      | ok R => rfl

/-- Indexing a block with `:` for the distributed axis selects the block of the selection. -/
theorem npGetitem_block (G : NArr α) (a : Nat) (c : Comm) (A : MArr α) (hA : IsBlock G a c A) (sel es : List Idx)
    (h : SpelledOut sel G.shape.length es) (hs : simple es = true) (b : Nat) (he : EntryAt es a .full b) :
    (∀ R, npGetitem G sel = .ok R → ∃ B, npGetitem A.arr es = .ok B ∧
      R.shape[b]? = G.shape[a]? ∧ B.shape = R.shape.set b (blockLen (G.shape.getD a 0) c.size c.rank) ∧
      ∀ j, InShape j B.shape →
        B.val j = R.val (j.modify b (· + blockStart (G.shape.getD a 0) c.size c.rank))) ∧
    (∀ B, npGetitem A.arr es = .ok B → ∃ R, npGetitem G sel = .ok R) := by
  have hAl : A.arr.shape.length = G.shape.length := by rw [hA.shape]; simp
  have hlt := hA.lt
  obtain ⟨pre, post, rfl, hne, hpre, rfl⟩ := he
  have hel := h.1
  simp only [List.mem_append, List.mem_cons, not_or] at hel
  obtain ⟨s1, N, s2, hG, hs1⟩ : ∃ s1 N s2, G.shape = s1 ++ N :: s2 ∧ s1.length = a := by
    refine ⟨G.shape.take a, G.shape[a], G.shape.drop (a + 1), ?_, by simp; omega⟩
    rw [List.getElem_cons_drop, List.take_append_drop]
  have hN : G.shape.getD a 0 = N := by
    rw [List.getD_eq_getElem?_getD, hG, ← hs1]; simp
  have hAs : A.arr.shape = s1 ++ blockLen N c.size c.rank :: s2 := by
    rw [hA.shape, hN, hG, ← hs1]; simp
  have hw : ∀ d, walk (pre ++ Idx.full :: post) (s1 ++ d :: s2) =
      match walk pre s1 with
      | .error x => .error x
      | .ok as =>
        match walk post s2 with
        | .ok bs => .ok (as ++ .kept (List.range d) :: bs)
        | .error x => .error x := by
    intro d
    rw [walk_append pre hel.1 _ _ _ (by rw [hs1, hpre]), walk_cons _ _ _ _ (by simp), axisOf_full]
    simp only
    cases walk pre s1 with
    | error x => rfl
    | ok as => cases walk post s2 <;> rfl
  have hwG := hw N
  have hwA := hw (blockLen N c.size c.rank)
  have hu : used (pre ++ Idx.full :: post) = G.shape.length := h.2.1
  unfold npGetitem
  rw [hAl, npExpand_self _ _ h.1 hu, (npExpand_iff _ _ _).2 h]
  simp only
  rw [hAs, hwA, hG, hwG]
  cases h1 : walk pre s1 with
  | error x => simp
  | ok as =>
    cases h2 : walk post s2 with
    | error x => simp
    | ok bs =>
      simp only [if_pos hs]
      refine ⟨?_, fun _ _ => ⟨_, rfl⟩⟩
      intro R hR
      obtain rfl := Except.ok.inj hR
      have hk : (pre.filter (!·.isInt)).length = (outShape as).length :=
        (walk_keeps h1).symm
      rw [hk]
      refine ⟨_, rfl, ?_, ?_, ?_⟩
      · rw [outShape_append, ← hs1]; simp [outShape]
      · rw [← hG, hN, outShape_append, outShape_append]; simp [outShape]
      · intro j hj
        simp only at hj ⊢
        rw [← hG, hN]
        have hj0 := hj
        rw [outShape_append] at hj
        obtain ⟨j1, j2, hj1, hj2, rfl⟩ := Reshape.InShape.split hj
        simp only [outShape, List.length_range] at hj2
        cases hj2 with
        | @cons x _ j2 _ hx hj2 =>
          have hl1 := hj1.length
          have hm : (j1 ++ x :: j2).modify (outShape as).length (· + blockStart N c.size c.rank) =
              j1 ++ (x + blockStart N c.size c.rank) :: j2 := by
            rw [← hl1, modify_middle]
          have hsrcin : InShape (srcIdx (as ++ .kept (List.range (blockLen N c.size c.rank)) :: bs) (j1 ++ x :: j2)) A.arr.shape := by
            rw [hAs]
            exact walk_src (by rw [hwA, h1, h2]) hj0
          rw [hA.elems _ hsrcin, hm, srcIdx_append _ _ _ _ hl1, srcIdx_append _ _ _ _ hl1]
          congr 1
          have hl2 : (srcIdx as j1).length = a := by rw [← hs1]; exact (walk_src h1 hj1).length
          have hbl := Mpi.block_le (n := N) (P := c.size) (r := c.rank) hA.rank
          simp only [srcIdx]
          rw [hN, ← hl2, modify_middle]
          rw [List.getD_eq_getElem _ _ (by simpa using hx), List.getD_eq_getElem _ _ (by simp; omega)]
          simp

end Verif.Dist
