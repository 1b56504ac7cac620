import Verif.Tod.DistributedSpec
import Verif.Dist.GlobalProps
import Verif.Proto.Lemmas
import Mathlib.Tactic.Common

/-!
# Lemmas about the concatenation of distributed datasets
-/
namespace Verif.TodDist

open Verif.Dist
open Verif.Mpi (blockStart blockLen)
open Verif.Reshape (InShape)

variable {α : Type}

/-! ### Selections that are boxes -/

theorem idxOf_range' (i a n : Nat) : (List.range' a n).idxOf? i = if a ≤ i ∧ i < a + n then some (i - a) else none := by
  induction n generalizing a with
  | zero => simp
  | succ n ih =>
    rw [List.range'_succ, List.idxOf?_cons, ih]
    by_cases h : a = i
    · subst h
      simp
    · simp only [beq_iff_eq, h, if_false]
      split_ifs with h1 h2 h2
      · simp only [Option.map_some, Option.some.injEq]
        omega
      · omega
      · omega
      · rfl

theorem positions_range' (n a b : Nat) (h1 : a ≤ b) (h2 : b ≤ n) :
    Slice.Spec.positions n (some (a : Int)) (some (b : Int)) 1 = List.range' a (b - a) := by
  rw [positions_filter]
  have e : n = a + (b - a) + (n - b) := by omega
  have f1 : Slice.Spec.ascFrom n (some (a : Int)) = a := by
    simp only [Slice.Spec.ascFrom]
    split_ifs <;> omega
  have f2 : Slice.Spec.ascTo n (some (b : Int)) = b := by
    simp only [Slice.Spec.ascTo]
    split_ifs <;> omega
  rw [f1, f2]
  conv_lhs => rw [e, List.range_add, List.range_add]
  rw [List.filter_append, List.filter_append]
  rw [List.filter_eq_nil_iff.2, List.filter_eq_self.2, List.filter_eq_nil_iff.2]
  · rw [List.nil_append, List.append_nil, List.range'_eq_map_range]
  · simp
    intros
    omega
  · simp
    intros
    omega
  · simp
    intros
    omega

/-- The entries `es` select the box `bs` (first place and length for every axis) of an array of shape `s`. -/
inductive Boxed : List Idx → List Nat → List (Nat × Nat) → Prop where
  | nil : Boxed [] [] []
  | cons {e : Idx} {es d s} {b : Nat × Nat} {bs} (h1 : axisOf d e = .ok (.kept (List.range' b.1 b.2))) (h2 : e ≠ .newaxis)
      (h3 : e ≠ .ellipsis) (h4 : e.isList = false) (h : Boxed es s bs) : Boxed (e :: es) (d :: s) (b :: bs)

theorem Boxed.append {es fs : List Idx} {s u : List Nat} {bs cs : List (Nat × Nat)} (h : Boxed es s bs) (k : Boxed fs u cs) :
    Boxed (es ++ fs) (s ++ u) (bs ++ cs) := by
  induction h with
  | nil => exact k
  | cons h1 h2 h3 h4 _ ih => exact .cons h1 h2 h3 h4 ih

theorem Boxed.fulls (s : List Nat) : Boxed (List.replicate s.length .full) s (s.map fun d => (0, d)) := by
  induction s with
  | nil => exact .nil
  | cons d s ih =>
    refine .cons ?_ (by simp) (by simp) rfl ih
    rw [axisOf_full, List.range_eq_range']

theorem Boxed.set {es : List Idx} {s : List Nat} {bs : List (Nat × Nat)} (h : Boxed es s bs) (d : Nat) (e : Idx)
    (h1 : axisOf (s.getD d 0) e = .ok (.kept (List.range' (bs.getD d (0, 0)).1 (bs.getD d (0, 0)).2))) (h2 : e ≠ .newaxis)
    (h3 : e ≠ .ellipsis) (h4 : e.isList = false) : Boxed (es.set d e) s bs := by
  induction h generalizing d with
  | nil => exact .nil
  | cons k1 k2 k3 k4 k ih =>
    cases d with
    | zero => exact .cons (by simpa using h1) h2 h3 h4 k
    | succ d => exact .cons k1 k2 k3 k4 (ih d (by simpa using h1))

theorem Boxed.lengths {es : List Idx} {s : List Nat} {bs : List (Nat × Nat)} (h : Boxed es s bs) :
    es.length = s.length ∧ bs.length = s.length := by
  induction h with
  | nil => exact ⟨rfl, rfl⟩
  | cons _ _ _ _ _ ih => simp [ih.1, ih.2]

theorem Boxed.notMem {es : List Idx} {s : List Nat} {bs : List (Nat × Nat)} (h : Boxed es s bs) :
    .newaxis ∉ es ∧ .ellipsis ∉ es ∧ es.any Idx.isList = false := by
  induction h with
  | nil => simp
  | cons _ h2 h3 h4 _ ih =>
    refine ⟨?_, ?_, ?_⟩
    · simp only [List.mem_cons, not_or]
      exact ⟨fun e => h2 e.symm, ih.1⟩
    · simp only [List.mem_cons, not_or]
      exact ⟨fun e => h3 e.symm, ih.2.1⟩
    · rw [List.any_cons, h4, ih.2.2]
      rfl

theorem Boxed.used {es : List Idx} {s : List Nat} {bs : List (Nat × Nat)} (h : Boxed es s bs) : used es = s.length := by
  obtain ⟨h1, h2, -⟩ := h.notMem
  have := used_count es
  rw [List.count_eq_zero.2 h1, List.count_eq_zero.2 h2] at this
  have := h.lengths.1
  omega

/-- What the entries of a box select. -/
def boxAxes (bs : List (Nat × Nat)) : List Ax := bs.map fun b => .kept (List.range' b.1 b.2)

theorem Boxed.walk {es : List Idx} {s : List Nat} {bs : List (Nat × Nat)} (h : Boxed es s bs) : walk es s = .ok (boxAxes bs) := by
  induction h with
  | nil => rfl
  | cons h1 h2 h3 h4 _ ih =>
    rw [walk_cons _ _ _ _ h2, h1, ih]
    rfl

theorem outShape_box (bs : List (Nat × Nat)) : outShape (boxAxes bs) = bs.map (·.2) := by
  induction bs with
  | nil => rfl
  | cons b bs ih =>
    simp only [boxAxes, List.map_cons, outShape, List.length_range'] at ih ⊢
    rw [ih]

/-- Is the index in the box? -/
def InBox (i : List Nat) (bs : List (Nat × Nat)) : Prop := List.Forall₂ (fun i (b : Nat × Nat) => b.1 ≤ i ∧ i < b.1 + b.2) i bs

theorem findIdx_in (bs : List (Nat × Nat)) (i : List Nat) (h : InBox i bs) :
    findIdx (boxAxes bs) i = some (List.zipWith (fun x (b : Nat × Nat) => x - b.1) i bs) := by
  induction h with
  | nil => rfl
  | cons h1 _ ih =>
    simp only [boxAxes, List.map_cons, findIdx, idxOf_range', if_pos h1] at ih ⊢
    rw [ih]
    rfl

theorem findIdx_out (bs : List (Nat × Nat)) (i : List Nat) (hl : i.length = bs.length) (h : ¬ InBox i bs) :
    findIdx (boxAxes bs) i = none := by
  induction bs generalizing i with
  | nil =>
    exact absurd (by rw [List.eq_nil_of_length_eq_zero hl]; exact .nil) h
  | cons b bs ih =>
    cases i with
    | nil => simp at hl
    | cons x i =>
      simp only [boxAxes, List.map_cons, findIdx, idxOf_range'] at ih ⊢
      by_cases h1 : b.1 ≤ x ∧ x < b.1 + b.2
      · rw [if_pos h1]
        simp only
        rw [ih i (by simpa using hl) fun k => h (.cons h1 k)]
      · rw [if_neg h1]

theorem srcIdx_box (bs : List (Nat × Nat)) (j : List Nat) (h : InShape j (bs.map (·.2))) :
    srcIdx (boxAxes bs) j = List.zipWith (fun x (b : Nat × Nat) => x + b.1) j bs := by
  induction bs generalizing j with
  | nil =>
    cases h
    rfl
  | cons b bs ih =>
    cases h with
    | cons h1 h2 =>
      simp only [boxAxes, List.map_cons, srcIdx] at ih ⊢
      rw [ih _ h2]
      simp only [List.zipWith_cons_cons]
      congr 1
      rw [List.getD_eq_getElem _ _ (by simpa using h1), List.getElem_range']
      omega

theorem fits_self (s : List Nat) : fits s s = true := by
  simp only [fits, decide_true, Bool.true_and]
  induction s with
  | nil => rfl
  | cons d s ih => simp only [List.zip_cons_cons, List.all_cons, ih, decide_true, Bool.or_true, Bool.and_self]

theorem broadcast_self {j s : List Nat} (h : InShape j s) : List.zipWith (fun d x => if d = 1 then 0 else x) s j = j := by
  induction h with
  | nil => rfl
  | cons h1 _ ih =>
    rw [List.zipWith_cons_cons, ih]
    congr 1
    split_ifs <;> omega

theorem inBox_sub {bs : List (Nat × Nat)} {i : List Nat} (h : InBox i bs) :
    InShape (List.zipWith (fun x (b : Nat × Nat) => x - b.1) i bs) (bs.map (·.2)) := by
  induction h with
  | nil => exact .nil
  | cons h1 _ ih =>
    refine .cons ?_ ih
    simp only
    omega

/-- Assignment to a box. -/
theorem npSetitem_box (A : NArr (Option α)) (sel es : List Idx) (bs : List (Nat × Nat)) (hb : Boxed es A.shape bs)
    (he : npExpand sel A.shape.length = .ok es) (V : NArr α) (hV : V.shape = bs.map (·.2)) :
    ∃ A', npSetitem A sel V = .ok A' ∧ A'.shape = A.shape ∧
      ∀ i, InShape i A.shape →
        (InBox i bs → A'.val i = some (V.val (List.zipWith (fun x (b : Nat × Nat) => x - b.1) i bs))) ∧
        (¬ InBox i bs → A'.val i = A.val i) := by
  unfold npSetitem
  rw [he]
  simp only
  rw [hb.walk]
  simp only
  rw [outShape_box, ← hV, fits_self, if_pos rfl]
  refine ⟨_, rfl, rfl, fun i hi => ⟨fun h => ?_, fun h => ?_⟩⟩
  · simp only [findIdx_in bs i h]
    rw [broadcast_self]
    rw [hV]
    exact inBox_sub h
  · simp only [findIdx_out bs i (by rw [hb.lengths.2]; exact hi.length) h]

/-- Reading of a box. -/
theorem npGetitem_box (A : NArr α) (sel es : List Idx) (bs : List (Nat × Nat)) (hb : Boxed es A.shape bs)
    (he : npExpand sel A.shape.length = .ok es) :
    ∃ R, npGetitem A sel = .ok R ∧ R.shape = bs.map (·.2) ∧
      ∀ j, InShape j R.shape → R.val j = A.val (List.zipWith (fun x (b : Nat × Nat) => x + b.1) j bs) := by
  unfold npGetitem
  rw [he]
  simp only
  rw [hb.walk]
  have hs : simple es = true := by simp [simple, hb.notMem.2.2]
  simp only
  rw [if_pos hs]
  refine ⟨_, rfl, outShape_box bs, fun j hj => ?_⟩
  simp only [outShape_box] at hj
  simp only [srcIdx_box bs j hj]

/-! ### Selections along one axis -/

/-- `timeSel` with an entry for every axis. -/
def timeAll (t n a b : Nat) : List Idx :=
  List.replicate t .full ++ .sl (some (a : Int)) (some (b : Int)) none :: List.replicate (n - (t + 1)) .full

/-- The box that it selects. -/
def timeBox (s : List Nat) (t a b : Nat) : List (Nat × Nat) := (s.map fun d => (0, d)).set t (a, b - a)

theorem split_at (s : List Nat) (t : Nat) (h : t < s.length) : s = s.take t ++ s.getD t 0 :: s.drop (t + 1) := by
  rw [List.getD_eq_getElem _ _ h, List.getElem_cons_drop, List.take_append_drop]

theorem timeAll_boxed (s : List Nat) (t a b : Nat) (ht : t < s.length) (h1 : a ≤ b) (h2 : b ≤ s.getD t 0) :
    Boxed (timeAll t s.length a b) s (timeBox s t a b) := by
  have hl : (s.take t).length = t := by simp; omega
  have hd : (s.drop (t + 1)).length = s.length - (t + 1) := by simp
  have e1 : timeBox s t a b = (s.take t).map (fun d => (0, d)) ++ (a, b - a) :: (s.drop (t + 1)).map fun d => (0, d) := by
    unfold timeBox
    rw [List.set_eq_take_append_cons_drop, if_pos (by simpa using ht), List.map_take, List.map_drop]
  rw [e1]
  have h := (Boxed.fulls (s.take t)).append (.cons (b := (a, b - a)) (d := s.getD t 0) (e := .sl (some (a : Int)) (some (b : Int)) none)
    (by simp only [axisOf, Option.getD_none, positions_range' _ a b h1 h2]; simp) (by simp) (by simp) rfl (Boxed.fulls (s.drop (t + 1))))
  rw [hl, hd, ← split_at s t ht] at h
  exact h

theorem timeSel_spelled (t n a b : Nat) (ht : t < n) : SpelledOut (timeSel t ((a : Int), (b : Int))) n (timeAll t n a b) := by
  refine ⟨?_, ?_, timeSel t ((a : Int), (b : Int)), [], n - (t + 1), ?_, .inr ⟨rfl, rfl⟩⟩
  · simp [timeAll, List.mem_replicate]
  · rw [timeAll, used_append, used_cons, used_full, used_full]
    simp [Idx.uses]
    omega
  · simp [timeAll, timeSel]

theorem timeBox_shape (s : List Nat) (t a b : Nat) : (timeBox s t a b).map (·.2) = s.set t (b - a) := by
  unfold timeBox
  rw [List.map_set, List.map_map]
  congr 1
  exact List.map_id s

theorem timeBox_get (s : List Nat) (t a b k : Nat) (hk : k < (timeBox s t a b).length) :
    (timeBox s t a b)[k] = if t = k then (a, b - a) else (0, s[k]'(by simpa [timeBox] using hk)) := by
  simp only [timeBox, List.getElem_set]
  split_ifs <;> simp

theorem inBox_time (s i : List Nat) (t a b : Nat) (ht : t < s.length) (h1 : a ≤ b) (hi : InShape i s) :
    InBox i (timeBox s t a b) ↔ a ≤ i.getD t 0 ∧ i.getD t 0 < b := by
  have hl := hi.length
  have hlb : (timeBox s t a b).length = s.length := by simp [timeBox]
  have hit : i.getD t 0 = i[t] := List.getD_eq_getElem _ _ (by omega)
  unfold InBox
  rw [List.forall₂_iff_get]
  constructor
  · rintro ⟨-, h⟩
    have := h t (by omega) (by omega)
    simp only [List.get_eq_getElem, timeBox_get, if_true] at this
    omega
  · intro h
    refine ⟨by omega, fun k k1 k2 => ?_⟩
    simp only [List.get_eq_getElem, timeBox_get]
    obtain ⟨k3, k4⟩ := InShape.get hi k (by omega)
    by_cases hk : t = k
    · subst hk
      simp only [if_true]
      omega
    · simp only [if_neg hk]
      omega

theorem zipWith_sub_time (s i : List Nat) (t a b : Nat) (hl : i.length = s.length) :
    List.zipWith (fun x (b : Nat × Nat) => x - b.1) i (timeBox s t a b) = i.modify t (· - a) := by
  apply List.ext_getElem
  · simp [timeBox, hl]
  · intro k h1 h2
    rw [List.getElem_zipWith, timeBox_get, List.getElem_modify]
    split_ifs <;> simp

theorem zipWith_add_time (s i : List Nat) (t a b : Nat) (hl : i.length = s.length) :
    List.zipWith (fun x (b : Nat × Nat) => x + b.1) i (timeBox s t a b) = i.modify t (· + a) := by
  apply List.ext_getElem
  · simp [timeBox, hl]
  · intro k h1 h2
    rw [List.getElem_zipWith, timeBox_get, List.getElem_modify]
    split_ifs <;> simp

/-- `A[:, ..., a:b]`. -/
theorem npGetitem_time (A : NArr α) (t a b : Nat) (ht : t < A.shape.length) (h1 : a ≤ b) (h2 : b ≤ A.shape.getD t 0) :
    ∃ R, npGetitem A (timeSel t ((a : Int), (b : Int))) = .ok R ∧ R.shape = A.shape.set t (b - a) ∧
      ∀ j, InShape j R.shape → R.val j = A.val (j.modify t (· + a)) := by
  obtain ⟨R, r1, r2, r3⟩ := npGetitem_box A _ _ _ (timeAll_boxed A.shape t a b ht h1 h2)
    ((npExpand_iff _ _ _).2 (timeSel_spelled t _ a b ht))
  rw [timeBox_shape] at r2
  refine ⟨R, r1, r2, fun j hj => ?_⟩
  rw [r3 j hj, zipWith_add_time]
  rw [hj.length, r2, List.length_set]

/-- `A[:, ..., a:b] = V`, for an index that is spelled out in any way. -/
theorem npSetitem_time (A : NArr (Option α)) (t a b : Nat) (ht : t < A.shape.length) (h1 : a ≤ b)
    (sel es : List Idx) (hb : Boxed es A.shape (timeBox A.shape t a b)) (he : npExpand sel A.shape.length = .ok es) (V : NArr α) (hV : V.shape = A.shape.set t (b - a)) :
    ∃ A', npSetitem A sel V = .ok A' ∧ A'.shape = A.shape ∧
      ∀ i, InShape i A.shape → A'.val i = if a ≤ i.getD t 0 ∧ i.getD t 0 < b then some (V.val (i.modify t (· - a))) else A.val i := by
  obtain ⟨A', r1, r2, r3⟩ := npSetitem_box A sel es _ hb he V (by rw [timeBox_shape, hV])
  refine ⟨A', r1, r2, fun i hi => ?_⟩
  obtain ⟨k1, k2⟩ := r3 i hi
  rw [zipWith_sub_time _ _ _ _ _ hi.length] at k1
  rw [inBox_time _ _ _ _ _ ht h1 hi] at k1 k2
  split_ifs with h
  · exact k1 h
  · exact k2 h

/-! ### Steps of the concatenation -/

/-- The ways to concatenate: datasets that every process has; datasets distributed over an axis; and such datasets with
output to a file. -/
inductive Mode where
  | common
  | dist (d : Nat)
  | file (d : Nat)

/-- The axis `t` is not the distributed one. -/
def Mode.Avoids (t : Nat) : Mode → Prop
  | .common => True
  | .dist d => d ≠ t
  | .file d => d ≠ t

/-- Does the mode fit to the flag of the code? -/
def Mode.Flag (dist : Bool) : Mode → Prop
  | .common => True
  | .dist _ => dist = true
  | .file _ => dist = false

/-- `x` is the dataset `G`, as every process has it, or this process's part of it, distributed over an axis; for output to a
file `G` is the part of this process. -/
def InRel (m : Mode) (c : Comm) (G : NArr α) (x : InD α) : Prop :=
  match m with
  | .common => x = .common G
  | .dist d => ∃ A, x = .dist A ∧ IsBlock G d c A
  | .file d => ∃ A G', x = .dist A ∧ IsBlock G' d c A ∧ G = A.arr

/-- The same for a piece. -/
def PieceRel (m : Mode) (c : Comm) (G : NArr α) (x : InD α) : Prop :=
  match m with
  | .dist d => ∃ A, x = .dist A ∧ IsBlock G d c A
  | _ => x = .common G

/-- The same for the output. -/
def OutRel (m : Mode) (c : Comm) (P : NArr (Option α)) (o : OutD α) : Prop :=
  match m with
  | .dist d => ∃ O, o = .dist O ∧ IsBlock P d c O
  | _ => o = .common P

theorem entryAt_full (t n a b d : Nat) (hd : d < n) (hdt : d ≠ t) : EntryAt (timeAll t n a b) d .full d := by
  have hl : ∀ k, (List.replicate k Idx.full).filter (!·.isInt) = List.replicate k .full := fun k => by
    rw [List.filter_eq_self]
    intro x hx
    rw [List.eq_of_mem_replicate hx]
    rfl
  unfold timeAll
  by_cases h : d < t
  · refine ⟨List.replicate d .full, List.replicate (t - (d + 1)) .full ++ .sl (some (a : Int)) (some (b : Int)) none :: List.replicate (n - (t + 1)) .full, ?_, by simp, used_full d, ?_⟩
    · have : List.replicate t Idx.full = List.replicate d .full ++ .full :: List.replicate (t - (d + 1)) .full := by
        rw [← List.replicate_succ, ← List.replicate_add]
        congr 1
        omega
      rw [this]
      simp
    · rw [hl, List.length_replicate]
  · refine ⟨List.replicate t .full ++ .sl (some (a : Int)) (some (b : Int)) none :: List.replicate (d - (t + 1)) .full, List.replicate (n - (d + 1)) .full, ?_, by simp, ?_, ?_⟩
    · have : n - (t + 1) = d - (t + 1) + ((n - (d + 1)) + 1) := by omega
      rw [this, List.replicate_add, List.replicate_succ]
      simp
    · rw [used_append, used_cons, used_full, used_full]
      simp [Idx.uses]
      omega
    · rw [List.filter_append, List.filter_cons, hl, hl]
      simp [Idx.isInt]
      omega

theorem notMem_timeAll (t n a b : Nat) : Idx.newaxis ∉ timeAll t n a b := by simp [timeAll, List.mem_replicate]

theorem simple_timeAll (t n a b : Nat) : simple (timeAll t n a b) = true := by
  simp [simple, timeAll, Idx.isList]

/-- The piece of an input. -/
theorem piece_rel (dist : Bool) (m : Mode) (c : Comm) (hm : m.Flag dist) (G : NArr α) (x : InD α) (hx : InRel m c G x)
    (t a b : Nat) (ht : t < G.shape.length) (hmt : m.Avoids t) (h1 : a ≤ b) (h2 : b ≤ G.shape.getD t 0) :
    ∃ p R, piece dist (timeSel t ((a : Int), (b : Int))) x = .ok p ∧ PieceRel m c R p ∧ R.shape = G.shape.set t (b - a) ∧
      ∀ j, InShape j R.shape → R.val j = G.val (j.modify t (· + a)) := by
  cases m with
  | common =>
    obtain ⟨R, r1, r2, r3⟩ := npGetitem_time G t a b ht h1 h2
    cases hx
    exact ⟨.common R, R, by simp only [piece, r1], rfl, r2, r3⟩
  | dist d =>
    obtain ⟨R, r1, r2, r3⟩ := npGetitem_time G t a b ht h1 h2
    obtain ⟨A, rfl, hA⟩ := hx
    have hd := hA.lt
    obtain ⟨B, b1, b2⟩ := C08_nd_full G d c A hA _ _ (timeSel_spelled t _ a b ht) (notMem_timeAll _ _ _ _) (simple_timeAll _ _ _ _) d
      (entryAt_full t _ a b d hd hmt) R r1
    exact ⟨.dist B, R, by simp only [piece, b1]; exact if_pos hm, ⟨B, rfl, b2⟩, r2, r3⟩
  | file d =>
    obtain ⟨A, G', rfl, hA, rfl⟩ := hx
    have hd := hA.lt
    have hl : A.arr.shape.length = G'.shape.length := by rw [hA.shape, List.length_set]
    have hdt : d ≠ t := hmt
    have hst : A.arr.shape.getD t 0 = G'.shape.getD t 0 := by rw [hA.shape, getD_set_ne _ _ hdt]
    obtain ⟨R, r1, r2, r3⟩ := npGetitem_time G' t a b (by omega) h1 (by omega)
    obtain ⟨B, b1, b2⟩ := C08_nd_full G' d c A hA _ _ (timeSel_spelled t _ a b (by omega)) (notMem_timeAll _ _ _ _) (simple_timeAll _ _ _ _) d
      (entryAt_full t _ a b d hd hmt) R r1
    have hm' : dist = false := hm
    have hRd : R.shape.getD d 0 = G'.shape.getD d 0 := by rw [r2, getD_set_ne _ _ (Ne.symm hdt)]
    have hBs : B.arr.shape = A.arr.shape.set t (b - a) := by rw [b2.shape, hRd, r2, hA.shape, List.set_comm _ _ hdt]
    have hbl := Mpi.block_le (n := G'.shape.getD d 0) (P := c.size) (r := c.rank) hA.rank
    refine ⟨.common B.arr, B.arr, by simp only [piece, b1]; rw [if_neg (by simp [hm'])], rfl, hBs, fun j hj => ?_⟩
    have hj' : InShape (j.modify d (· + blockStart (R.shape.getD d 0) c.size c.rank)) R.shape := by
      rw [b2.shape] at hj
      exact inShape_shift hj (by rw [hRd]; exact hbl)
    have hj2 : InShape (j.modify t (· + a)) A.arr.shape := by
      rw [hBs] at hj
      exact inShape_shift hj (by omega)
    rw [b2.elems j hj, r3 _ hj', hA.elems _ hj2, hRd]
    congr 1
    apply List.ext_getElem
    · simp
    · intro k k1 k2
      simp only [List.getElem_modify]
      split_ifs <;> omega

/-- The output dataset is made. -/
theorem newOut_rel (m : Mode) (c : Comm) (R : NArr α) (p : InD α) (hp : PieceRel m c R p) (t len : Nat) (ht : t < R.shape.length) :
    ∃ o P, newOut c t (len : Int) p = .ok o ∧ OutRel m c P o ∧ P.shape = R.shape.set t len := by
  have e : ∀ s : List Nat, t < s.length → s.take t ++ len :: s.drop (t + 1) = s.set t len := fun s hs => by
    rw [List.set_eq_take_append_cons_drop, if_pos hs]
  have hc : ∃ o P, newOut c t (len : Int) (.common R) = .ok o ∧ o = .common P ∧ P.shape = R.shape.set t len := by
    refine ⟨_, ⟨R.shape.set t len, fun _ => none⟩, ?_, rfl, rfl⟩
    simp only [newOut]
    rw [if_neg (by omega), Int.toNat_natCast, e _ ht]
  cases m with
  | common =>
    cases hp
    exact hc
  | file d =>
    cases hp
    exact hc
  | dist d =>
    obtain ⟨B, rfl, hB⟩ := hp
    have hd := hB.lt
    obtain ⟨P, p1, p2⟩ := Proto.newMArr_block (R.shape.set t len) d c (fun _ => (none : Option α)) (by simpa using hd) hB.rank
    refine ⟨_, P, ?_, ⟨_, rfl, p2⟩, p1⟩
    simp only [newOut]
    rw [if_neg (by omega), hB.axis, hB.gshape]
    simp only [Int.toNat_natCast, e _ ht]

/-- Assignment to a part of a distributed array. -/
theorem setGlobal_block (P : NArr (Option α)) (R : NArr α) (d : Nat) (c : Comm) (O : MArr (Option α)) (B : MArr α) (hO : IsBlock P d c O)
    (hB : IsBlock R d c B) (t a b : Nat) (ht : t < P.shape.length) (hdt : d ≠ t) (h1 : a ≤ b) (h2 : b ≤ P.shape.getD t 0)
    (hR : R.shape = P.shape.set t (b - a)) :
    ∃ O', setGlobal O (timeSel t ((a : Int), (b : Int))) B.arr = .ok O' ∧
      IsBlock ⟨P.shape, fun i => if a ≤ i.getD t 0 ∧ i.getD t 0 < b then some (R.val (i.modify t (· - a))) else P.val i⟩ d c O' := by
  have hd := hO.lt
  have hsp := timeSel_spelled t P.shape.length a b ht
  have hAl : O.arr.shape.length = P.shape.length := by rw [hO.shape]; simp
  obtain ⟨e1, e2, -⟩ := block_get hO
  have e5 : pyGet O.arr.shape (d : Int) = .ok (blockLen (P.shape.getD d 0) c.size c.rank) := by
    rw [pyGet_nat _ _ (by omega)]
    congr 1
    simp only [hO.shape, List.getElem_set_self]
  have hlen : (timeAll t P.shape.length a b).length = P.shape.length := by
    simp [timeAll]
    omega
  have hg : (timeAll t P.shape.length a b)[d]? = some .full := by
    unfold timeAll
    by_cases h : d < t
    · rw [List.getElem?_append_left (by simpa using h), List.getElem?_replicate, if_pos h]
    · rw [List.getElem?_append_right (by simp; omega), List.length_replicate]
      obtain ⟨k, hk⟩ : ∃ k, d - t = k + 1 := ⟨d - t - 1, by omega⟩
      rw [hk, List.getElem?_cons_succ, List.getElem?_replicate, if_pos (by omega)]
  have e4 : pyGet (timeAll t P.shape.length a b) (d : Int) = .ok .full := by
    rw [pyGet_nat _ _ (by omega)]
    congr 1
    rw [List.getElem?_eq_getElem (by omega)] at hg
    exact Option.some.inj hg
  unfold setGlobal
  rw [hO.axis, e1, e2, e5, hAl, resolveExpand_eq _ _ _ hsp (notMem_timeAll _ _ _ _)]
  simp only
  rw [e4]
  simp only
  rw [pySet_nat _ _ _ (by omega)]
  simp only
  generalize hL : blockLen (P.shape.getD d 0) c.size c.rank = L at *
  generalize hoff : blockStart (P.shape.getD d 0) c.size c.rank = off at *
  have hRd : R.shape.getD d 0 = P.shape.getD d 0 := by rw [hR, getD_set_ne _ _ (Ne.symm hdt)]
  by_cases h0 : L = 0
  · have hr : (resolveEntry off (P.shape.getD d 0) L .full).1 = .newaxis := by
      show (if (L : Int) ≤ 0 ∨ (L : Int) < 0 then Idx.newaxis else _) = _
      rw [if_pos (by omega)]
    rw [if_pos hr]
    refine ⟨O, rfl, hd, hO.rank, hO.comm, hO.axis, hO.gshape, hO.shape, hO.lshape, hO.loff, fun i hi => ?_⟩
    rw [hO.shape, hL, h0] at hi
    obtain ⟨k1, k2⟩ := InShape.get hi d (by simpa using hd)
    simp at k2
  · have hr : (resolveEntry off (P.shape.getD d 0) L .full).1 = .sl (some 0) (some (L : Int)) none := by
      show (if (L : Int) ≤ 0 ∨ (L : Int) < 0 then Idx.newaxis
        else .sl (some (max (min 0 (L : Int)) 0)) (some (max (min (L : Int) L) 0)) none) = _
      rw [if_neg (by omega)]
      congr 2 <;> omega
    rw [hr, if_neg (by simp)]
    have hsd : O.arr.shape.getD d 0 = L := by rw [hO.shape, hL, getD_set_self _ _ _ hd]
    have hst : O.arr.shape.getD t 0 = P.shape.getD t 0 := by rw [hO.shape, getD_set_ne _ _ hdt]
    have hb := timeAll_boxed O.arr.shape t a b (by omega) h1 (by omega)
    have hb' := hb.set d (.sl (some 0) (some (L : Int)) none) (by
      have hbd : (timeBox O.arr.shape t a b).getD d (0, 0) = (0, L) := by
        rw [List.getD_eq_getElem _ _ (by simp [timeBox]; omega), timeBox_get, if_neg (Ne.symm hdt)]
        rw [List.getD_eq_getElem _ _ (by omega)] at hsd
        rw [hsd]
      rw [hbd, hsd]
      have := positions_range' L 0 L (by omega) (by omega)
      simp only [Nat.sub_zero] at this
      simp only [axisOf, Option.getD_none]
      rw [if_neg (by simp)]
      exact congrArg (Except.ok ∘ Ax.kept) this) (by simp) (by simp) rfl
    rw [hAl] at hb'
    have hBs : B.arr.shape = O.arr.shape.set t (b - a) := by
      rw [hB.shape, hO.shape, hRd, hR, List.set_comm _ _ (Ne.symm hdt)]
    obtain ⟨A', r1, r2, r3⟩ := npSetitem_time O.arr t a b (by omega) h1 _ _ hb' (npExpand_self _ _ hb'.notMem.2.1 hb'.used) B.arr hBs
    rw [r1]
    refine ⟨_, rfl, hd, hO.rank, hO.comm, rfl, hO.gshape, ?_, ?_, hO.loff, fun i hi => ?_⟩
    · simp only [r2]
      exact hO.shape
    · simp only [r2]
      exact hO.lshape
    · simp only [r2] at hi
      simp only [r3 i hi]
      have hit : (i.modify d (· + blockStart (P.shape.getD d 0) c.size c.rank)).getD t 0 = i.getD t 0 := by
        simp [List.getD_eq_getElem?_getD, hdt]
      rw [hit]
      split_ifs with h
      · congr 1
        have hj : InShape (i.modify t (· - a)) B.arr.shape := by
          rw [hBs]
          have hl := hi.length
          apply inShape_of
          · simpa using hl
          · intro k k1 k2
            rw [List.getElem_modify, List.getElem_set]
            simp only [List.length_set] at k2
            obtain ⟨k3, k4⟩ := InShape.get hi k k2
            by_cases hk : t = k
            · subst hk
              rw [if_pos rfl, if_pos rfl]
              rw [List.getD_eq_getElem _ _ k3] at h
              omega
            · rw [if_neg hk, if_neg hk]
              exact k4
        rw [hB.elems _ hj, hRd]
        congr 1
        apply List.ext_getElem
        · simp
        · intro k k1 k2
          simp only [List.getElem_modify]
          split_ifs <;> omega
      · exact hO.elems i hi

/-- A piece is written. -/
theorem assign_rel (m : Mode) (c : Comm) (P : NArr (Option α)) (o : OutD α) (ho : OutRel m c P o) (R : NArr α) (p : InD α)
    (hp : PieceRel m c R p) (t a b : Nat) (ht : t < P.shape.length) (hmt : m.Avoids t) (h1 : a ≤ b) (h2 : b ≤ P.shape.getD t 0)
    (hR : R.shape = P.shape.set t (b - a)) :
    ∃ o' P', assign (timeSel t ((a : Int), (b : Int))) p o = .ok o' ∧ OutRel m c P' o' ∧ P'.shape = P.shape ∧
      ∀ i, InShape i P.shape → P'.val i = if a ≤ i.getD t 0 ∧ i.getD t 0 < b then some (R.val (i.modify t (· - a))) else P.val i := by
  obtain ⟨A', r1, r2, r3⟩ := npSetitem_time P t a b ht h1 _ _ (timeAll_boxed P.shape t a b ht h1 h2)
    ((npExpand_iff _ _ _).2 (timeSel_spelled t _ a b ht)) R hR
  cases m with
  | common =>
    cases ho
    cases hp
    exact ⟨.common A', A', by simp only [assign, InD.arr, r1], rfl, r2, r3⟩
  | file d =>
    cases ho
    cases hp
    exact ⟨.common A', A', by simp only [assign, InD.arr, r1], rfl, r2, r3⟩
  | dist d =>
    obtain ⟨O, rfl, hO⟩ := ho
    obtain ⟨B, rfl, hB⟩ := hp
    obtain ⟨O', s1, s2⟩ := setGlobal_block P R d c O B hO hB t a b ht hmt h1 h2 hR
    exact ⟨.dist O', _, by simp only [assign, InD.arr, s1], ⟨O', rfl, s2⟩, rfl, fun _ _ => rfl⟩

/-! ### The loop -/

theorem cat_append (t : Nat) (Ds : List (NArr α)) (G : NArr α) (i : List Nat) (ht : t < i.length) :
    Cat t (Ds ++ [G]) i = if i.getD t 0 < total t Ds then Cat t Ds i
      else if i.getD t 0 < total t Ds + G.shape.getD t 0 then some (G.val (i.modify t (· - total t Ds))) else none := by
  induction Ds generalizing i with
  | nil =>
    simp only [List.nil_append, Cat, total, List.map_nil, List.sum_nil, Nat.not_lt_zero, if_false, Nat.zero_add, Nat.sub_zero]
    have : i.modify t (fun x => x) = i := by
      apply List.ext_getElem
      · simp
      · intro k k1 k2
        simp [List.getElem_modify]
    rw [this]
  | cons D Ds ih =>
    have e : total t (D :: Ds) = D.shape.getD t 0 + total t Ds := by simp [total]
    have eg : ∀ n, (i.modify t (· - n)).getD t 0 = i.getD t 0 - n := fun n => by
      rw [List.getD_eq_getElem _ _ (by simpa using ht), List.getElem_modify, if_pos rfl, List.getD_eq_getElem _ _ ht]
    rw [List.cons_append, Cat, Cat, e]
    by_cases h : i.getD t 0 < D.shape.getD t 0
    · rw [if_pos h, if_pos (by omega), if_pos h]
    · rw [if_neg h, if_neg h, ih _ (by simpa using ht), eg]
      have e3 : (i.modify t (· - D.shape.getD t 0)).modify t (· - total t Ds) = i.modify t (· - (D.shape.getD t 0 + total t Ds)) := by
        apply List.ext_getElem
        · simp
        · intro k k1 k2
          simp only [List.getElem_modify]
          split_ifs <;> omega
      rw [e3]
      split_ifs <;> first | rfl | omega

theorem total_append (t : Nat) (Ds : List (NArr α)) (G : NArr α) : total t (Ds ++ [G]) = total t Ds + G.shape.getD t 0 := by
  simp [total]

/-- What was written when the inputs `Ds` are done. -/
def Written (m : Mode) (c : Comm) (t : Nat) (s : List Nat) (S E : Nat) (Ds : List (NArr α)) : Option (OutD α) → Prop
  | none => total t Ds ≤ S
  | some o => ∃ P : NArr (Option α), OutRel m c P o ∧ P.shape = s.set t (E - S) ∧
      ∀ i, InShape i P.shape → i.getD t 0 + S < total t Ds → P.val i = Cat t Ds (i.modify t (· + S))

theorem modify_getD (i : List Nat) (t : Nat) (f : Nat → Nat) (ht : t < i.length) : (i.modify t f).getD t 0 = f (i.getD t 0) := by
  rw [List.getD_eq_getElem _ _ (by simpa using ht), List.getElem_modify, if_pos rfl, List.getD_eq_getElem _ _ ht]

theorem modify_modify_same (i : List Nat) (t : Nat) (f g : Nat → Nat) : (i.modify t f).modify t g = i.modify t (g ∘ f) := by
  apply List.ext_getElem
  · simp
  · intro k k1 k2
    simp only [List.getElem_modify, Function.comp]
    split_ifs <;> rfl

theorem modify_congr_at (i : List Nat) (t : Nat) (f g : Nat → Nat) (h : f (i.getD t 0) = g (i.getD t 0)) : i.modify t f = i.modify t g := by
  apply List.ext_getElem
  · simp
  · intro k k1 k2
    simp only [List.getElem_modify]
    simp only [List.length_modify] at k1
    split_ifs with hk
    · subst hk
      rw [List.getD_eq_getElem _ _ k1] at h
      exact h
    · rfl

/-- The loop over the inputs. -/
theorem concatD_rel (dist : Bool) (m : Mode) (c : Comm) (hm : m.Flag dist) (t : Nat) (s : List Nat) (ht : t < s.length)
    (hmt : m.Avoids t) (S E : Nat) (hSE : S < E) (Gs : List (NArr α)) (xs : List (Nat × InD α))
    (hs : ∀ G ∈ Gs, G.shape = s.set t (G.shape.getD t 0))
    (hx : List.Forall₂ (fun G (x : Nat × InD α) => x.1 = G.shape.getD t 0 ∧ InRel m c G x.2) Gs xs) (Ds : List (NArr α)) (o : Option (OutD α))
    (ho : Written m c t s S E Ds o) :
    ∃ o', concatD dist c t S E (total t Ds : Int) xs o = .ok o' ∧ Written m c t s S E (Ds ++ Gs) o' := by
  induction hx generalizing Ds o with
  | nil => exact ⟨o, rfl, by simpa using ho⟩
  | @cons G x Gs xs hGx hx ih =>
    obtain ⟨n, x⟩ := x
    obtain ⟨rfl, hGx⟩ := hGx
    have hG := hs G List.mem_cons_self
    have hGl : t < G.shape.length := by rw [hG]; simpa using ht
    have ih' := ih fun G h => hs G (List.mem_cons_of_mem _ h)
    have happ : Ds ++ G :: Gs = Ds ++ [G] ++ Gs := by simp
    have hcur : ((total t Ds : Nat) : Int) + (G.shape.getD t 0 : Nat) = (total t (Ds ++ [G]) : Nat) := by
      rw [total_append]; simp
    generalize hn : G.shape.getD t 0 = n at *
    generalize hT : total t Ds = T at *
    have hTot : total t (Ds ++ [G]) = T + n := by rw [total_append, hT, hn]
    simp only [concatD]
    rw [happ]
    by_cases hsk : Tod.skipped (S : Int) (E : Int) (T : Int) n = true
    · rw [if_pos hsk, hcur]
      apply ih'
      simp only [Tod.skipped, Bool.or_eq_true, decide_eq_true_eq] at hsk
      cases o with
      | none =>
        simp only [Written, hTot] at ho ⊢
        omega
      | some o =>
        obtain ⟨P, p1, p2, p3⟩ := ho
        refine ⟨P, p1, p2, fun i hi h => ?_⟩
        have hl : t < i.length := by rw [hi.length, p2]; simpa using ht
        have hiE : i.getD t 0 < E - S := by
          obtain ⟨k1, k2⟩ := InShape.get hi t (by rw [p2]; simpa using ht)
          rw [List.getD_eq_getElem _ _ hl]
          simpa [p2] using k2
        rw [hTot] at h
        have hlt : i.getD t 0 + S < T := by omega
        rw [cat_append _ _ _ _ (by simpa using hl), modify_getD _ _ _ hl, hT, if_pos hlt]
        exact p3 i hi (by rw [hT]; exact hlt)
    · rw [if_neg hsk]
      simp only [Tod.skipped, Bool.or_eq_true, decide_eq_true_eq, not_or] at hsk
      -- the slices
      obtain ⟨a, ha⟩ : ∃ a, a = S - T := ⟨_, rfl⟩
      obtain ⟨b, hb⟩ : ∃ b, b = min n (E - T) := ⟨_, rfl⟩
      obtain ⟨u, hu⟩ : ∃ u, u = T - S := ⟨_, rfl⟩
      have hio : Tod.inOutSlice (S : Int) (E : Int) (T : Int) (n : Int) = (((a : Int), (b : Int)), ((u : Int), ((u + (b - a) : Nat) : Int))) := by
        simp only [Tod.inOutSlice, Prod.mk.injEq]
        refine ⟨⟨?_, ?_⟩, ?_, ?_⟩ <;> omega
      rw [hio]
      simp only
      obtain ⟨p, R, r1, r2, r3, r4⟩ := piece_rel dist m c hm G x hGx t a b hGl hmt (by omega) (by omega)
      rw [r1]
      simp only
      have hR : R.shape = s.set t (b - a) := by rw [r3, hG, List.set_set]
      have hlen : ((E : Int) - S) = ((E - S : Nat) : Int) := by omega
      have hreq : ∃ o1 P, required c t ((E : Int) - S) p o = .ok o1 ∧ OutRel m c P o1 ∧ P.shape = s.set t (E - S) ∧
          ∀ i, InShape i P.shape → i.getD t 0 + S < T → P.val i = Cat t Ds (i.modify t (· + S)) := by
        cases o with
        | none =>
          obtain ⟨o1, P, q1, q2, q3⟩ := newOut_rel m c R p r2 t (E - S) (by rw [hR]; simpa using ht)
          refine ⟨o1, P, by rw [required, hlen]; exact q1, q2, by rw [q3, hR, List.set_set], fun i hi h => ?_⟩
          simp only [Written, hT] at ho
          omega
        | some o =>
          obtain ⟨P, p1, p2, p3⟩ := ho
          exact ⟨o, P, rfl, p1, p2, fun i hi h => p3 i hi (by rw [hT]; exact h)⟩
      obtain ⟨o1, P, q1, q2, q3, q4⟩ := hreq
      rw [q1]
      simp only
      have hPt : P.shape.getD t 0 = E - S := by rw [q3, getD_set_self _ _ _ ht]
      have hPl : t < P.shape.length := by rw [q3]; simpa using ht
      obtain ⟨o2, P', s1, s2, s3, s4⟩ := assign_rel m c P o1 q2 R p r2 t u (u + (b - a)) hPl hmt (by omega) (by rw [hPt]; omega)
        (by rw [hR, q3, List.set_set]; congr 1; omega)
      rw [s1]
      simp only
      rw [hcur]
      apply ih'
      refine ⟨P', s2, by rw [s3, q3], fun i hi h => ?_⟩
      rw [s3] at hi
      have hl : t < i.length := by rw [hi.length]; exact hPl
      have hiE : i.getD t 0 < E - S := by
        obtain ⟨k1, k2⟩ := InShape.get hi t hPl
        rw [List.getD_eq_getElem _ _ hl]
        rw [List.getD_eq_getElem _ _ hPl] at hPt
        omega
      rw [hTot] at h
      rw [s4 i hi, cat_append _ _ _ _ (by simpa using hl), modify_getD _ _ _ hl, hT, hn]
      by_cases hlt : i.getD t 0 + S < T
      · rw [if_pos hlt, if_neg (by omega)]
        exact q4 i hi hlt
      · rw [if_neg hlt, if_pos h, if_pos (by omega)]
        have hj : InShape (i.modify t (· - u)) R.shape := by
          rw [hR]
          apply inShape_of
          · rw [List.length_modify, List.length_set, hi.length, q3, List.length_set]
          · intro k k1 k2
            rw [List.length_set] at k2
            obtain ⟨k3, k4⟩ := InShape.get hi k (by rw [q3]; simpa using k2)
            simp only [q3, List.getElem_set] at k4
            rw [List.getElem_modify, List.getElem_set]
            by_cases hk : t = k
            · subst hk
              rw [if_pos rfl, if_pos rfl]
              rw [List.getD_eq_getElem _ _ k3] at h hlt hiE
              omega
            · rw [if_neg hk] at k4
              rw [if_neg hk, if_neg hk]
              exact k4
        rw [r4 _ hj, modify_modify_same, modify_modify_same]
        congr 2
        apply modify_congr_at
        simp only [Function.comp]
        omega

/-- The whole loop. -/
theorem concatD_window (dist : Bool) (m : Mode) (c : Comm) (hm : m.Flag dist) (t : Nat) (s : List Nat) (ht : t < s.length)
    (hmt : m.Avoids t) (S E : Nat) (hSE : S < E) (Gs : List (NArr α)) (hE : E ≤ total t Gs) (xs : List (Nat × InD α))
    (hs : ∀ G ∈ Gs, G.shape = s.set t (G.shape.getD t 0))
    (hx : List.Forall₂ (fun G (x : Nat × InD α) => x.1 = G.shape.getD t 0 ∧ InRel m c G x.2) Gs xs) :
    ∃ o W, concatD dist c t S E 0 xs none = .ok (some o) ∧ OutRel m c W o ∧ IsWindow t s S E Gs W := by
  obtain ⟨o, h1, h2⟩ := concatD_rel dist m c hm t s ht hmt S E hSE Gs xs hs hx [] none (Nat.zero_le _)
  rw [List.nil_append] at h2
  cases o with
  | none =>
    simp only [Written] at h2
    omega
  | some o =>
    obtain ⟨W, w1, w2, w3⟩ := h2
    have key : ∀ (Gs : List (NArr α)) (i : List Nat), t < i.length → i.getD t 0 < total t Gs → (Cat t Gs i).isSome = true := by
      intro Gs
      induction Gs with
      | nil => intro i _ h; simp [total] at h
      | cons G Gs ih =>
        intro i hl h
        rw [Cat]
        split_ifs with hlt
        · rfl
        · apply ih _ (by simpa using hl)
          rw [modify_getD _ _ _ hl]
          simp only [total, List.map_cons, List.sum_cons] at h ⊢
          omega
    refine ⟨o, W, h1, w1, w2, fun i hi => ?_⟩
    have hl : t < i.length := by rw [hi.length, w2]; simpa using ht
    have hiE : i.getD t 0 < E - S := by
      obtain ⟨k1, k2⟩ := InShape.get hi t (by rw [w2]; simpa using ht)
      rw [List.getD_eq_getElem _ _ hl]
      simpa [w2] using k2
    have e := w3 i hi (by omega)
    refine ⟨e, ?_⟩
    rw [e]
    apply key _ _ (by simpa using hl)
    rw [modify_getD _ _ _ hl]
    omega

/-- A slice along the distributed axis is not distributed. -/
theorem piece_time (dist : Bool) (c : Comm) (G : NArr α) (t : Nat) (A : MArr α) (hA : IsBlock G t c A) (a b : Int) (p : InD α)
    (h : piece dist (timeSel t (a, b)) (.dist A) = .ok p) : ∃ R, p = .common R := by
  have ht := hA.lt
  have hsp : SpelledOut (timeSel t (a, b)) G.shape.length
      (List.replicate t .full ++ .sl (some a) (some b) none :: List.replicate (G.shape.length - (t + 1)) .full) := by
    refine ⟨?_, ?_, timeSel t (a, b), [], G.shape.length - (t + 1), ?_, .inr ⟨rfl, rfl⟩⟩
    · simp [List.mem_replicate]
    · rw [used_append, used_cons, used_full, used_full]
      simp [Idx.uses]
      omega
    · simp [timeSel]
  have e := globalGetitem_eq G t c A hA (timeSel t (a, b)) _ _ _ hsp (by simp [List.mem_replicate]) (used_full t)
  rw [if_pos (by simp [resolveEntry])] at e
  simp only [piece] at h
  split_ifs at e
  · rw [e] at h
    cases h
  · rw [e] at h
    generalize npGetitem A.arr _ = r at h
    cases r with
    | error x => cases h
    | ok R =>
      refine ⟨R, ?_⟩
      exact (Except.ok.inj h).symm

theorem concatD_time (dist : Bool) (c : Comm) (t : Nat) (S E cur : Int) (xs : List (Nat × InD α))
    (hx : ∀ x ∈ xs, ∃ G A, x.2 = .dist A ∧ IsBlock G t c A) (o : Option (OutD α)) (ho : ∀ v, o = some v → ∃ P, v = .common P)
    (o' : Option (OutD α)) (h : concatD dist c t S E cur xs o = .ok o') : ∀ v, o' = some v → ∃ P, v = .common P := by
  induction xs generalizing cur o with
  | nil =>
    cases h
    exact ho
  | cons x xs ih =>
    have hx' : ∀ x ∈ xs, ∃ G A, x.2 = .dist A ∧ IsBlock G t c A := fun x h => hx x (List.mem_cons_of_mem _ h)
    simp only [concatD] at h
    split_ifs at h
    · exact ih _ hx' o ho h
    · obtain ⟨G, A, e, hA⟩ := hx x List.mem_cons_self
      rw [e] at h
      split at h
      · cases h
      · rename_i p hp
        obtain ⟨R, rfl⟩ := piece_time dist c G t A hA _ _ p hp
        split at h
        · cases h
        · rename_i o1 h1
          have h2 : ∃ P, o1 = .common P := by
            cases o with
            | some v =>
              cases h1
              exact ho _ rfl
            | none =>
              simp only [required, newOut] at h1
              split_ifs at h1
              cases h1
              exact ⟨_, rfl⟩
          obtain ⟨P, rfl⟩ := h2
          split at h
          · cases h
          · rename_i o2 h3
            refine ih _ hx' (some o2) (fun v hv => ?_) h
            cases hv
            simp only [assign] at h3
            split at h3
            · cases h3
            · cases h3
              exact ⟨_, rfl⟩

end Verif.TodDist
