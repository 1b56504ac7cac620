import Verif.Proto.CreateProps

/-!
# C115: a shape that differs from that of the data
-/
namespace Verif.Proto

open Verif.Dist (NArr MArr Comm IsBlock)
open Verif.Reshape (InShape)

variable {T α : Type} [DecidableEq T]

/-- Data of shape `s` fits a dataset of shape `t`: counted from the last axis, every axis of the data has length one or the
length of that axis of the dataset. -/
def Fits (s t : List Nat) : Prop := ∀ (k : Nat) d, s.reverse[k]? = some d → d = 1 ∨ t.reverse[k]? = some d

/-- `j` is the element of data of shape `s` that goes to place `i`: counted from the last axis its indices are those of `i`,
and zero along axes of length one. -/
def GoesTo (s j i : List Nat) : Prop :=
  j.length = s.length ∧ ∀ (k : Nat) d, s.reverse[k]? = some d → j.reverse[k]? = if d = 1 then some 0 else i.reverse[k]?

theorem npAssign_cond (s t : List Nat) :
    ((s.take (s.length - t.length)).all (· == 1) = true ∧
      Dist.bcast [s.drop (s.length - t.length), t] = some t) ↔ Fits s t := by
  have hm : Dist.maxDim [s.drop (s.length - t.length), t] = t.length :=
    Dist.maxDim_eq _ _ ⟨t, by simp, rfl⟩ (by
      intro x hx
      simp only [List.mem_cons, List.not_mem_nil, or_false] at hx
      rcases hx with rfl | rfl
      · rw [List.length_drop]; omega
      · exact Nat.le_refl _)
  have hdim : ∀ k (hk : k < t.length), ([s.drop (s.length - t.length), t].filterMap fun x => Dist.dimAt t.length x k) =
      (Dist.dimAt t.length (s.drop (s.length - t.length)) k).toList ++ [t[k]] := by
    intro k hk
    have h2 : Dist.dimAt t.length t k = some t[k] := by simp [Dist.dimAt, List.getElem?_eq_getElem hk]
    cases h1 : Dist.dimAt t.length (s.drop (s.length - t.length)) k <;> simp [h1, h2]
  have hback : ∀ k, k < t.length → Dist.dimAt t.length (s.drop (s.length - t.length)) (t.length - 1 - k) = s.reverse[k]? := by
    intro k hk
    unfold Dist.dimAt
    rw [List.length_drop]
    by_cases hks : k < s.length
    · rw [if_pos (by omega), List.getElem?_drop, List.getElem?_reverse hks]
      congr 1
      omega
    · rw [if_neg (by omega), List.getElem?_eq_none (by rw [List.length_reverse]; omega)]
  rw [Dist.bcast_iff, hm]
  simp only [true_and]
  constructor
  · rintro ⟨h1, h2⟩ k d hd
    by_cases hkt : k < t.length
    · have h3 := h2 (t.length - 1 - k) (by omega)
      rw [hdim _ (by omega), hback k hkt, hd, Dist.bdim_iff] at h3
      rcases h3.1 d (by simp) with h | h
      · exact .inl h
      · right
        rw [List.getElem?_reverse hkt, List.getElem?_eq_getElem (by omega), h]
    · left
      obtain ⟨hk, hd'⟩ := List.getElem?_eq_some_iff.1 hd
      rw [List.length_reverse] at hk
      rw [List.getElem_reverse] at hd'
      have := List.all_eq_true.1 h1 d (by
        rw [List.mem_take_iff_getElem]
        exact ⟨s.length - 1 - k, by omega, hd'⟩)
      simpa using this
  · intro h
    refine ⟨List.all_eq_true.2 fun d hd => ?_, fun p hp => ?_⟩
    · obtain ⟨j, hj, rfl⟩ := List.mem_take_iff_getElem.1 hd
      have := h (s.length - 1 - j) s[j] (by
        rw [List.getElem?_reverse (by omega), List.getElem?_eq_getElem (by omega)]
        congr 2
        omega)
      rcases this with h | h
      · simpa using h
      · rw [List.getElem?_eq_none (by rw [List.length_reverse]; omega)] at h
        simp at h
    · have hk : t.length - 1 - (t.length - 1 - p) = p := by omega
      have hb := hback (t.length - 1 - p) (by omega)
      rw [hk] at hb
      rw [hdim p hp, hb, Dist.bdim_iff]
      refine ⟨fun d hd => ?_, .inr (by simp)⟩
      rcases List.mem_append.1 hd with hd | hd
      · rcases h (t.length - 1 - p) d (by simpa using hd) with h | h
        · exact .inl h
        · right
          rw [List.getElem?_reverse (by omega), List.getElem?_eq_getElem (by omega)] at h
          simp only [hk] at h
          exact (Option.some.inj h).symm
      · exact .inr (List.mem_singleton.1 hd)

theorem goesTo_bidx (s i : List Nat) :
    GoesTo s (List.replicate (s.length - i.length) 0 ++ Dist.bidx (s.drop (s.length - i.length)) i) i ∨
      ¬ ∀ d ∈ s.take (s.length - i.length), d = 1 := by
  by_cases h : ∀ d ∈ s.take (s.length - i.length), d = 1
  · left
    have hl : (Dist.bidx (s.drop (s.length - i.length)) i).length = s.length - (s.length - i.length) := by
      rw [Dist.bidx_length _ _ (by rw [List.length_drop]; omega), List.length_drop]
    have hlen : (List.replicate (s.length - i.length) 0 ++ Dist.bidx (s.drop (s.length - i.length)) i).length = s.length := by
      rw [List.length_append, hl, List.length_replicate]; omega
    refine ⟨hlen, fun k d hd => ?_⟩
    obtain ⟨hk, hd'⟩ := List.getElem?_eq_some_iff.1 hd
    rw [List.length_reverse] at hk
    rw [List.getElem_reverse] at hd'
    rw [List.getElem?_reverse (by rw [hlen]; exact hk), hlen]
    by_cases hki : k < i.length
    · rw [List.getElem?_append_right (by rw [List.length_replicate]; omega), List.length_replicate,
        List.getElem?_eq_getElem (by rw [hl]; omega), Dist.bidx_get _ _ (by rw [List.length_drop]; omega) _
          (by rw [List.length_drop]; omega), List.getElem?_reverse hki, List.getElem?_eq_getElem (by omega)]
      have e1 : (s.drop (s.length - i.length))[s.length - 1 - k - (s.length - i.length)]'(by rw [List.length_drop]; omega) = d := by
        rw [List.getElem_drop, ← hd']
        congr 1
        omega
      rw [e1]
      split
      · rfl
      · congr 2
        rw [List.length_drop]
        omega
    · have hd1 : d = 1 := h d (by
        rw [List.mem_take_iff_getElem]
        exact ⟨s.length - 1 - k, by omega, hd'⟩)
      rw [if_pos hd1, List.getElem?_append_left (by rw [List.length_replicate]; omega),
        List.getElem?_replicate, if_pos (by omega)]
  · exact .inr h

/-- Assignment of an array of any shape. -/
theorem npAssign_fits (f : α → α) (dst src : NArr α) :
    (Fits src.shape dst.shape → ∃ A, npAssign f dst src = .ok A ∧ A.shape = dst.shape ∧
      ∀ i, InShape i dst.shape → ∃ j, GoesTo src.shape j i ∧ A.val i = f (src.val j)) ∧
      (¬ Fits src.shape dst.shape → npAssign f dst src = .error .valueError) := by
  have hc := npAssign_cond src.shape dst.shape
  unfold npAssign
  simp only
  refine ⟨fun h => ?_, fun h => ?_⟩
  · have hc' := hc.2 h
    rw [if_pos hc']
    refine ⟨_, rfl, rfl, fun i hi => ?_⟩
    have hl := hi.length
    rcases goesTo_bidx src.shape i with h1 | h1
    · rw [hl] at h1
      exact ⟨_, h1, rfl⟩
    · refine absurd (fun d hd => ?_) h1
      rw [hl] at hd
      simpa using List.all_eq_true.1 hc'.1 d hd
  · rw [if_neg (fun h' => h (hc.1 h'))]

/-- **C115** An ordinary dataset that is to have another shape than the data: it has the shape asked for, and every element
is the one of the data that goes there when the data is repeated along axes of length one and along axes it does not
have; if the data does not fit in this way the call raises a `ValueError`. Nothing is repeated but along such axes. -/
theorem C115_other_shape (L : Libs T α) (g : Group) (q : Request T) (src : Source T α)
    (A : NArr α) (t : T) (hsrc : src = .array A t ∨ src = .disk A t) (hne : A.shape ≠ [])
    (hg : g.comm = none → g.distributed = false) (hd : q.distributed = false ∨ g.comm = none)
    (s : List Nat) (hs : q.shape = some s) (hsne : s ≠ []) (hdiff : s ≠ A.shape) :
    (Fits A.shape s → ∃ D, createDataset L g q src = .ok ⟨.common D, q.dtype.getD t, false⟩ ∧ D.shape = s ∧
      ∀ i, InShape i s → ∃ j, GoesTo A.shape j i ∧ D.val i = L.cast t (q.dtype.getD t) (A.val j)) ∧
      (¬ Fits A.shape s → createDataset L g q src = .error .valueError) := by
  have hgc : ¬ (g.distributed = true ∧ g.comm = none) := fun h => by simp [hg h.2] at h
  have hdist : ((q.distributed && g.comm.isSome) || src.isMpi) = false := by
    rcases hsrc with rfl | rfl <;> rcases hd with h | h <;> simp [h, Source.isMpi]
  have hat : src.attrs = .ok (some (A.shape, t)) := by rcases hsrc with rfl | rfl <;> rfl
  have hdt : (q.dtype.or ((some (A.shape, t)).map (·.2))).getD L.float = q.dtype.getD t := by
    cases q.dtype <;> rfl
  have ht : takes src s (q.dtype.getD t) = false := by
    unfold takes
    rw [hat]
    simp [hdiff]
  have key : createDataset L g q src = .map (⟨·, q.dtype.getD t, false⟩)
      (fillNew (L.cast t (q.dtype.getD t)) (.common ⟨s, fun _ => L.zero (q.dtype.getD t)⟩) A) := by
    unfold createDataset
    rw [if_neg hgc, hat]
    simp only
    rw [hs, Option.some_or]
    simp only
    rw [hdt, hdist, if_neg (by simp), ht]
    rcases hsrc with rfl | rfl <;> rfl
  obtain ⟨n1, n2⟩ := npAssign_fits (L.cast t (q.dtype.getD t)) ⟨s, fun _ => L.zero (q.dtype.getD t)⟩ A
  rw [key]
  unfold fillNew
  rw [if_neg hne]
  simp only
  rw [if_neg hsne]
  refine ⟨fun h => ?_, fun h => ?_⟩
  · obtain ⟨D, h1, h2, h3⟩ := n1 h
    rw [h1]
    exact ⟨D, rfl, h2, h3⟩
  · rw [n2 h]
    rfl

example : Fits [2] [3, 2] ∧ Fits [1, 3, 1] [3, 2] ∧ ¬ Fits [3] [3, 2] ∧ ¬ Fits [2, 2] [2] ∧ GoesTo [1, 3, 1] [0, 2, 0] [2, 1] := by
  refine ⟨?_, ?_, ?_, ?_, ?_⟩
  · intro k d h
    match k with
    | 0 => right; exact h
    | k + 1 => simp at h
  · intro k d h
    match k with
    | 0 => left; simpa using h.symm
    | 1 => right; exact h
    | 2 => left; simpa using h.symm
    | k + 3 => simp at h
  · intro h
    have := h 0 3 rfl
    simp at this
  · intro h
    have := h 1 2 rfl
    simp at this
  · refine ⟨rfl, fun k d h => ?_⟩
    match k with
    | 0 => simp at h; subst h; rfl
    | 1 => simp at h; subst h; rfl
    | 2 => simp at h; subst h; rfl
    | k + 3 => simp at h

end Verif.Proto
