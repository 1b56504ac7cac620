import Verif.Tod.Spec
import Verif.Common.Lists

namespace Verif.Tod
variable {α : Type}

/-- What positions `S` to `E` of a partly known sequence show. -/
def view (S E : Int) (l : List α) : List (Option α) :=
  (List.range (E - S).toNat).map fun (i : Nat) => if 0 ≤ S + i then l[(S + i).toNat]? else none

theorem view_length (S E : Int) (l : List α) : (view S E l).length = (E - S).toNat := by
  simp [view]

theorem view_getElem? (S E : Int) (l : List α) (i : Nat) :
    (view S E l)[i]? = if i < (E - S).toNat then
      some (if 0 ≤ S + i then l[(S + i).toNat]? else none) else none := by
  unfold view
  by_cases h : i < (E - S).toNat
  · simp [h]
  · simp [h]

theorem view_nil (S E : Int) : view S E ([] : List α) = List.replicate (E - S).toNat none := by
  apply List.ext_getElem?
  intro i
  rw [view_getElem?, List.getElem?_replicate]
  simp

theorem view_skip (S E : Int) (l p : List α) (h : skipped S E l.length p.length = true) :
    view S E (l ++ p) = view S E l := by
  simp only [skipped, Bool.or_eq_true, decide_eq_true_eq] at h
  apply List.ext_getElem?
  intro i
  rw [view_getElem?, view_getElem?]
  by_cases hi : i < (E - S).toNat
  · rw [if_pos hi, if_pos hi]
    congr 1
    by_cases hs : 0 ≤ S + i
    · rw [if_pos hs, if_pos hs]
      rcases h with h | h
      · rw [List.getElem?_append_left (by omega)]
      · rw [List.getElem?_eq_none (by simp; omega), List.getElem?_eq_none (by omega)]
    · rw [if_neg hs, if_neg hs]
  · rw [if_neg hi, if_neg hi]

theorem setAt_eq (out : List (Option α)) (lo k : Nat) (vals : List α) (h : vals.length = k) :
    setAt out lo k vals = .ok (out.take lo ++ vals.map some ++ out.drop (lo + k)) := by
  unfold setAt; rw [if_pos h]

theorem view_set (S E : Int) (l p : List α) (n : Nat) (hn : p.length = n)
    (h : skipped S E l.length n = false) (hSE : S ≤ E) :
    setSlice (view S E l) (inOutSlice S E l.length n).2
      (getSlice p (inOutSlice S E l.length n).1) = .ok (view S E (l ++ p)) := by
  simp only [skipped, Bool.or_eq_false_iff, decide_eq_false_iff_not] at h
  obtain ⟨h1, h2⟩ := h
  subst hn
  obtain ⟨c, hc⟩ : ∃ c : Nat, c = l.length := ⟨_, rfl⟩
  obtain ⟨n, hn⟩ : ∃ n : Nat, n = p.length := ⟨_, rfl⟩
  have e1 : bound p.length (max 0 (S - l.length)) = (max 0 (S - l.length)).toNat := by
    unfold bound; rw [if_neg (by omega)]; congr 1; omega
  have e2 : bound p.length (min (p.length : Int) (E - l.length))
      = (min (p.length : Int) (E - l.length)).toNat := by
    unfold bound; rw [if_neg (by omega)]; congr 1; omega
  have e3 : bound (E - S).toNat (max 0 (l.length - S)) = (max 0 (l.length - S)).toNat := by
    unfold bound; rw [if_neg (by omega)]; congr 1; omega
  have e4 : bound (E - S).toNat (min (E - S) (l.length - S + p.length))
      = (min (E - S) (l.length - S + p.length)).toNat := by
    unfold bound; rw [if_neg (by omega)]; congr 1; omega
  have hlen : (getSlice p (inOutSlice S E l.length p.length).1).length
      = (min (p.length : Int) (E - l.length)).toNat - (max 0 (S - l.length)).toNat := by
    simp only [getSlice, inOutSlice, e1, e2, List.length_take, List.length_drop]
    omega
  unfold setSlice
  simp only [inOutSlice] at hlen ⊢
  rw [view_length, e3, e4, setAt_eq _ _ _ _ (by rw [hlen]; omega)]
  congr 1
  apply List.ext_getElem?
  intro i
  rw [view_getElem?]
  have hvl := view_length S E l
  have hgl : (getSlice p (max 0 (S - l.length), min (p.length : Int) (E - l.length))).length
      = (min (p.length : Int) (E - l.length)).toNat - (max 0 (S - l.length)).toNat := hlen
  by_cases hi : i < (E - S).toNat
  · rw [if_pos hi]
    by_cases ha : i < (max 0 (l.length - S)).toNat
    · rw [List.append_assoc, List.getElem?_append_left (by simp; omega),
        List.getElem?_take_of_lt ha, view_getElem?, if_pos hi]
      congr 1
      by_cases hs : 0 ≤ S + i
      · rw [if_pos hs, if_pos hs, List.getElem?_append_left (by omega)]
      · rw [if_neg hs, if_neg hs]
    · by_cases hb : i < (min (E - S) (l.length - S + p.length)).toNat
      · rw [List.append_assoc, List.getElem?_append_right (by simp; omega),
          List.getElem?_append_left (by simp only [List.length_map, hgl, List.length_take]; omega)]
        simp only [getSlice, e1, e2, List.getElem?_map, List.length_take, hvl]
        rw [List.getElem?_take_of_lt (by omega), List.getElem?_drop, if_pos (by omega),
          List.getElem?_append_right (by omega)]
        rw [show (max 0 (S - (l.length : Int))).toNat +
          (i - min (max 0 ((l.length : Int) - S)).toNat (E - S).toNat) = (S + i).toNat - l.length
          by omega]
        rw [List.getElem?_eq_getElem (by omega)]
        rfl
      · rw [List.getElem?_append_right (by
          simp only [List.length_append, List.length_map, hgl, List.length_take]; omega)]
        simp only [List.length_append, List.length_map, hgl, List.length_take, hvl,
          List.getElem?_drop]
        rw [show (max 0 ((l.length : Int) - S)).toNat +
          ((min (E - S) ((l.length : Int) - S + p.length)).toNat - (max 0 ((l.length : Int) - S)).toNat)
          + (i - (min (max 0 ((l.length : Int) - S)).toNat (E - S).toNat +
            ((min (p.length : Int) (E - l.length)).toNat - (max 0 (S - (l.length : Int))).toNat))) = i
          by omega]
        rw [view_getElem?, if_pos hi]
        congr 1
        by_cases hs : 0 ≤ S + i
        · rw [if_pos hs, if_pos hs, List.getElem?_eq_none (by omega),
            List.getElem?_eq_none (by simp; omega)]
        · rw [if_neg hs, if_neg hs]
  · rw [if_neg hi, List.getElem?_eq_none]
    simp only [List.length_append, List.length_map, hgl, List.length_take, hvl, List.length_drop]
    omega

/-- A loop that updates one key of a mapping per turn, each key once. -/
theorem foldlM_keys {κ β γ : Type} (f : (κ → Option β) → γ → Except PyErr (κ → Option β))
    (key : γ → κ) (Pre Post : γ → Option β → Prop) (xs : List γ) (hnd : (xs.map key).Nodup)
    (hf : ∀ x ∈ xs, ∀ g, Pre x (g (key x)) → ∃ g', f g x = .ok g' ∧ Post x (g' (key x)) ∧
      ∀ k, k ≠ key x → g' k = g k)
    (g : κ → Option β) (hg : ∀ x ∈ xs, Pre x (g (key x))) :
    ∃ g', xs.foldlM f g = .ok g' ∧ (∀ x ∈ xs, Post x (g' (key x))) ∧
      ∀ k, k ∉ xs.map key → g' k = g k := by
  induction xs generalizing g with
  | nil => exact ⟨g, rfl, by simp, fun _ _ => rfl⟩
  | cons x xs ih =>
    rw [List.map_cons, List.nodup_cons] at hnd
    obtain ⟨g1, h1, hp1, hk1⟩ := hf x (by simp) g (hg x (by simp))
    have hne : ∀ y ∈ xs, key y ≠ key x := by
      intro y hy e
      exact hnd.1 (e ▸ List.mem_map_of_mem hy)
    obtain ⟨g2, h2, hp2, hk2⟩ := ih hnd.2 (fun y hy => hf y (List.mem_cons_of_mem _ hy)) g1 (by
      intro y hy
      rw [hk1 _ (hne y hy)]
      exact hg y (List.mem_cons_of_mem _ hy))
    refine ⟨g2, ?_, ?_, ?_⟩
    · rw [List.foldlM_cons, h1]; exact h2
    · intro y hy
      rcases List.mem_cons.1 hy with e | hy
      · subst e
        rw [hk2 _ hnd.1]; exact hp1
      · exact hp2 y hy
    · intro k hk
      rw [List.map_cons, List.mem_cons] at hk
      rw [hk2 k (fun h => hk (.inr h)), hk1 k (fun h => hk (.inl h))]

theorem totalLen_nil (a : Axis) : totalLen ([] : List (Item α)) a = 0 := rfl

theorem totalLen_append (p : List (Item α)) (it : Item α) (a : Axis) :
    totalLen (p ++ [it]) a = totalLen p a + lenOf it a := by simp [totalLen]

theorem allIndex_length (items : List (Item α)) (a : Axis) :
    (allIndex items a).length = totalLen items a := by
  induction items with
  | nil => rfl
  | cons it items ih =>
    have : ((it.index a).getD []).length = lenOf it a := by
      unfold lenOf; cases it.index a <;> rfl
    simp only [allIndex, totalLen, List.flatMap_cons, List.length_append, List.map_cons,
      List.sum_cons] at ih ⊢
    rw [ih, this]

/-- A dataset seen through the filter. -/
def filtered (filt : List α → List α) (items : List (Item α)) (name : Name) : List α :=
  items.flatMap fun it => filt (column name it)

theorem column_eq {it : Item α} (hnd : (it.dsets.map Dset.name).Nodup) {d : Dset α}
    (hd : d ∈ it.dsets) : column d.name it = d.data := by
  obtain ⟨idx, ds⟩ := it
  unfold column
  simp only at hnd hd ⊢
  induction ds with
  | nil => simp at hd
  | cons x xs ih =>
    rw [List.map_cons, List.nodup_cons] at hnd
    rcases List.mem_cons.1 hd with e | hd
    · subst e
      have : xs.filter (fun y => y.name == d.name) = [] := by
        rw [List.filter_eq_nil_iff]
        intro y hy h
        exact hnd.1 (by rw [← eq_of_beq h]; exact List.mem_map_of_mem hy)
      simp [this]
    · have hne : ¬ (x.name == d.name) = true := by
        intro h
        exact hnd.1 (by rw [eq_of_beq h]; exact List.mem_map_of_mem hd)
      rw [List.filter_cons, if_neg hne]
      exact ih hnd.2 hd

/-- Copying the index map of one axis. -/
theorem copyIndex_ok (S E cur : Axis → Int) (pre : List (Item α)) (it : Item α)
    (hcur : ∀ a, cur a = totalLen pre a) (a : Axis) (hSE : S a ≤ E a) (hit : (it.index a).isSome)
    (g : Axis → Option (List (Option α)))
    (hg : g a = some (view (S a) (E a) (allIndex pre a))) :
    ∃ g', copyIndex S E cur it g a = .ok g' ∧
      g' a = some (view (S a) (E a) (allIndex (pre ++ [it]) a)) ∧ ∀ k, k ≠ a → g' k = g k := by
  obtain ⟨l, hl⟩ := Option.isSome_iff_exists.1 hit
  have hn : lenOf it a = l.length := by simp [lenOf, hl]
  have happ : allIndex (pre ++ [it]) a = allIndex pre a ++ l := by simp [allIndex, hl]
  have hlen := allIndex_length pre a
  unfold copyIndex
  rw [hcur, ← hlen, hn, happ]
  by_cases hs : skipped (S a) (E a) (allIndex pre a).length l.length = true
  · rw [if_pos hs]
    exact ⟨g, rfl, by rw [hg, view_skip _ _ _ _ hs], fun _ _ => rfl⟩
  · rw [if_neg hs, hl, hg]
    simp only
    rw [view_set _ _ _ _ _ rfl (by simpa using hs) hSE]
    exact ⟨_, rfl, by simp [put], fun k hk => by simp [put, hk]⟩

/-- State of an output dataset: not there as long as nothing of it was wanted, otherwise holding
what is known so far. -/
def DsetOk (S E : Int) (l : List α) (o : Option (List (Option α))) : Prop :=
  (o = none ∧ view S E l = view S E []) ∨ o = some (view S E l)

theorem copyDset_ok (timeAxes : List Axis) (wanted : Option (List Name)) (filt : List α → List α)
    (S E cur : Axis → Int) (pre : List (Item α)) (it : Item α)
    (hcur : ∀ a, cur a = totalLen pre a) (d : Dset α) (hd : d ∈ it.dsets)
    (hnd : (it.dsets.map Dset.name).Nodup)
    (hw : wanted.all (fun w => decide (d.name ∈ w)) = true) (a : Axis)
    (ha : timeAxisOf timeAxes d = some a) (hSE : S a ≤ E a)
    (hlen : (filt d.data).length = lenOf it a)
    (hpre : (filtered filt pre d.name).length = totalLen pre a)
    (g : Name → Option (List (Option α)))
    (hg : DsetOk (S a) (E a) (filtered filt pre d.name) (g d.name)) :
    ∃ g', copyDset timeAxes wanted filt S E cur it g d = .ok g' ∧
      DsetOk (S a) (E a) (filtered filt (pre ++ [it]) d.name) (g' d.name) ∧
      ∀ k, k ≠ d.name → g' k = g k := by
  have happ : filtered filt (pre ++ [it]) d.name = filtered filt pre d.name ++ filt d.data := by
    simp [filtered, column_eq hnd hd]
  unfold copyDset
  rw [if_pos hw, ha, happ]
  simp only
  rw [hcur, ← hpre, ← hlen]
  by_cases hs : skipped (S a) (E a) (filtered filt pre d.name).length (filt d.data).length = true
  · rw [if_pos hs]
    refine ⟨g, rfl, ?_, fun _ _ => rfl⟩
    unfold DsetOk
    rw [view_skip _ _ _ _ hs]
    exact hg
  · rw [if_neg hs]
    have hreq : requireDset g d.name (E a - S a)
        = .ok (view (S a) (E a) (filtered filt pre d.name)) := by
      unfold requireDset
      rcases hg with ⟨hn, hv⟩ | hv
      · rw [hn, hv, view_nil]
        simp only
        rw [if_neg (by omega)]
      · rw [hv]
    rw [hreq]
    simp only
    rw [view_set _ _ _ _ _ rfl (by simpa using hs) hSE]
    exact ⟨_, rfl, .inr (by simp [put]), fun k hk => by simp [put, hk]⟩

theorem copyDset_unwanted (timeAxes : List Axis) (wanted : Option (List Name))
    (filt : List α → List α) (S E cur : Axis → Int) (it : Item α) (d : Dset α)
    (hw : ¬ wanted.all (fun w => decide (d.name ∈ w)) = true)
    (g : Name → Option (List (Option α))) :
    copyDset timeAxes wanted filt S E cur it g d = .ok g := by
  unfold copyDset
  rw [if_neg hw]

/-- The invariant of the loop over the inputs. -/
structure LoopInv (timeAxes : List Axis) (wanted : Option (List Name)) (filt : List α → List α)
    (S E : Axis → Int) (first : Item α) (pre : List (Item α)) (st : (Axis → Int) × Out α) :
    Prop where
  cur : ∀ a, st.1 a = totalLen pre a
  index : ∀ a ∈ timeAxes, st.2.index a = some (view (S a) (E a) (allIndex pre a))
  other : ∀ a, a ∉ timeAxes → st.2.index a = (first.index a).map (·.map some)
  dset : ∀ d ∈ first.dsets, wanted.all (fun w => decide (d.name ∈ w)) = true →
    ∀ a, timeAxisOf timeAxes d = some a →
      DsetOk (S a) (E a) (filtered filt pre d.name) (st.2.dsets d.name)
  none : ∀ name, (name ∉ first.dsets.map Dset.name ∨
    ¬ wanted.all (fun w => decide (name ∈ w)) = true) → st.2.dsets name = none

theorem filtered_length (timeAxes : List Axis) (filt : List α → List α)
    (hfilt : ∀ l, (filt l).length = l.length) (items pre : List (Item α))
    (hu : Uniform timeAxes items) (hsub : ∀ it ∈ pre, it ∈ items) (first : Item α)
    (hfirst : first ∈ items) (d : Dset α) (hd : d ∈ first.dsets) (a : Axis)
    (ha : timeAxisOf timeAxes d = some a) :
    (filtered filt pre d.name).length = totalLen pre a := by
  induction pre with
  | nil => rfl
  | cons it pre ih =>
    have hit := hsub it (by simp)
    obtain ⟨d', hd', hn, hax⟩ := hu.same first hfirst it hit d hd
    obtain ⟨a', _, l, hf, hl, hlen⟩ := hu.long it hit d' hd'
    have haa : a' = a := by
      rw [hax] at hf
      unfold timeAxisOf at ha
      rw [ha] at hf
      exact (Option.some.inj hf).symm
    subst haa
    have hc : column d.name it = d'.data := by
      rw [← hn]; exact column_eq (hu.nodup it hit) hd'
    have := ih (fun x hx => hsub x (List.mem_cons_of_mem _ hx))
    simp only [filtered, totalLen, List.flatMap_cons, List.length_append, List.map_cons,
      List.sum_cons] at this ⊢
    rw [this, hc, hfilt, hlen]
    simp [lenOf, hl]

theorem copyItem_ok (timeAxes : List Axis) (wanted : Option (List Name)) (filt : List α → List α)
    (hfilt : ∀ l, (filt l).length = l.length) (S E : Axis → Int) (items : List (Item α))
    (hnd : timeAxes.Nodup) (hu : Uniform timeAxes items) (hSE : ∀ a ∈ timeAxes, S a ≤ E a)
    (first : Item α) (hfirst : first ∈ items) (pre : List (Item α)) (hsub : ∀ it ∈ pre, it ∈ items)
    (it : Item α) (hit : it ∈ items) (st : (Axis → Int) × Out α)
    (h : LoopInv timeAxes wanted filt S E first pre st) :
    ∃ st', copyItem timeAxes wanted filt S E st it = .ok st' ∧
      LoopInv timeAxes wanted filt S E first (pre ++ [it]) st' := by
  obtain ⟨idx, hidx, hpost, hkeep⟩ := foldlM_keys (copyIndex S E st.1 it) id
    (fun a o => o = some (view (S a) (E a) (allIndex pre a)))
    (fun a o => o = some (view (S a) (E a) (allIndex (pre ++ [it]) a))) timeAxes (by simpa using hnd)
    (fun a ha g hg => copyIndex_ok S E st.1 pre it h.cur a (hSE a ha) (hu.axes it hit a ha) g hg)
    st.2.index h.index
  have hstep : ∀ d ∈ it.dsets, ∀ g : Name → Option (List (Option α)),
      (∀ a, timeAxisOf timeAxes d = some a →
        if wanted.all (fun w => decide (d.name ∈ w)) = true then
          DsetOk (S a) (E a) (filtered filt pre d.name) (g d.name) else g d.name = none) →
      ∃ g', copyDset timeAxes wanted filt S E st.1 it g d = .ok g' ∧
        (∀ a, timeAxisOf timeAxes d = some a →
          if wanted.all (fun w => decide (d.name ∈ w)) = true then
            DsetOk (S a) (E a) (filtered filt (pre ++ [it]) d.name) (g' d.name)
          else g' d.name = none) ∧
        ∀ k, k ≠ d.name → g' k = g k := by
    intro d hd g hg
    obtain ⟨a, ham, l, ha, hl, hlen⟩ := hu.long it hit d hd
    by_cases hw : wanted.all (fun w => decide (d.name ∈ w)) = true
    · have hg' := hg a ha
      rw [if_pos hw] at hg'
      obtain ⟨g', h1, h2, h3⟩ := copyDset_ok timeAxes wanted filt S E st.1 pre it h.cur d hd
        (hu.nodup it hit) hw a ha (hSE a ham)
        (by rw [hfilt, hlen]; simp [lenOf, hl])
        (filtered_length timeAxes filt hfilt items pre hu hsub it hit d hd a ha) g hg'
      refine ⟨g', h1, ?_, h3⟩
      intro a' ha'
      obtain rfl : a = a' := Option.some.inj (ha.symm.trans ha')
      rw [if_pos hw]; exact h2
    · refine ⟨g, copyDset_unwanted timeAxes wanted filt S E st.1 it d hw g, ?_, fun _ _ => rfl⟩
      intro a' ha'
      have := hg a' ha'
      rw [if_neg hw] at this ⊢
      exact this
  obtain ⟨ds, hds, hdpost, hdkeep⟩ := foldlM_keys (copyDset timeAxes wanted filt S E st.1 it)
    Dset.name (fun d o => ∀ a, timeAxisOf timeAxes d = some a →
      if wanted.all (fun w => decide (d.name ∈ w)) = true then
        DsetOk (S a) (E a) (filtered filt pre d.name) o else o = none)
    (fun d o => ∀ a, timeAxisOf timeAxes d = some a →
      if wanted.all (fun w => decide (d.name ∈ w)) = true then
        DsetOk (S a) (E a) (filtered filt (pre ++ [it]) d.name) o else o = none)
    it.dsets (hu.nodup it hit) hstep st.2.dsets (by
      intro d hd a ha
      obtain ⟨d', hd', hn, hax⟩ := hu.same it hit first hfirst d hd
      by_cases hw : wanted.all (fun w => decide (d.name ∈ w)) = true
      · rw [if_pos hw]
        have := h.dset d' hd' (by rw [hn]; exact hw) a (by
          unfold timeAxisOf at ha ⊢; rw [hax]; exact ha)
        rwa [hn] at this
      · rw [if_neg hw]
        exact h.none d.name (.inr hw))
  refine ⟨(fun a => st.1 a + lenOf it a, ⟨idx, ds⟩), ?_, ?_, ?_, ?_, ?_, ?_⟩
  · simp only [copyItem, hidx, hds, bind, Except.bind, pure, Except.pure]
  · intro a
    simp only
    rw [h.cur, totalLen_append]
    simp
  · exact hpost
  · intro a ha
    simp only
    rw [hkeep a (by simpa using ha)]
    exact h.other a ha
  · intro d hd hw a ha
    obtain ⟨d', hd', hn, hax⟩ := hu.same first hfirst it hit d hd
    have := hdpost d' hd' a (by unfold timeAxisOf at ha ⊢; rw [hax]; exact ha)
    rw [hn] at this
    rw [if_pos hw] at this
    exact this
  · intro name hname
    simp only
    by_cases hm : name ∈ it.dsets.map Dset.name
    · obtain ⟨d, hd, rfl⟩ := List.mem_map.1 hm
      obtain ⟨d', hd', hn, _⟩ := hu.same it hit first hfirst d hd
      obtain ⟨a, _, l, ha, hl, hlen⟩ := hu.long it hit d hd
      rcases hname with hname | hw
      · exact absurd (hn ▸ List.mem_map_of_mem hd') hname
      · have := hdpost d hd a ha
        rw [if_neg hw] at this
        exact this
    · rw [hdkeep name hm]
      exact h.none name hname

theorem loop_ok (timeAxes : List Axis) (wanted : Option (List Name)) (filt : List α → List α)
    (hfilt : ∀ l, (filt l).length = l.length) (S E : Axis → Int) (items : List (Item α))
    (hnd : timeAxes.Nodup) (hu : Uniform timeAxes items) (hSE : ∀ a ∈ timeAxes, S a ≤ E a)
    (first : Item α) (hfirst : first ∈ items) (rest pre : List (Item α))
    (hsub : ∀ it ∈ pre ++ rest, it ∈ items)
    (st : (Axis → Int) × Out α) (h : LoopInv timeAxes wanted filt S E first pre st) :
    ∃ st', rest.foldlM (copyItem timeAxes wanted filt S E) st = .ok st' ∧
      LoopInv timeAxes wanted filt S E first (pre ++ rest) st' := by
  induction rest generalizing pre st with
  | nil => exact ⟨st, rfl, by simpa using h⟩
  | cons it rest ih =>
    obtain ⟨st1, h1, hi1⟩ := copyItem_ok timeAxes wanted filt hfilt S E items hnd hu hSE first
      hfirst pre (fun x hx => hsub x (by simp [hx])) it (hsub it (by simp)) st h
    obtain ⟨st2, h2, hi2⟩ := ih (pre ++ [it]) (by simpa using hsub) st1 hi1
    refine ⟨st2, ?_, by simpa using hi2⟩
    rw [List.foldlM_cons, h1]
    exact h2

/-- The whole function, for inputs that are identical except along time: it raises exactly for a
negative length, and otherwise shows the wanted positions. -/
theorem concatenate_ok (timeAxes : List Axis) (wanted : Option (List Name))
    (filt : List α → List α) (hfilt : ∀ l, (filt l).length = l.length) (first : Item α)
    (rest : List (Item α)) (hnd : timeAxes.Nodup) (hu : Uniform timeAxes (first :: rest))
    (start stop : Axis → Option Int)
    (hSE : ∀ a ∈ timeAxes, (startStop (start a) (stop a) (totalLen (first :: rest) a)).1
      ≤ (startStop (start a) (stop a) (totalLen (first :: rest) a)).2) :
    ∃ out, concatenate timeAxes (first :: rest) start stop wanted filt = .ok out ∧
      ∃ cur, LoopInv timeAxes wanted filt
        (fun a => (startStop (start a) (stop a) (totalLen (first :: rest) a)).1)
        (fun a => (startStop (start a) (stop a) (totalLen (first :: rest) a)).2)
        first (first :: rest) (cur, out) := by
  unfold concatenate
  simp only
  rw [if_neg]
  · obtain ⟨st, h1, h2⟩ := loop_ok timeAxes wanted filt hfilt
      (fun a => (startStop (start a) (stop a) (totalLen (first :: rest) a)).1)
      (fun a => (startStop (start a) (stop a) (totalLen (first :: rest) a)).2)
      (first :: rest) hnd hu hSE first (by simp) (first :: rest) [] (by simp)
      (fun _ => 0, ⟨initialIndex timeAxes
        (fun a => (startStop (start a) (stop a) (totalLen (first :: rest) a)).1)
        (fun a => (startStop (start a) (stop a) (totalLen (first :: rest) a)).2) first,
        fun _ => none⟩)
      { cur := fun a => rfl
        index := by
          intro a ha
          obtain ⟨l, hl⟩ := Option.isSome_iff_exists.1 (hu.axes first (by simp) a ha)
          simp only [initialIndex, hl, if_pos ha]
          rw [show allIndex ([] : List (Item α)) a = [] from rfl, view_nil]
        other := by
          intro a ha
          simp only [initialIndex]
          cases first.index a with
          | none => rfl
          | some l => simp [ha]
        dset := by
          intro d _ _ a _
          exact .inl ⟨rfl, rfl⟩
        none := fun _ _ => rfl }
    refine ⟨st.2, ?_, st.1, ?_⟩
    · rw [h1]; rfl
    · simpa using h2
  · rw [List.any_eq_true]
    rintro ⟨a, ha, h⟩
    have := hSE a ha
    simp only [Bool.and_eq_true, decide_eq_true_eq] at h
    omega

/-- Python's ascending slice with step one is a segment. -/
theorem slice_one (xs : List α) (a b : Option Int) :
    Slice.Spec.slice xs a b 1 = (xs.drop (Slice.Spec.ascFrom xs.length a).toNat).take
      ((Slice.Spec.ascTo xs.length b).toNat - (Slice.Spec.ascFrom xs.length a).toNat) := by
  have hA0 : 0 ≤ Slice.Spec.ascFrom xs.length a := by
    unfold Slice.Spec.ascFrom; split
    · omega
    · split <;> omega
  have hB : Slice.Spec.ascTo xs.length b ≤ xs.length := by
    unfold Slice.Spec.ascTo; split
    · omega
    · split <;> omega
  unfold Slice.Spec.slice Slice.Spec.positions
  simp only [show (0 : Int) < 1 by decide, if_true]
  obtain ⟨A, hA'⟩ : ∃ A, Slice.Spec.ascFrom xs.length a = A := ⟨_, rfl⟩
  rw [hA'] at hA0 ⊢
  rw [← Common.filterMap_range'_getElem?]
  have : (List.range xs.length).filter (fun g => decide (Slice.Spec.Selects xs.length a b 1 g))
      = List.range' A.toNat ((Slice.Spec.ascTo xs.length b).toNat - A.toNat) := by
    apply Common.eq_of_pairwise_of_mem (R := (· < ·)) (fun a => Nat.lt_irrefl a)
      (fun a b h => Nat.not_lt_of_lt h) (List.Pairwise.filter _ List.pairwise_lt_range)
      List.pairwise_lt_range'
    intro g
    simp only [List.mem_filter, List.mem_range, decide_eq_true_eq, List.mem_range'_1,
      Slice.Spec.Selects, show (0 : Int) < 1 by decide, if_true, hA', Int.one_dvd, and_true]
    omega
  rw [this]

theorem startStop_eq (n : Nat) (start stop : Option Int) (h : InRange n start stop) :
    startStop start stop n = (Slice.Spec.ascFrom n start, Slice.Spec.ascTo n stop) := by
  unfold startStop Slice.Spec.ascFrom Slice.Spec.ascTo
  have h1 := h.1
  cases start with
  | none => cases stop with
    | none => rfl
    | some e => simp only [Prod.mk.injEq, true_and]; split <;> try split
                all_goals omega
  | some s =>
    have := h1 s rfl
    cases stop with
    | none => simp only [Prod.mk.injEq, and_true]; split <;> omega
    | some e =>
      simp only [Prod.mk.injEq]
      constructor
      · split <;> omega
      · split <;> try split
        all_goals omega

theorem ascFrom_nonneg (n : Nat) (a : Option Int) : 0 ≤ Slice.Spec.ascFrom n a := by
  unfold Slice.Spec.ascFrom; split
  · omega
  · split <;> omega

theorem ascTo_le (n : Nat) (a : Option Int) : Slice.Spec.ascTo n a ≤ n := by
  unfold Slice.Spec.ascTo; split
  · omega
  · split <;> omega

theorem view_eq_slice (l : List α) (start stop : Option Int) :
    view (Slice.Spec.ascFrom l.length start) (Slice.Spec.ascTo l.length stop) l
      = (Slice.Spec.slice l start stop 1).map some := by
  have hA := ascFrom_nonneg l.length start
  have hB := ascTo_le l.length stop
  rw [slice_one]
  generalize Slice.Spec.ascFrom l.length start = A at *
  generalize Slice.Spec.ascTo l.length stop = B at *
  apply List.ext_getElem?
  intro i
  rw [view_getElem?, List.getElem?_map]
  by_cases hi : i < (B - A).toNat
  · rw [if_pos hi, if_pos (by omega), List.getElem?_take_of_lt (by omega), List.getElem?_drop,
      show (A + i).toNat = A.toNat + i by omega, List.getElem?_eq_getElem (by omega)]
    rfl
  · rw [if_neg hi, List.getElem?_eq_none (by simp; omega)]
    rfl

end Verif.Tod
