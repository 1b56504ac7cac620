import Verif.Tod.Lemmas
import Mathlib.Order.Basic

/-!
# C35: concatenation is slicing; C36: selection of a time range
-/
namespace Verif.Tod
variable {α : Type}
open Slice.Spec (slice)

/-- **C35**, with a filter that keeps the number of entries of each input. For inputs identical
except along time and a selection that does not start before the first sample nor after its stop,
`concatenate` succeeds; every time axis is the Python slice of the end-to-end concatenation; and so
is every wanted dataset of which at least one sample is selected. The missing parts are shown below:
other starts, and datasets of an empty selection. -/
theorem C35_concatenate_filtered_partial (timeAxes : List Axis) (hnd : timeAxes.Nodup)
    (items : List (Item α)) (hne : items ≠ []) (hu : Uniform timeAxes items)
    (start stop : Axis → Option Int)
    (hr : ∀ a ∈ timeAxes, InRange (allIndex items a).length (start a) (stop a))
    (wanted : Option (List Name)) (filt : List α → List α)
    (hfilt : ∀ l, (filt l).length = l.length) :
    ∃ out, concatenate timeAxes items start stop wanted filt = .ok out ∧
      (∀ a ∈ timeAxes, out.index a = some ((slice (allIndex items a) (start a) (stop a) 1).map some)) ∧
      (∀ it ∈ items, ∀ d ∈ it.dsets, (∀ w, wanted = some w → d.name ∈ w) →
        ∀ a, d.axes.find? (fun a => decide (a ∈ timeAxes)) = some a →
        slice (items.flatMap fun i => filt (column d.name i)) (start a) (stop a) 1 ≠ [] →
        out.dsets d.name =
          some ((slice (items.flatMap fun i => filt (column d.name i)) (start a) (stop a) 1).map some)) ∧
      (∀ w name, wanted = some w → name ∉ w → out.dsets name = none) := by
  cases items with
  | nil => exact absurd rfl hne
  | cons first rest =>
    have hss : ∀ a ∈ timeAxes, startStop (start a) (stop a) (totalLen (first :: rest) a)
        = (Slice.Spec.ascFrom (totalLen (first :: rest) a) (start a),
           Slice.Spec.ascTo (totalLen (first :: rest) a) (stop a)) := by
      intro a ha
      have h := hr a ha
      rw [allIndex_length] at h
      exact startStop_eq _ _ _ h
    obtain ⟨out, hok, cur, hinv⟩ := concatenate_ok timeAxes wanted filt hfilt first rest hnd hu
      start stop (by
        intro a ha
        rw [hss a ha]
        have h := (hr a ha).2
        rw [allIndex_length] at h
        exact h)
    refine ⟨out, hok, ?_, ?_, ?_⟩
    · intro a ha
      have h := hinv.index a ha
      rw [hss a ha] at h
      have h2 := view_eq_slice (allIndex (first :: rest) a) (start a) (stop a)
      rw [allIndex_length] at h2
      rw [h2] at h
      exact h
    · intro it hit d hd hw a ha hsl
      obtain ⟨d', hd', hn, hax⟩ := hu.same it hit first (by simp) d hd
      have ha' : timeAxisOf timeAxes d' = some a := by unfold timeAxisOf; rw [hax]; exact ha
      have ham : a ∈ timeAxes := by
        have := List.find?_some ha
        simpa using this
      have hlen := filtered_length timeAxes filt hfilt (first :: rest) (first :: rest) hu
        (fun _ h => h) first (by simp) d' hd' a ha'
      have h := hinv.dset d' hd' (by
        rw [hn]
        cases wanted with
        | none => rfl
        | some w => simpa using hw w rfl) a ha'
      rw [hn] at h hlen
      rw [hss a ham] at h
      have h2 := view_eq_slice (filtered filt (first :: rest) d.name) (start a) (stop a)
      rw [hlen] at h2
      change DsetOk (Slice.Spec.ascFrom _ _) (Slice.Spec.ascTo _ _) _ _ at h
      rcases h with ⟨_, hv⟩ | hv
      · exfalso
        rw [h2, view_nil] at hv
        apply hsl
        change slice (filtered filt (first :: rest) d.name) (start a) (stop a) 1 = []
        cases hc : slice (filtered filt (first :: rest) d.name) (start a) (stop a) 1 with
        | nil => rfl
        | cons x xs =>
          rw [hc, List.map_cons] at hv
          have : some x ∈ List.replicate ((Slice.Spec.ascTo (totalLen (first :: rest) a) (stop a)) -
            (Slice.Spec.ascFrom (totalLen (first :: rest) a) (start a))).toNat (none : Option α) := by
            rw [← hv]; simp
          exact absurd (List.eq_of_mem_replicate this) (by simp)
      · rw [h2] at hv
        exact hv
    · intro w name hw hn
      apply hinv.none name (.inr _)
      rw [hw]
      simpa using hn

/-- **C35** without a filter. -/
theorem C35_concatenate_is_slice_partial (timeAxes : List Axis) (hnd : timeAxes.Nodup)
    (items : List (Item α)) (hne : items ≠ []) (hu : Uniform timeAxes items)
    (start stop : Axis → Option Int)
    (hr : ∀ a ∈ timeAxes, InRange (allIndex items a).length (start a) (stop a)) :
    ∃ out, concatenate timeAxes items start stop = .ok out ∧
      (∀ a ∈ timeAxes, out.index a = some ((slice (allIndex items a) (start a) (stop a) 1).map some)) ∧
      (∀ it ∈ items, ∀ d ∈ it.dsets,
        ∀ a, d.axes.find? (fun a => decide (a ∈ timeAxes)) = some a →
        slice (allData items d.name) (start a) (stop a) 1 ≠ [] →
        out.dsets d.name = some ((slice (allData items d.name) (start a) (stop a) 1).map some)) := by
  obtain ⟨out, h1, h2, h3, _⟩ := C35_concatenate_filtered_partial timeAxes hnd items hne hu start stop
    hr none id (fun _ => rfl)
  exact ⟨out, h1, h2, fun it hit d hd a ha hs => h3 it hit d hd (by simp) a ha hs⟩

/-- Axes that are not concatenated over are copied from the first input. -/
theorem C35_other_axes (timeAxes : List Axis) (hnd : timeAxes.Nodup)
    (first : Item α) (rest : List (Item α)) (hu : Uniform timeAxes (first :: rest))
    (start stop : Axis → Option Int)
    (hr : ∀ a ∈ timeAxes, InRange (allIndex (first :: rest) a).length (start a) (stop a)) (a : Axis)
    (ha : a ∉ timeAxes) :
    ∃ out, concatenate timeAxes (first :: rest) start stop = .ok out ∧
      out.index a = (first.index a).map (·.map some) := by
  obtain ⟨out, hok, cur, hinv⟩ := concatenate_ok timeAxes none id (fun _ => rfl) first rest hnd hu
    start stop (by
      intro a ha
      have h := hr a ha
      rw [allIndex_length] at h
      rw [startStop_eq _ _ _ h]
      exact h.2)
  exact ⟨out, hok, hinv.other a ha⟩

/-! A concrete case: three inputs, the middle one empty, two time axes. -/

def exItem (t u : List Nat) : Item Nat :=
  ⟨fun a => if a = "time" then some t else if a = "utime" then some u else
      if a = "freq" then some [7] else none,
   [⟨"vis", ["freq", "time"], t.map (10 * ·)⟩, ⟨"gain", ["utime"], u.map (100 * ·)⟩]⟩

def exItems : List (Item Nat) := [exItem [1, 2, 3] [1, 4], exItem [] [], exItem [4, 5] [6]]

theorem exItems_uniform : Uniform ["time", "utime"] exItems := by
  refine ⟨?_, ?_, ?_, ?_⟩
  · decide
  · decide
  · intro it hit d hd
    simp only [exItems, List.mem_cons, List.not_mem_nil, or_false] at hit
    rcases hit with rfl | rfl | rfl <;>
      (simp only [exItem, List.mem_cons, List.not_mem_nil, or_false] at hd
       rcases hd with rfl | rfl
       · exact ⟨"time", by decide, _, by decide, rfl, by decide⟩
       · exact ⟨"utime", by decide, _, by decide, rfl, by decide⟩)
  · intro it hit it' hit' d hd
    simp only [exItems, List.mem_cons, List.not_mem_nil, or_false] at hit hit'
    rcases hit with rfl | rfl | rfl <;> rcases hit' with rfl | rfl | rfl <;>
      (simp only [exItem, List.mem_cons, List.not_mem_nil, or_false] at hd
       rcases hd with rfl | rfl
       · exact ⟨_, List.mem_cons_self, rfl, rfl⟩
       · exact ⟨_, List.mem_cons_of_mem _ List.mem_cons_self, rfl, rfl⟩)

example : ["time", "utime"].Nodup ∧ Uniform ["time", "utime"] exItems ∧
    (∀ a ∈ ["time", "utime"], InRange (allIndex exItems a).length (some (-2)) (some 10)) ∧
    slice (allData exItems "vis") (some (-2)) (some 10) 1 = [40, 50] ∧
    slice (allData exItems "gain") (some (-2)) (some 10) 1 = [400, 600] :=
  ⟨by decide, exItems_uniform, by decide, by decide, by decide⟩

example : (match concatenate ["time", "utime"] exItems (fun _ => some (-2)) (fun _ => some 10) with
    | .ok out => decide (out.index "time" = some [some 4, some 5] ∧
        out.dsets "vis" = some [some 40, some 50] ∧ out.dsets "gain" = some [some 400, some 600])
    | .error _ => false) = true := by decide

/-- The code does not clip a start before the first sample: for every such start the result is too
long, and its leading samples are uninitialised memory. -/
theorem C35_early_start_pads (items : List (Item α)) (hne : items ≠ []) (a : Axis)
    (hu : Uniform [a] items) (s : Int) (hs : s < -((allIndex items a).length : Int)) :
    ∃ out, concatenate [a] items (fun _ => some s) (fun _ => none) = .ok out ∧
      out.index a = some (List.replicate (-s - (allIndex items a).length).toNat none ++
        (allIndex items a).map some) := by
  cases items with
  | nil => exact absurd rfl hne
  | cons first rest =>
    rw [allIndex_length] at hs
    obtain ⟨out, hok, cur, hinv⟩ := concatenate_ok [a] none id (fun _ => rfl) first rest (by simp) hu
      (fun _ => some s) (fun _ => none) (by
        intro b hb
        obtain rfl : b = a := by simpa using hb
        simp only [startStop]
        rw [if_pos (by omega)]
        omega)
    refine ⟨out, hok, ?_⟩
    have h := hinv.index a (by simp)
    simp only [startStop] at h
    rw [if_pos (by omega)] at h
    refine h.trans (congrArg some ?_)
    have hlen := allIndex_length (first :: rest) a
    generalize allIndex (first :: rest) a = l at *
    rw [← hlen]
    apply List.ext_getElem?
    intro i
    rw [view_getElem?]
    by_cases h1 : i < (-s - (l.length : Int)).toNat
    · rw [if_pos (by omega), if_neg (by omega), List.getElem?_append_left (by simpa using h1),
        List.getElem?_replicate_of_lt h1]
    · rw [List.getElem?_append_right (by simp; omega)]
      by_cases h2 : i < (-s).toNat
      · rw [if_pos (by omega), if_pos (by omega), List.getElem?_map, List.length_replicate,
          show ((l.length : Int) + s + i).toNat = i - (-s - (l.length : Int)).toNat by omega,
          List.getElem?_eq_getElem (by omega)]
        rfl
      · rw [if_neg (by omega), List.getElem?_eq_none (by simp; omega)]

def exShort : Item Nat :=
  ⟨fun a => if a = "time" then some [1, 2, 3] else none, [⟨"vis", ["time"], [10, 20, 30]⟩]⟩

theorem exShort_uniform : Uniform ["time"] [exShort] := by
  refine ⟨by decide, by decide, ?_, ?_⟩
  · intro it hit d hd
    obtain rfl : it = exShort := by simpa using hit
    obtain rfl : d = ⟨"vis", ["time"], [10, 20, 30]⟩ := by simpa [exShort] using hd
    exact ⟨"time", by decide, _, by decide, rfl, by decide⟩
  · intro it hit it' hit' d hd
    obtain rfl : it = exShort := by simpa using hit
    obtain rfl : it' = exShort := by simpa using hit'
    exact ⟨d, hd, rfl, rfl⟩

example : Uniform ["time"] [exShort] ∧ (-5 : Int) < -((allIndex [exShort] "time").length : Int) ∧
    ((concatenate ["time"] [exShort] (fun _ => some (-5)) (fun _ => none)).toOption.bind
      (·.index "time")) = some [none, none, some 1, some 2, some 3] :=
  ⟨exShort_uniform, by decide, by decide⟩

/-- **C35 fails** for a start before the first sample: Python gives the whole sequence. -/
theorem C35_early_start_violated :
    ∃ (items : List (Item Nat)) (s : Int), Uniform ["time", "utime"] items ∧
      slice (allIndex items "time") (some s) none 1 = [1, 2, 3, 4, 5] ∧
      ∃ out, concatenate ["time", "utime"] items (fun _ => some s) (fun _ => none) = .ok out ∧
        out.index "time" = some [none, some 1, some 2, some 3, some 4, some 5] :=
  ⟨exItems, -6, exItems_uniform, by decide, _, rfl, by decide⟩

/-- **C35 fails** for a start after the last sample, and for a start after the stop: Python gives the
empty sequence, the code raises `ValueError`. -/
theorem C35_crossed_selection_raises (items : List (Item α)) (hne : items ≠ []) (a : Axis)
    (hu : Uniform [a] items) (start stop : Option Int)
    (hs : Slice.Spec.ascTo (allIndex items a).length stop
      < Slice.Spec.ascFrom (allIndex items a).length start)
    (hlo : ∀ s, start = some s → -((allIndex items a).length : Int) ≤ s) :
    concatenate [a] items (fun _ => start) (fun _ => stop) = .error .valueError ∧
      slice (allIndex items a) start stop 1 = [] := by
  constructor
  · cases items with
    | nil => exact absurd rfl hne
    | cons first rest =>
      rw [allIndex_length] at hs hlo
      unfold concatenate
      simp only
      rw [if_pos]
      simp only [List.any_cons, List.any_nil, Bool.or_false, Bool.and_eq_true, decide_eq_true_eq]
      refine ⟨hu.axes first (by simp) a (by simp), ?_⟩
      unfold startStop
      unfold Slice.Spec.ascFrom Slice.Spec.ascTo at hs
      cases start with
      | none =>
        cases stop with
        | none => simp only at hs ⊢; omega
        | some e => simp only at hs ⊢; split at hs <;> (try split) <;> (try split) <;> omega
      | some s =>
        have := hlo s rfl
        cases stop with
        | none => simp only at hs ⊢; split at hs <;> (try split) <;> omega
        | some e =>
          simp only at hs ⊢
          split at hs <;> split at hs <;> (try split) <;> (try split) <;> omega
  · rw [slice_one, List.take_eq_nil_iff]
    left
    omega

example : Uniform ["time", "utime"] exItems ∧ slice (allIndex exItems "time") (some 6) none 1 = [] ∧
    (match concatenate ["time", "utime"] exItems (fun _ => some 6) (fun _ => none) with
      | .error e => decide (e = .valueError) | .ok _ => false) = true :=
  ⟨exItems_uniform, by decide, by decide⟩

/-- **C35 fails** for an empty selection at the border of two inputs: the datasets are missing from
the result, although the time axis is there with no samples. -/
theorem C35_empty_selection_violated :
    ∃ (items : List (Item Nat)), Uniform ["time", "utime"] items ∧
      (∀ a ∈ ["time", "utime"], InRange (allIndex items a).length (some 0) (some 0)) ∧
      ∃ out, concatenate ["time", "utime"] items (fun _ => some 0) (fun _ => some 0) = .ok out ∧
        out.index "time" = some [] ∧ out.dsets "vis" = none :=
  ⟨exItems, exItems_uniform, by decide, _, rfl, by decide, rfl⟩

/-! ## C36 -/

section
variable {τ : Type} [LinearOrder τ]

/-- The samples a pair of indices selects. -/
def samples (times : List τ) (sel : Int × Int) : List τ := slice times (some sel.1) (some sel.2) 1

theorem sorted_le {l : List τ} (h : l.Pairwise (· ≤ ·)) {i j : Nat} (hij : i ≤ j)
    (hj : j < l.length) : l[i] ≤ l[j] := by
  rcases Nat.lt_or_eq_of_le hij with h' | rfl
  · exact List.pairwise_iff_getElem.1 h i j _ hj h'
  · exact le_refl _

/-- On sorted times the first index is the number of earlier samples. -/
theorem firstAtLeast_spec (times : List τ) (hs : times.Pairwise (· ≤ ·)) (t : τ)
    (hex : ∃ x ∈ times, t ≤ x) :
    ∃ k : Nat, firstAtLeast times t = .ok (k : Int) ∧ k < times.length ∧
      ∀ i (h : i < times.length), t ≤ times[i] ↔ k ≤ i := by
  have hmem : ∀ i, i ∈ (List.range times.length).filter
      (fun i => times[i]?.any fun x => decide (t ≤ x)) ↔ ∃ h : i < times.length, t ≤ times[i] := by
    intro i
    rw [List.mem_filter, List.mem_range]
    constructor
    · rintro ⟨h, h2⟩
      rw [List.getElem?_eq_getElem h] at h2
      exact ⟨h, by simpa using h2⟩
    · rintro ⟨h, h2⟩
      rw [List.getElem?_eq_getElem h]
      exact ⟨h, by simpa using h2⟩
  have hp : ((List.range times.length).filter
      (fun i => times[i]?.any fun x => decide (t ≤ x))).Pairwise (· < ·) :=
    List.Pairwise.filter _ List.pairwise_lt_range
  unfold firstAtLeast
  cases hl : (List.range times.length).filter
      (fun i => times[i]?.any fun x => decide (t ≤ x)) with
  | nil =>
    obtain ⟨x, hx, htx⟩ := hex
    obtain ⟨i, hi, rfl⟩ := List.getElem_of_mem hx
    have := (hmem i).2 ⟨hi, htx⟩
    rw [hl] at this
    simp at this
  | cons k ks =>
    rw [hl] at hmem hp
    obtain ⟨hk, hkt⟩ := (hmem k).1 (by simp)
    refine ⟨k, rfl, hk, ?_⟩
    intro i hi
    constructor
    · intro h
      rcases List.mem_cons.1 ((hmem i).2 ⟨hi, h⟩) with e | e
      · omega
      · exact Nat.le_of_lt ((List.pairwise_cons.1 hp).1 i e)
    · intro h
      exact le_trans hkt (sorted_le hs h hi)

theorem afterLastBelow_spec (times : List τ) (hs : times.Pairwise (· ≤ ·)) (t : τ)
    (hex : ∃ x ∈ times, x < t) :
    ∃ k : Nat, afterLastBelow times t = .ok (k : Int) ∧ 0 < k ∧ k ≤ times.length ∧
      ∀ i (h : i < times.length), times[i] < t ↔ i < k := by
  have hmem : ∀ i, i ∈ (List.range times.length).filter
      (fun i => times[i]?.any fun x => decide (x < t)) ↔ ∃ h : i < times.length, times[i] < t := by
    intro i
    rw [List.mem_filter, List.mem_range]
    constructor
    · rintro ⟨h, h2⟩
      rw [List.getElem?_eq_getElem h] at h2
      exact ⟨h, by simpa using h2⟩
    · rintro ⟨h, h2⟩
      rw [List.getElem?_eq_getElem h]
      exact ⟨h, by simpa using h2⟩
  have hp : ((List.range times.length).filter
      (fun i => times[i]?.any fun x => decide (x < t))).Pairwise (· < ·) :=
    List.Pairwise.filter _ List.pairwise_lt_range
  unfold afterLastBelow
  rcases List.eq_nil_or_concat ((List.range times.length).filter
      (fun i => times[i]?.any fun x => decide (x < t))) with hl | ⟨ks, k, hl⟩
  · obtain ⟨x, hx, htx⟩ := hex
    obtain ⟨i, hi, rfl⟩ := List.getElem_of_mem hx
    have := (hmem i).2 ⟨hi, htx⟩
    rw [hl] at this
    simp at this
  · rw [List.concat_eq_append] at hl
    rw [hl] at hmem hp ⊢
    obtain ⟨hk, hkt⟩ := (hmem k).1 (by simp)
    refine ⟨k + 1, by simp, by omega, by omega, ?_⟩
    intro i hi
    constructor
    · intro h
      rcases List.mem_append.1 ((hmem i).2 ⟨hi, h⟩) with e | e
      · have := (List.pairwise_append.1 hp).2.2 i e k (by simp)
        omega
      · have : i = k := by simpa using e
        omega
    · intro h
      exact lt_of_le_of_lt (sorted_le hs (by omega) hk) hkt

/-- A segment of a list, cut where a predicate on positions says, is the filtered list. -/
theorem drop_take_eq_filter {γ : Type} (l : List γ) (p : γ → Bool) (a b : Nat) (hb : b ≤ l.length)
    (h : ∀ i (hi : i < l.length), p l[i] = true ↔ a ≤ i ∧ i < b) :
    (l.drop a).take (b - a) = l.filter p := by
  induction l generalizing a b with
  | nil => simp
  | cons x xs ih =>
    have h0 := h 0 (by simp)
    simp only [List.getElem_cons_zero] at h0
    have hrec := ih (a - 1) (b - 1) (by simp only [List.length_cons] at hb; omega) (by
      intro i hi
      have := h (i + 1) (by simpa using hi)
      simp only [List.getElem_cons_succ] at this
      rw [this]; omega)
    rw [List.filter_cons]
    by_cases hp : p x = true
    · rw [if_pos hp]
      obtain ⟨h1, h2⟩ := h0.1 hp
      obtain rfl : a = 0 := by omega
      obtain ⟨b', rfl⟩ : ∃ b', b = b' + 1 := ⟨b - 1, by omega⟩
      simp only [List.drop_zero, Nat.sub_zero, List.take_succ_cons, Nat.add_sub_cancel] at hrec ⊢
      rw [← hrec]
      simp
    · rw [if_neg hp]
      rw [← hrec]
      by_cases ha : a = 0
      · subst ha
        have : b = 0 := by
          apply Classical.byContradiction
          intro hb0
          exact hp (h0.2 ⟨by omega, by omega⟩)
        subst this
        simp
      · obtain ⟨a', rfl⟩ : ∃ a', a = a' + 1 := ⟨a - 1, by omega⟩
        rw [List.drop_succ_cons, Nat.add_sub_cancel]
        congr 1
        omega

theorem samples_eq (times : List τ) (a b : Nat) (ha : a ≤ times.length) (hb : b ≤ times.length) :
    samples times ((a : Int), (b : Int)) = (times.drop a).take (b - a) := by
  unfold samples
  rw [slice_one]
  simp only [Slice.Spec.ascFrom, Slice.Spec.ascTo]
  rw [if_neg (by omega), if_neg (by omega)]
  congr 1
  · omega

/-- **C36** on sorted times, if there is a sample at or after the start and one before the stop: the
selected samples are exactly those with `start ≤ t < stop`. Otherwise the code raises, see below. -/
theorem C36_select_time_range_partial (times : List τ) (hs : times.Pairwise (· ≤ ·))
    (sel : Int × Int) (start stop : τ) (h1 : ∃ x ∈ times, start ≤ x) (h2 : ∃ x ∈ times, x < stop) :
    ∃ r, selectTimeRange times sel (some start) (some stop) = .ok r ∧
      samples times r = times.filter (fun t => decide (start ≤ t ∧ t < stop)) := by
  obtain ⟨a, ha, halt, haspec⟩ := firstAtLeast_spec times hs start h1
  obtain ⟨b, hb, hb0, hble, hbspec⟩ := afterLastBelow_spec times hs stop h2
  refine ⟨((a : Int), (b : Int)), ?_, ?_⟩
  · simp only [selectTimeRange, ha, hb, bind, Except.bind, pure, Except.pure]
  · rw [samples_eq _ _ _ (by omega) hble]
    apply drop_take_eq_filter _ _ _ _ hble
    intro i hi
    rw [decide_eq_true_eq, haspec i hi, hbspec i hi]

example : [1, 3, 3, 7, 9].Pairwise (· ≤ ·) ∧ (∃ x ∈ [1, 3, 3, 7, 9], 3 ≤ x) ∧
    (∃ x ∈ [1, 3, 3, 7, 9], x < 9) ∧
    [1, 3, 3, 7, 9].filter (fun t => decide (3 ≤ t ∧ t < 9)) = [3, 3, 7] := by decide

/-- **C36**, one bound only, starting from the default selection of all samples: the other bound is
left as it was. -/
theorem C36_one_sided_partial (times : List τ) (hs : times.Pairwise (· ≤ ·)) (t : τ) :
    ((∃ x ∈ times, t ≤ x) → ∃ r, selectTimeRange times (0, times.length) (some t) none = .ok r ∧
      samples times r = times.filter (fun x => decide (t ≤ x))) ∧
    ((∃ x ∈ times, x < t) → ∃ r, selectTimeRange times (0, times.length) none (some t) = .ok r ∧
      samples times r = times.filter (fun x => decide (x < t))) := by
  constructor
  · intro h
    obtain ⟨a, ha, halt, haspec⟩ := firstAtLeast_spec times hs t h
    refine ⟨((a : Int), (times.length : Int)), ?_, ?_⟩
    · simp only [selectTimeRange, ha, bind, Except.bind, pure, Except.pure]
    · rw [samples_eq _ _ _ (by omega) (by omega)]
      apply drop_take_eq_filter _ _ _ _ (by omega)
      intro i hi
      rw [decide_eq_true_eq, haspec i hi]
      omega
  · intro h
    obtain ⟨b, hb, hb0, hble, hbspec⟩ := afterLastBelow_spec times hs t h
    refine ⟨(((0 : Nat) : Int), (b : Int)), ?_, ?_⟩
    · simp only [selectTimeRange, hb, bind, Except.bind, pure, Except.pure]
      rfl
    · rw [samples_eq _ _ _ (by omega) hble]
      apply drop_take_eq_filter _ _ _ _ hble
      intro i hi
      rw [decide_eq_true_eq, hbspec i hi]
      omega

example : ∃ x ∈ [1, 3, 3, 7, 9], 4 ≤ x := by decide

/-- `select_time_range` twice with one bound each is the same as once with both. -/
theorem C36_in_two_steps (times : List τ) (sel : Int × Int) (start stop : τ) (r : Int × Int)
    (h : selectTimeRange times sel (some start) none = .ok r) :
    selectTimeRange times r none (some stop)
      = selectTimeRange times sel (some start) (some stop) := by
  simp only [selectTimeRange, bind, Except.bind, pure, Except.pure] at h ⊢
  cases h1 : firstAtLeast times start with
  | error e => rw [h1] at h; exact absurd h (by simp)
  | ok s =>
    rw [h1] at h
    simp only [Except.ok.injEq] at h
    subst h
    rfl

example : (match selectTimeRange [1, 3, 7] (0, 3) (some 2) none with
    | .ok r => decide (r = (1, 3)) | .error _ => false) = true := by decide

/-- If no sample is at or after the start, or none before the stop, the code raises `IndexError`
(for every such input), although an empty selection was asked for. -/
theorem C36_nothing_there_raises (times : List τ) (sel : Int × Int) (start stop : τ)
    (h : (∀ x ∈ times, x < start) ∨ (∀ x ∈ times, stop ≤ x)) :
    selectTimeRange times sel (some start) (some stop) = .error .indexError := by
  simp only [selectTimeRange, bind, Except.bind, pure, Except.pure]
  have key : ∀ p : τ → Bool, (∀ x ∈ times, p x = false) →
      (List.range times.length).filter (fun i => times[i]?.any p) = [] := by
    intro p hp
    rw [List.filter_eq_nil_iff]
    intro i hi hc
    rw [List.mem_range] at hi
    rw [List.getElem?_eq_getElem hi, Option.any_some, hp _ (List.getElem_mem hi)] at hc
    exact absurd hc (by simp)
  rcases h with h | h
  · have : firstAtLeast times start = .error .indexError := by
      unfold firstAtLeast
      rw [key _ (by intro x hx; simpa using h x hx)]
      rfl
    rw [this]
  · have : afterLastBelow times stop = .error .indexError := by
      unfold afterLastBelow
      rw [key _ (by intro x hx; simpa using h x hx)]
      rfl
    cases h1 : firstAtLeast times start with
    | error e =>
      unfold firstAtLeast at h1
      split at h1 <;> simp_all
    | ok s => simp only [this]

end

/-- **C36 fails** when the interval lies outside the data. -/
theorem C36_outside_violated :
    ∃ (times : List Nat) (start stop : Nat), times.Pairwise (· ≤ ·) ∧ start ≤ stop ∧
      selectTimeRange times (0, times.length) (some start) (some stop) = .error .indexError ∧
      times.filter (fun t => decide (start ≤ t ∧ t < stop)) = [] :=
  ⟨[1, 2, 3], 5, 8, by decide, by decide, rfl, by decide⟩

/-- On unsorted times the selection may contain samples outside the interval. -/
theorem C36_unsorted_wrong :
    ∃ (times : List Nat) (start stop : Nat) (r : Int × Int),
      selectTimeRange times (0, times.length) (some start) (some stop) = .ok r ∧
      samples times r ≠ times.filter (fun t => decide (start ≤ t ∧ t < stop)) :=
  ⟨[5, 1, 6], 4, 7, (0, 3), rfl, by decide⟩

/-- **C36 with C35**: reading after `select_time_range` returns, for a dataset with one entry per
time sample, exactly the entries of the samples in the interval (if there are any). -/
theorem C36_read_selected_partial [LinearOrder α] (items : List (Item α)) (hne : items ≠ [])
    (a : Axis) (hu : Uniform [a] items) (hs : (allIndex items a).Pairwise (· ≤ ·)) (start stop : α)
    (hx : ∃ x ∈ allIndex items a, start ≤ x ∧ x < stop) :
    ∃ r out, selectTimeRange (allIndex items a) (0, (allIndex items a).length)
        (some start) (some stop) = .ok r ∧
      concatenate [a] items (fun _ => some r.1) (fun _ => some r.2) = .ok out ∧
      out.index a = some (((allIndex items a).filter
        fun t => decide (start ≤ t ∧ t < stop)).map some) ∧
      ∀ it ∈ items, ∀ d ∈ it.dsets,
        out.dsets d.name = some ((((allIndex items a).zip (allData items d.name)).filter
          fun x => decide (start ≤ x.1 ∧ x.1 < stop)).map fun x => some x.2) := by
  obtain ⟨x, hxm, hx1, hx2⟩ := hx
  obtain ⟨i0, hi0, rfl⟩ := List.getElem_of_mem hxm
  obtain ⟨p, hp, hplt, hpspec⟩ := firstAtLeast_spec (allIndex items a) hs start ⟨_, hxm, hx1⟩
  obtain ⟨q, hq, hq0, hqle, hqspec⟩ := afterLastBelow_spec (allIndex items a) hs stop ⟨_, hxm, hx2⟩
  have hpq : p < q := by
    have h1 := (hpspec i0 hi0).1 hx1
    have h2 := (hqspec i0 hi0).1 hx2
    omega
  have hfrom : Slice.Spec.ascFrom (allIndex items a).length (some (p : Int)) = p := by
    simp only [Slice.Spec.ascFrom]; rw [if_neg (by omega)]
  have hto : Slice.Spec.ascTo (allIndex items a).length (some (q : Int)) = q := by
    simp only [Slice.Spec.ascTo]; rw [if_neg (by omega)]; omega
  obtain ⟨out, hok, hidx, hds⟩ := C35_concatenate_is_slice_partial [a] (by simp) items hne hu
    (fun _ => some (p : Int)) (fun _ => some (q : Int)) (by
      intro b hb
      obtain rfl : b = a := by simpa using hb
      refine ⟨?_, ?_⟩
      · intro s hs'
        have : (p : Int) = s := by simpa using hs'
        omega
      · rw [hfrom, hto]; omega)
  refine ⟨((p : Int), (q : Int)), out, ?_, hok, ?_, ?_⟩
  · simp only [selectTimeRange, hp, hq, bind, Except.bind, pure, Except.pure]
  · rw [hidx a (by simp)]
    congr 2
    rw [slice_one, hfrom, hto, Int.toNat_natCast, Int.toNat_natCast]
    apply drop_take_eq_filter _ _ _ _ hqle
    intro i hi
    rw [decide_eq_true_eq, hpspec i hi, hqspec i hi]
  · intro it hit d hd
    obtain ⟨a', ham, l, hf, hl, hlen⟩ := hu.long it hit d hd
    obtain rfl : a' = a := by simpa using ham
    have hlenD : (allData items d.name).length = (allIndex items a').length := by
      rw [allIndex_length]
      exact filtered_length [a'] id (fun _ => rfl) items items hu (fun _ h => h) it hit d hd a' hf
    have hslice : slice (allData items d.name) (some (p : Int)) (some (q : Int)) 1
        = ((allData items d.name).drop p).take (q - p) := by
      rw [slice_one, hlenD, hfrom, hto, Int.toNat_natCast, Int.toNat_natCast]
    rw [hds it hit d hd a' hf (by
      rw [hslice]
      intro h
      have := congrArg List.length h
      simp at this
      omega), hslice]
    congr 1
    rw [← drop_take_eq_filter ((allIndex items a').zip (allData items d.name)) _ p q (by
      simp [hlenD, hqle]) (by
      intro i hi
      have hi' : i < (allIndex items a').length := by
        rw [List.length_zip] at hi; omega
      rw [decide_eq_true_eq, List.getElem_zip, hpspec i hi', hqspec i hi'])]
    rw [show (fun x : α × α => some x.2) = some ∘ Prod.snd from rfl, ← List.map_map]
    congr 1
    rw [List.map_take, List.map_drop, List.map_snd_zip (by omega)]

example : Uniform ["time"] [exShort] ∧ (allIndex [exShort] "time").Pairwise (· ≤ ·) ∧
    ∃ x ∈ allIndex [exShort] "time", 2 ≤ x ∧ x < 3 := ⟨exShort_uniform, by decide, by decide⟩

end Verif.Tod
