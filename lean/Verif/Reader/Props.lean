import Verif.Reader.Lemmas

/-!
# C78: readers of time ordered data
-/
namespace Verif.Reader

open Verif.Mem (Str Node)
open Slice.Spec (slice)

variable {α : Type}

/-! ### What is listed -/

/-- **C78** A reader can be made for files that are alike, and starts with everything selected: all samples along the axis called time, and all datasets listed. -/
theorem C78_reader (ta : List String) (hnd : ta.Nodup) (ht : "time" ∈ ta) (files : List (Tree α)) (hne : files ≠ []) (h : Alike ta files) (maps : List (List α))
    (hm : List.Forall₂ (fun f l => HasMap f "time" l) files maps) :
    ∃ R, mkReader ta files = .ok R ∧ R.files = files ∧ R.sel = R.datasets ∧ R.timeSel = (0, (maps.flatten.length : Int)) := by
  obtain ⟨out, h1, h2, -⟩ := Tod.C35_concatenate_filtered_partial ta hnd (files.map (itemOf ta)) (by simpa using hne) (uniform ta files h) (fun _ => none) (fun _ => none)
    (by
      intro a _
      refine ⟨by intro s hs; simp at hs, ?_⟩
      simp [Slice.Spec.ascFrom, Slice.Spec.ascTo])
    (some []) id (fun _ => rfl)
  have hi := h2 "time" ht
  rw [allIndex_pieces ta files "time" maps hm] at hi
  cases files with
  | nil => exact absurd rfl hne
  | cons first rest =>
    unfold mkReader
    simp only [h1, hi]
    refine ⟨_, rfl, rfl, rfl, ?_⟩
    simp only [List.length_map]
    rw [Tod.slice_one]
    simp [Slice.Spec.ascFrom, Slice.Spec.ascTo]

/-- **C78** What a reader lists: the paths of the datasets in the first file that have a time axis, wherever they are. -/
theorem C78_listing (ta : List String) (first : Tree α) (rest : List (Tree α)) (R : Rd α) (h : mkReader ta (first :: rest) = .ok R) (name : String) :
    name ∈ R.datasets ↔ ∃ p d, At first p d ∧ Timed ta d ∧ name = joined p := by
  unfold mkReader at h
  cases hc : Tod.concatenate ta ((first :: rest).map (itemOf ta)) (fun _ => none) (fun _ => none) (some []) with
  | error e => rw [hc] at h; simp at h
  | ok o =>
    rw [hc] at h
    simp only at h
    cases hi : o.index "time" with
    | none => rw [hi] at h; simp at h
    | some l =>
      rw [hi] at h
      simp only [Except.ok.injEq] at h
      subst h
      simp only [List.mem_map]
      constructor
      · rintro ⟨⟨p, d⟩, h1, rfl⟩
        obtain ⟨h2, h3⟩ := ((crawl_mem ta _ p d).1).1 h1
        exact ⟨p, d, (below_root first p d).1 h2, h3, rfl⟩
      · rintro ⟨p, d, h1, h2, rfl⟩
        exact ⟨(p, d), ((crawl_mem ta _ p d).1).2 ⟨(below_root first p d).2 h1, h2⟩, rfl⟩

/-- **C78** A selection of datasets is taken if all of them are listed, and refused with `ValueError` otherwise; nothing else changes. -/
theorem C78_selection (R : Rd α) (value : List String) :
    ((∀ n ∈ value, n ∈ R.datasets) → setSel R value = .ok ⟨R.files, R.datasets, value, R.timeSel⟩) ∧
      ((∃ n ∈ value, n ∉ R.datasets) → setSel R value = .error .valueError) := by
  unfold setSel
  constructor
  · intro h
    rw [if_pos (by simpa using h)]
  · rintro ⟨n, h1, h2⟩
    rw [if_neg]
    intro hall
    exact h2 (by simpa using List.all_eq_true.1 hall n h1)

/-- **C78** The attributes of the result are those of the first file, and the datasets in its root without a time axis are copied with their attributes; nothing else is. -/
theorem C78_fixed (ta : List String) (a : List (Str × Nat)) (kids : List (Str × Tree α)) :
    ∃ r, restOf ta (.group a kids) = .ok r ∧ r.attrs = a ∧
      ∀ p d, (p, d) ∈ r.fixed ↔ ∃ k, p = [k] ∧ InRoot (.group a kids) k d ∧ ¬ Timed ta d := by
  obtain ⟨m, h1, -, -, h4⟩ := crawl_visible ta a kids
  unfold restOf
  rw [h4]
  unfold visible
  rw [copyRest, copyRest_flat]
  refine ⟨_, rfl, rfl, ?_⟩
  intro p d
  simp only [List.nil_append, List.mem_map, List.mem_filter, InRoot]
  constructor
  · rintro ⟨⟨k, d'⟩, ⟨h, h'⟩, he⟩
    cases he
    refine ⟨k, rfl, ⟨a, kids, rfl, (h1 k _).1 h⟩, ?_⟩
    intro ht
    rw [← hasAxis_iff] at ht
    simp [ht] at h'
  · rintro ⟨k, rfl, ⟨a', kids', he, h⟩, ht⟩
    cases he
    refine ⟨(k, d), ⟨(h1 k d).2 h, ?_⟩, rfl⟩
    rw [← hasAxis_iff] at ht
    simpa using ht

/-! ### What is read -/

/-- **C78** (partial) For files that are alike and a selection of samples that does not begin before the first sample nor after its end, `read` succeeds. Every time axis is the selected slice
of the axes of the files put end to end. So is every selected dataset in the root of which there is a sample. Nothing else is in the result.

Missing: datasets in groups are listed and can be selected, but are not read (`C78_nested_violated`); a dataset of which nothing is selected is not there (C35); all time axes are
sliced alike (`C78_axes_violated`). -/
theorem C78_read_partial (ta : List String) (hnd : ta.Nodup) (R : Rd α) (hne : R.files ≠ []) (h : Alike ta R.files)
    (hr : ∀ a ∈ ta, ∀ maps, List.Forall₂ (fun f l => HasMap f a l) R.files maps → Tod.InRange maps.flatten.length (some R.timeSel.1) (some R.timeSel.2)) :
    ∃ out, read ta R = .ok out ∧
      (∀ a ∈ ta, ∀ maps, List.Forall₂ (fun f l => HasMap f a l) R.files maps →
        out.index a = some ((slice maps.flatten (some R.timeSel.1) (some R.timeSel.2) 1).map some)) ∧
      (∀ k pieces, String.ofList k ∈ R.sel → List.Forall₂ (fun f l => ∃ d, InRoot f k d ∧ Timed ta d ∧ d.data = l) R.files pieces →
        slice pieces.flatten (some R.timeSel.1) (some R.timeSel.2) 1 ≠ [] →
        out.dsets (String.ofList k) = some ((slice pieces.flatten (some R.timeSel.1) (some R.timeSel.2) 1).map some)) ∧
      (∀ name, out.dsets name ≠ none → name ∈ R.sel ∧ ∃ f ∈ R.files, ∃ k d, InRoot f k d ∧ Timed ta d ∧ name = String.ofList k) := by
  have hmaps : ∀ a ∈ ta, ∀ l : List (Tree α), (∀ f ∈ l, f ∈ R.files) → ∃ maps, List.Forall₂ (fun f m => HasMap f a m) l maps := by
    intro a ha l
    induction l with
    | nil => exact fun _ => ⟨[], .nil⟩
    | cons f l ih =>
      intro hl
      obtain ⟨m, hm⟩ := h.maps f (hl f List.mem_cons_self) a ha
      obtain ⟨ms, hms⟩ := ih fun g hg => hl g (List.mem_cons_of_mem _ hg)
      exact ⟨m :: ms, .cons hm hms⟩
  obtain ⟨out, h1, h2, h3, h4⟩ := Tod.C35_concatenate_filtered_partial ta hnd (R.files.map (itemOf ta)) (by simpa using hne) (uniform ta R.files h)
    (fun _ => some R.timeSel.1) (fun _ => some R.timeSel.2)
    (by
      intro a ha
      obtain ⟨maps, hm⟩ := hmaps a ha R.files fun _ h => h
      rw [allIndex_pieces ta R.files a maps hm]
      exact hr a ha maps hm)
    (some R.sel) id (fun _ => rfl)
  refine ⟨out, ?_, ?_, ?_, ?_⟩
  · unfold read
    simp only [h1]
  · intro a ha maps hm
    rw [h2 a ha, allIndex_pieces ta R.files a maps hm]
  · intro k pieces hk hp hs
    have hall : ((R.files.map (itemOf ta)).flatMap fun i => id (Tod.column (String.ofList k) i)) = pieces.flatten := by
      rw [List.flatMap_map]
      apply flatMap_pieces _ _ _ _ hp
      rintro f hf l ⟨d, hd, ht, rfl⟩
      exact column_one ta f (h.once f hf) k d hd ht
    obtain ⟨f, hf⟩ := List.exists_mem_of_ne_nil _ hne
    have hex : ∃ d, InRoot f k d ∧ Timed ta d := by
      clear h1 h2 h3 h4 hall hs hr hmaps
      revert hf
      generalize R.files = fs at hp
      intro hf
      induction hp with
      | nil => simp at hf
      | cons hd _ ih =>
        rcases List.mem_cons.1 hf with rfl | h'
        · obtain ⟨d, hd, ht, -⟩ := hd
          exact ⟨d, hd, ht⟩
        · exact ih h'
    obtain ⟨d, hd, ht⟩ := hex
    obtain ⟨b, hb⟩ := timed_find ta d ht
    have hx : (⟨String.ofList k, d.axes, d.data⟩ : Tod.Dset α) ∈ (itemOf ta f).dsets := by
      obtain ⟨a, kids, rfl, hk'⟩ := hd
      exact (itemOf_dset ta a kids _).2 ⟨k, d, hk', ht, rfl⟩
    have := h3 (itemOf ta f) (List.mem_map.2 ⟨f, hf, rfl⟩) _ hx (by
      intro w hw
      cases hw
      exact hk) b hb
    simp only at this
    rw [hall] at this
    exact this hs
  · intro name hn
    refine ⟨?_, ?_⟩
    · by_contra hs
      exact hn (h4 R.sel name rfl hs)
    · obtain ⟨it, hit, x, hx, hxn⟩ := concatenate_names ta _ _ _ _ out h1 name hn
      obtain ⟨f, hf, rfl⟩ := List.mem_map.1 hit
      obtain ⟨a, kids, rfl, -⟩ := h.once f hf
      obtain ⟨k, d, h5, h6, rfl⟩ := (itemOf_dset ta a kids x).1 hx
      exact ⟨_, hf, k, d, ⟨a, kids, rfl, h5⟩, h6, hxn⟩

/-! ### Times -/

/-- The middle of a sample. -/
def centre (s : ℚ × ℚ) : ℚ := (s.1 + s.2) / 2

/-- **C78** `time` gives the centres of the samples, which all last as long as most time stamps are apart: for stamps at the start of the samples with alignment 1, at their end with
alignment -1, and in the middle without one. -/
theorem C78_centres (samples : List (ℚ × ℚ)) (δ : ℚ) (hw : ∀ s ∈ samples, s.2 - s.1 = |δ|) :
    (Mostly δ (samples.map Prod.fst) → time 1 (samples.map Prod.fst) = samples.map fun s => some (centre s)) ∧
      (Mostly δ (samples.map Prod.snd) → time (-1) (samples.map Prod.snd) = samples.map fun s => some (centre s)) ∧
      time 0 (samples.map centre) = samples.map fun s => some (centre s) := by
  refine ⟨?_, ?_, ?_⟩
  · intro h
    unfold time
    rw [if_neg (by norm_num), median_mostly δ _ h, List.map_map]
    apply List.map_congr_left
    intro s hs
    have := hw s hs
    simp only [Function.comp_apply, Option.map_some, Option.some.injEq, centre, ← this]
    ring
  · intro h
    unfold time
    rw [if_neg (by norm_num), median_mostly δ _ h, List.map_map]
    apply List.map_congr_left
    intro s hs
    have := hw s hs
    simp only [Function.comp_apply, Option.map_some, Option.some.injEq, centre, ← this]
    ring
  · unfold time
    rw [if_pos rfl, List.map_map]
    rfl

/-- A gap: three samples of ten seconds, then a minute without data, and two more. -/
example : (Mostly 10 [0, 10, 20, 80, 90]) ∧ time 1 [0, 10, 20, 80, 90] = [some 5, some 15, some 25, some 85, some 95] := by
  have h : Mostly 10 [0, 10, 20, 80, 90] := by
    refine ⟨{0, 1, 3}, ?_, by decide⟩
    intro i hi
    simp only [Finset.mem_insert, Finset.mem_singleton] at hi
    rcases hi with rfl | rfl | rfl
    · exact ⟨0, 10, rfl, rfl, by norm_num⟩
    · exact ⟨10, 20, rfl, rfl, by norm_num⟩
    · exact ⟨80, 90, rfl, rfl, by norm_num⟩
  refine ⟨h, ?_⟩
  have := (C78_centres [(0, 10), (10, 20), (20, 30), (80, 90), (90, 100)] 10 (by
    intro s hs
    simp only [List.mem_cons, List.not_mem_nil, or_false] at hs
    rcases hs with rfl | rfl | rfl | rfl | rfl <;> norm_num)).1 h
  simp only [List.map_cons, List.map_nil, centre] at this
  rw [this]
  norm_num

/-- **C78 fails** for a single sample: its centre is not known to the code, which gives `nan` for every alignment but zero. -/
theorem C78_single_violated (alignment t : ℚ) (h : alignment ≠ 0) : time alignment [t] = [none] := by
  unfold time
  rw [if_neg h]
  rfl

example : time (1 : ℚ) [100] = [none] := C78_single_violated 1 100 (by norm_num)

/-! ### Dictionaries -/

/-- **C78** (partial) Dictionaries given as `start` and `stop` can be used again for data of the same lengths.

Missing: for other data they give something else (`C78_dictionary_violated`). -/
theorem C78_dictionary_partial (ta : List String) (items items' : List (Tod.Item α)) (start stop : String → Option Int)
    (hl : ∀ a ∈ ta, Tod.totalLen items' a = Tod.totalLen items a)
    (hs : ∀ a ∈ ta, ∀ s, start a = some s ∨ stop a = some s → -(Tod.totalLen items a : Int) ≤ s) (wanted : Option (List String)) :
    Tod.concatenate ta items' (resolved ta items start stop).1 (resolved ta items start stop).2 wanted = Tod.concatenate ta items' start stop wanted := by
  have key : ∀ a, Tod.startStop ((resolved ta items start stop).1 a) ((resolved ta items start stop).2 a) (Tod.totalLen items' a) =
      Tod.startStop (start a) (stop a) (Tod.totalLen items' a) := by
    intro a
    unfold resolved
    by_cases ha : a ∈ ta
    · simp only [ha, if_true]
      have h1 := hl a ha
      have h2 := hs a ha
      rw [h1]
      unfold Tod.startStop
      cases h3 : start a with
      | none =>
        cases h4 : stop a with
        | none => simp
        | some e =>
          have := h2 e (.inr h4)
          simp only [Prod.mk.injEq]
          refine ⟨by simp, ?_⟩
          split_ifs <;> omega
      | some s =>
        have := h2 s (.inl h3)
        cases h4 : stop a with
        | none =>
          simp only [Prod.mk.injEq]
          refine ⟨?_, by simp⟩
          split_ifs <;> omega
        | some e =>
          have := h2 e (.inr h4)
          simp only [Prod.mk.injEq]
          constructor <;> split_ifs <;> omega
    · simp only [ha, if_false]
  unfold Tod.concatenate
  cases items' with
  | nil => rfl
  | cons first rest => simp only [key]

def times (n : Nat) : Tod.Item Nat := ⟨fun a => if a = "time" then some (List.range n) else none, []⟩

example : Tod.concatenate ["time"] [times 3, times 4] (resolved ["time"] [times 7] (fun _ => some (-2)) (fun _ => none)).1
    (resolved ["time"] [times 7] (fun _ => some (-2)) (fun _ => none)).2 = Tod.concatenate ["time"] [times 3, times 4] (fun _ => some (-2)) (fun _ => none) :=
  C78_dictionary_partial ["time"] [times 7] [times 3, times 4] _ _ (by decide) (by
    intro a ha s h
    simp only [List.mem_singleton] at ha
    subst ha
    simp only [Option.some.injEq, reduceCtorEq, or_false] at h
    subst h
    decide) none

/-- **C78 fails** for dictionaries used twice: "the last two samples" of five samples are then samples three and four of ten. -/
theorem C78_dictionary_violated :
    ∃ (start stop : String → Option Int) (out out' : Tod.Out Nat),
      Tod.concatenate ["time"] [times 10] start stop = .ok out ∧ out.index "time" = some [some 8, some 9] ∧
      Tod.concatenate ["time"] [times 10] (resolved ["time"] [times 5] start stop).1 (resolved ["time"] [times 5] start stop).2 = .ok out' ∧
      out'.index "time" = some [some 3, some 4] :=
  ⟨fun a => if a = "time" then some (-2) else none, fun _ => none, _, _, rfl, by decide, rfl, by decide⟩

/-! ### A concrete case -/

/-- A file with a dataset in the root, one in a group, and one without a time axis. -/
def exFile (t : List Nat) : Tree Nat :=
  .group [("n".toList, 1)]
    [("index_map".toList, .group [] [("time".toList, .dset ⟨[], [], t⟩)]),
     ("flags".toList, .group [] [("bad".toList, .dset ⟨["time"], [], t⟩)]),
     ("history".toList, .group [("order".toList, 5)] []),
     ("gain".toList, .dset ⟨["freq"], [("unit".toList, 2)], [7]⟩),
     ("vis".toList, .dset ⟨["freq", "time"], [], t.map (10 * ·)⟩)]

theorem exMap (t : List Nat) (l : List Nat) (a : String) (ha : a ∈ ["time"]) : HasMap (exFile t) a l ↔ l = t := by
  simp only [List.mem_singleton] at ha
  subst ha
  constructor
  · rintro ⟨a', kids, g, m, d, h1, h2, h3, rfl⟩
    cases h1
    have h2' : some (Node.group [] [("time".toList, Node.dset ⟨[], [], t⟩)]) = some (Node.group g m) := h2
    cases h2'
    have h3' : some (Node.dset ⟨[], [], t⟩) = some (Node.dset d) := h3
    cases h3'
    rfl
  · rintro rfl
    exact ⟨_, _, [], [("time".toList, .dset ⟨[], [], l⟩)], ⟨[], [], l⟩, rfl, rfl, rfl, rfl⟩

theorem exRoot (t : List Nat) (k : Str) (d : TDs Nat) :
    InRoot (exFile t) k d ↔ (k = "gain".toList ∧ d = ⟨["freq"], [("unit".toList, 2)], [7]⟩) ∨ (k = "vis".toList ∧ d = ⟨["freq", "time"], [], t.map (10 * ·)⟩) := by
  constructor
  · rintro ⟨a, kids, he, h⟩
    cases he
    simpa using h
  · intro h
    exact ⟨_, _, rfl, by simpa using h⟩

theorem exAlike : Alike ["time"] [exFile [1, 2, 3], exFile [4, 5]] := by
  have hf : ∀ f ∈ [exFile [1, 2, 3], exFile [4, 5]], ∃ t, f = exFile t := by
    intro f hf
    simp only [List.mem_cons, List.not_mem_nil, or_false] at hf
    rcases hf with rfl | rfl
    · exact ⟨_, rfl⟩
    · exact ⟨_, rfl⟩
  refine ⟨?_, ?_, ?_, ?_⟩
  · intro f h
    obtain ⟨t, rfl⟩ := hf f h
    refine ⟨_, _, rfl, ?_⟩
    change ["index_map".toList, "flags".toList, "history".toList, "gain".toList, "vis".toList].Nodup
    decide
  · intro f h a ha
    obtain ⟨t, rfl⟩ := hf f h
    exact ⟨t, (exMap t t a ha).2 rfl⟩
  · intro f h k d a l hd ha hl
    obtain ⟨t, rfl⟩ := hf f h
    obtain ⟨b, c, h1, h2, -⟩ := ha
    rw [(exMap t l a h2).1 hl]
    rcases (exRoot t k d).1 hd with ⟨-, rfl⟩ | ⟨-, rfl⟩
    · have : a ∈ ["freq"] := by
        change ["freq"] = _ at h1
        rw [h1]
        simp
      simp only [List.mem_singleton] at this h2
      rw [this] at h2
      exact absurd h2 (by decide)
    · simp
  · intro f h f' h' k d hd ht
    obtain ⟨t, rfl⟩ := hf f h
    obtain ⟨t', rfl⟩ := hf f' h'
    rcases (exRoot t k d).1 hd with ⟨rfl, rfl⟩ | ⟨rfl, rfl⟩
    · exact ⟨_, (exRoot t' _ _).2 (.inl ⟨rfl, rfl⟩), rfl⟩
    · exact ⟨_, (exRoot t' _ _).2 (.inr ⟨rfl, rfl⟩), rfl⟩

theorem exMaps : List.Forall₂ (fun f l => HasMap f "time" l) [exFile [1, 2, 3], exFile [4, 5]] [[1, 2, 3], [4, 5]] :=
  .cons ((exMap _ _ _ (by simp)).2 rfl) (.cons ((exMap _ _ _ (by simp)).2 rfl) .nil)

theorem exMaps_only (maps : List (List Nat)) (h : List.Forall₂ (fun f l => HasMap f "time" l) [exFile [1, 2, 3], exFile [4, 5]] maps) : maps = [[1, 2, 3], [4, 5]] := by
  cases h with
  | cons h1 h2 =>
    cases h2 with
    | cons h3 h4 =>
      cases h4
      rw [(exMap _ _ _ (by simp)).1 h1, (exMap _ _ _ (by simp)).1 h3]

/-- Samples 1 to 4 of two files. -/
example : ∃ out, read ["time"] ⟨[exFile [1, 2, 3], exFile [4, 5]], ["flags/bad", "vis"], ["vis"], (1, 4)⟩ = .ok out ∧
    out.index "time" = some [some 2, some 3, some 4] ∧ out.dsets "vis" = some [some 20, some 30, some 40] ∧ out.dsets "flags/bad" = none := by
  obtain ⟨out, h1, h2, h3, h4⟩ := C78_read_partial ["time"] (by simp) ⟨[exFile [1, 2, 3], exFile [4, 5]], ["flags/bad", "vis"], ["vis"], (1, 4)⟩ (by simp) exAlike (by
    intro a ha maps hm
    simp only [List.mem_singleton] at ha
    subst ha
    rw [exMaps_only maps hm]
    decide)
  refine ⟨out, h1, ?_, ?_, ?_⟩
  · rw [h2 "time" (by simp) [[1, 2, 3], [4, 5]] exMaps]
    decide
  · have := h3 "vis".toList [[10, 20, 30], [40, 50]] (by decide)
      (.cons ⟨_, (exRoot _ _ _).2 (.inr ⟨rfl, rfl⟩), ⟨"time", by simp, by simp⟩, rfl⟩
        (.cons ⟨_, (exRoot _ _ _).2 (.inr ⟨rfl, rfl⟩), ⟨"time", by simp, by simp⟩, rfl⟩ .nil)) (by decide)
    exact this.trans (by decide)
  · by_contra hn
    exact absurd (h4 "flags/bad" hn).1 (by decide)

/-- The reader for the two files. -/
theorem exReader : ∃ R, mkReader ["time"] [exFile [1, 2, 3], exFile [4, 5]] = .ok R ∧ R.files = [exFile [1, 2, 3], exFile [4, 5]] ∧ R.timeSel = (0, 5) ∧
    "flags/bad" ∈ R.datasets ∧ "vis" ∈ R.datasets ∧ "gain" ∉ R.datasets ∧ R.sel = R.datasets := by
  obtain ⟨R, h1, h2, h3, h4⟩ := C78_reader ["time"] (by simp) (by simp) _ (by simp) exAlike _ exMaps
  have hl := fun n => C78_listing ["time"] _ _ R h1 n
  refine ⟨R, h1, h2, h4, ?_, ?_, ?_, h3⟩
  · rw [hl]
    refine ⟨["flags".toList, "bad".toList], ⟨["time"], [], [1, 2, 3]⟩, ?_, ⟨"time", by simp, by simp⟩, by decide⟩
    have h : At (Node.group [] [("bad".toList, Node.dset ⟨["time"], [], [1, 2, 3]⟩)] : Tree Nat) ["bad".toList] ⟨["time"], [], [1, 2, 3]⟩ :=
      .kid _ _ _ _ _ _ List.mem_cons_self (.here _)
    exact .kid _ _ _ _ _ _ (by simp) h
  · rw [hl]
    exact ⟨["vis".toList], ⟨["freq", "time"], [], [10, 20, 30]⟩, .kid _ _ _ _ _ _ (by simp) (.here _), ⟨"time", by simp, by simp⟩, by decide⟩
  · rw [hl]
    rintro ⟨p, d, h, ht, hn⟩
    unfold exFile at h
    obtain ⟨k, n, q, hk, rfl, h'⟩ := (at_group _ _ _ _).1 h
    simp only [List.mem_cons, Prod.mk.injEq, List.not_mem_nil, or_false] at hk
    rcases hk with ⟨rfl, rfl⟩ | ⟨rfl, rfl⟩ | ⟨rfl, rfl⟩ | ⟨rfl, rfl⟩ | ⟨rfl, rfl⟩
    · obtain ⟨k, n, q, hk, rfl, h'⟩ := (at_group _ _ _ _).1 h'
      simp only [List.mem_cons, Prod.mk.injEq, List.not_mem_nil, or_false] at hk
      obtain ⟨rfl, rfl⟩ := hk
      obtain ⟨rfl, rfl⟩ := (at_dset _ _ _).1 h'
      obtain ⟨_, h1, _⟩ := ht
      simp at h1
    · obtain ⟨k, n, q, hk, rfl, h'⟩ := (at_group _ _ _ _).1 h'
      simp only [List.mem_cons, Prod.mk.injEq, List.not_mem_nil, or_false] at hk
      obtain ⟨rfl, rfl⟩ := hk
      obtain ⟨rfl, rfl⟩ := (at_dset _ _ _).1 h'
      revert hn
      decide
    · obtain ⟨k, n, q, hk, rfl, h'⟩ := (at_group _ _ _ _).1 h'
      simp at hk
    · obtain ⟨rfl, rfl⟩ := (at_dset _ _ _).1 h'
      obtain ⟨a, h1, h2⟩ := ht
      simp only [List.mem_singleton] at h1 h2
      rw [h1] at h2
      exact absurd h2 (by decide)
    · obtain ⟨rfl, rfl⟩ := (at_dset _ _ _).1 h'
      revert hn
      decide

/-- Selecting one of the datasets, and one that does not exist. -/
example : (∃ R R', mkReader ["time"] [exFile [1, 2, 3], exFile [4, 5]] = .ok R ∧ setSel R ["vis"] = .ok R' ∧ R'.sel = ["vis"]) ∧
    ∃ R, mkReader ["time"] [exFile [1, 2, 3], exFile [4, 5]] = .ok R ∧ setSel R ["vis", "gain"] = .error .valueError := by
  obtain ⟨R, h1, -, -, -, h5, h6, -⟩ := exReader
  exact ⟨⟨R, _, h1, (C78_selection R ["vis"]).1 (by simpa using h5), rfl⟩, R, h1, (C78_selection R ["vis", "gain"]).2 ⟨"gain", by simp, h6⟩⟩

/-- The dataset without a time axis, and the attribute. -/
example : ∃ r, restOf ["time"] (exFile [1, 2, 3]) = .ok r ∧ r.attrs = [("n".toList, 1)] ∧ ((["gain".toList], ⟨["freq"], [("unit".toList, 2)], [7]⟩) : List Str × TDs Nat) ∈ r.fixed := by
  obtain ⟨r, h1, h2, h3⟩ := C78_fixed ["time"] [("n".toList, 1)] (kidsOf (exFile [1, 2, 3]))
  refine ⟨r, h1, h2, (h3 _ _).2 ⟨_, rfl, ⟨_, _, rfl, by simp [exFile, kidsOf]⟩, ?_⟩⟩
  rintro ⟨a, h4, h5⟩
  simp only [List.mem_singleton] at h4 h5
  rw [h4] at h5
  exact absurd h5 (by decide)

/-! ### Where the property fails -/

/-- **C78 fails** for datasets in groups: one is listed, and can be selected alone, and then nothing is read. -/
theorem C78_nested_violated :
    ∃ (files : List (Tree Nat)) (R R' : Rd Nat) (out : Tod.Out Nat), Alike ["time"] files ∧ mkReader ["time"] files = .ok R ∧ "flags/bad" ∈ R.datasets ∧
      setSel R ["flags/bad"] = .ok R' ∧ read ["time"] R' = .ok out ∧ ∀ name, out.dsets name = none := by
  obtain ⟨R, h1, h2, h3, h4, -, -, -⟩ := exReader
  have h5 := (C78_selection R ["flags/bad"]).1 (by simpa using h4)
  rw [h2, h3] at h5
  obtain ⟨out, h6, -, -, h7⟩ := C78_read_partial ["time"] (by simp) ⟨[exFile [1, 2, 3], exFile [4, 5]], R.datasets, ["flags/bad"], (0, 5)⟩ (by simp) exAlike (by
    intro a ha maps hm
    simp only [List.mem_singleton] at ha
    subst ha
    rw [exMaps_only maps hm]
    change Tod.InRange 5 (some 0) (some 5)
    decide)
  refine ⟨[exFile [1, 2, 3], exFile [4, 5]], R, _, out, exAlike, h1, h4, h5, h6, ?_⟩
  intro name
  by_contra hn
  obtain ⟨h8, f, hf, k, d, hd, -, hk⟩ := h7 name hn
  simp only [List.mem_singleton] at h8
  subst h8
  obtain ⟨t, rfl⟩ : ∃ t, f = exFile t := by
    simp only [List.mem_cons, List.not_mem_nil, or_false] at hf
    rcases hf with rfl | rfl
    · exact ⟨_, rfl⟩
    · exact ⟨_, rfl⟩
  rcases (exRoot t k d).1 hd with ⟨rfl, -⟩ | ⟨rfl, -⟩
  · revert hk
    decide
  · revert hk
    decide

/-- **C78 fails** for the history, which the documentation says is copied: whatever the files have, it is empty afterwards. -/
theorem C78_history_violated :
    (∀ (a : List (Str × Nat)) (kids : List (Str × Tree Nat)) (r : Rest Nat), restOf ["time"] (.group a kids) = .ok r → r.history = []) ∧
      ∃ kids, (exFile [1] : Tree Nat) = .group [("n".toList, 1)] kids ∧ ("history".toList, Node.group [("order".toList, 5)] []) ∈ kids := by
  refine ⟨?_, _, rfl, by simp⟩
  intro a kids r h
  obtain ⟨m, -, -, -, h4⟩ := crawl_visible ["time"] a kids
  unfold restOf at h
  rw [h4] at h
  unfold visible at h
  rw [copyRest, copyRest_flat] at h
  cases h
  rfl

/-- A file with two time axes. -/
def twoAxes : Tree Nat :=
  .group [] [("index_map".toList, .group [] [("time".toList, .dset ⟨[], [], [1]⟩), ("utime".toList, .dset ⟨[], [], [4, 5, 6]⟩)]),
    ("gain".toList, .dset ⟨["utime"], [], [7, 8, 9]⟩)]

theorem twoMap (a : String) (l : List Nat) : HasMap twoAxes a l ↔ (a = "time" ∧ l = [1]) ∨ (a = "utime" ∧ l = [4, 5, 6]) := by
  constructor
  · rintro ⟨a', kids, g, m, d, h1, h2, h3, rfl⟩
    cases h1
    have h2' : some (Node.group [] [("time".toList, Node.dset ⟨[], [], [1]⟩), ("utime".toList, Node.dset ⟨[], [], [4, 5, 6]⟩)]) = some (Node.group g m) := h2
    cases h2'
    rw [List.lookup_cons] at h3
    split at h3
    · rename_i h4
      cases h3
      exact .inl ⟨String.toList_inj.1 (eq_of_beq h4), rfl⟩
    · rw [List.lookup_cons] at h3
      split at h3
      · rename_i h4
        cases h3
        exact .inr ⟨String.toList_inj.1 (eq_of_beq h4), rfl⟩
      · simp at h3
  · rintro (⟨rfl, rfl⟩ | ⟨rfl, rfl⟩)
    · exact ⟨_, _, _, _, ⟨[], [], [1]⟩, rfl, rfl, rfl, rfl⟩
    · exact ⟨_, _, _, _, ⟨[], [], [4, 5, 6]⟩, rfl, rfl, rfl, rfl⟩

theorem twoRoot (k : Str) (d : TDs Nat) : InRoot twoAxes k d ↔ k = "gain".toList ∧ d = ⟨["utime"], [], [7, 8, 9]⟩ := by
  constructor
  · rintro ⟨a, kids, he, h⟩
    cases he
    simpa using h
  · intro h
    exact ⟨_, _, rfl, by simpa using h⟩

theorem twoAlike : Alike ["time", "utime"] [twoAxes] := by
  refine ⟨?_, ?_, ?_, ?_⟩
  · intro f h
    simp only [List.mem_singleton] at h
    subst h
    refine ⟨_, _, rfl, ?_⟩
    change ["index_map".toList, "gain".toList].Nodup
    decide
  · intro f h a ha
    simp only [List.mem_singleton] at h
    subst h
    simp only [List.mem_cons, List.not_mem_nil, or_false] at ha
    rcases ha with rfl | rfl
    · exact ⟨_, (twoMap _ _).2 (.inl ⟨rfl, rfl⟩)⟩
    · exact ⟨_, (twoMap _ _).2 (.inr ⟨rfl, rfl⟩)⟩
  · intro f h k d a l hd ha hl
    simp only [List.mem_singleton] at h
    subst h
    obtain ⟨-, rfl⟩ := (twoRoot k d).1 hd
    obtain ⟨b, c, h1, -, -⟩ := ha
    have : a ∈ ["utime"] := by
      change ["utime"] = _ at h1
      rw [h1]
      simp
    simp only [List.mem_singleton] at this
    subst this
    rcases (twoMap _ l).1 hl with ⟨h2, -⟩ | ⟨-, rfl⟩
    · exact absurd h2 (by decide)
    · rfl
  · intro f h f' h' k d hd ht
    simp only [List.mem_singleton] at h h'
    subst h h'
    exact ⟨d, hd, rfl⟩

/-- **C78 fails** for a second time axis that is longer than the axis called time: with everything selected, as at the beginning, samples of it are left out. -/
theorem C78_axes_violated :
    ∃ (files : List (Tree Nat)) (R : Rd Nat) (out : Tod.Out Nat), Alike ["time", "utime"] files ∧ mkReader ["time", "utime"] files = .ok R ∧
      HasMap twoAxes "utime" [4, 5, 6] ∧ InRoot twoAxes "gain".toList ⟨["utime"], [], [7, 8, 9]⟩ ∧ files = [twoAxes] ∧
      read ["time", "utime"] R = .ok out ∧ out.index "utime" = some [some 4] ∧ out.dsets "gain" = some [some 7] := by
  obtain ⟨R, h1, h2, h3, h4⟩ := C78_reader ["time", "utime"] (by decide) (by simp) [twoAxes] (by simp) twoAlike [[1]] (.cons ((twoMap _ _).2 (.inl ⟨rfl, rfl⟩)) .nil)
  have h4' : R.timeSel = (0, 1) := h4
  have hl : "gain" ∈ R.sel := by
    rw [h3, C78_listing _ _ _ R h1]
    exact ⟨["gain".toList], ⟨["utime"], [], [7, 8, 9]⟩, .kid _ _ _ _ _ _ (by simp) (.here _), ⟨"utime", by simp, by simp⟩, by decide⟩
  obtain ⟨out, h5, h6, h7, -⟩ := C78_read_partial ["time", "utime"] (by decide) R (by simp [h2]) (by rw [h2]; exact twoAlike) (by
    intro a ha maps hm
    rw [h2] at hm
    cases hm with
    | cons hm1 hm2 =>
      cases hm2
      rw [h4']
      rcases (twoMap _ _).1 hm1 with ⟨-, rfl⟩ | ⟨-, rfl⟩ <;> decide)
  refine ⟨[twoAxes], R, out, twoAlike, h1, (twoMap _ _).2 (.inr ⟨rfl, rfl⟩), (twoRoot _ _).2 ⟨rfl, rfl⟩, rfl, h5, ?_, ?_⟩
  · rw [h6 "utime" (by simp) [[4, 5, 6]] (by rw [h2]; exact .cons ((twoMap _ _).2 (.inr ⟨rfl, rfl⟩)) .nil), h4']
    decide
  · have := h7 "gain".toList [[7, 8, 9]] (by simpa using hl) (by
      rw [h2]
      exact .cons ⟨_, (twoRoot _ _).2 ⟨rfl, rfl⟩, ⟨"utime", by simp, by simp⟩, rfl⟩ .nil) (by rw [h4']; decide)
    rw [h4'] at this
    exact this.trans (by decide)

end Verif.Reader
