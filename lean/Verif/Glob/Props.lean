import Verif.Glob.Lemmas
import Verif.Tod.Props

/-!
# C111: files by pattern
-/
namespace Verif.Glob
open Verif.Tod (Item Axis Out Name Uniform InRange allIndex)

variable {α : Type}

/-- **C111** (matching). A name matches a pattern if it fits it in the sense of the documentation. -/
theorem C111_matching (pat name : Str) : fnmatch pat name = true ↔ Fits pat name := fnmatch_fits pat name

/-- The pattern "prefix, star, suffix" without other wildcards stands for the names with that prefix and suffix. -/
theorem C111_star (pre suf name : Str) (p1 : Plain pre) (p2 : Plain suf) : Fits (pre ++ '*' :: suf) name ↔ ∃ x, name = pre ++ x ++ suf := by
  have h1 := plain_not_magic p1
  have h2 := plain_not_magic p2
  clear p1 p2
  induction pre generalizing name with
  | nil =>
    constructor
    · intro h
      cases h with
      | star x h => exact ⟨x, by rw [(fits_literal suf _ h2).1 h]; simp⟩
      | char h => exact absurd rfl h
    · rintro ⟨x, rfl⟩
      exact .star x ((fits_literal suf _ h2).2 rfl)
  | cons c pre ih =>
    obtain ⟨n1, n2, n3, n4⟩ := not_magic_cons h1
    constructor
    · intro h
      generalize hq : c :: pre ++ '*' :: suf = q at h
      cases h with
      | nil => cases hq
      | char _ _ _ h =>
        simp only [List.cons_append, List.cons.injEq] at hq
        obtain ⟨rfl, rfl⟩ := hq
        obtain ⟨x, rfl⟩ := (ih _ n4).1 h
        exact ⟨x, by simp⟩
      | star => simp only [List.cons_append, List.cons.injEq] at hq; exact absurd hq.1 n1
      | one => simp only [List.cons_append, List.cons.injEq] at hq; exact absurd hq.1 n2
      | set => simp only [List.cons_append, List.cons.injEq] at hq; exact absurd hq.1 n3
      | notSet => simp only [List.cons_append, List.cons.injEq] at hq; exact absurd hq.1 n3
      | bracket => simp only [List.cons_append, List.cons.injEq] at hq; exact absurd hq.1 n3
    · rintro ⟨x, rfl⟩
      exact .char n1 n2 n3 ((ih _ n4).2 ⟨x, by simp⟩)

/-- **C111** (pattern). The files are those that the pattern stands for, each once, in ascending order of their paths. Wildcards may be in the names of directories, too. -/
theorem C111_pattern (ls : Str → List Str) (hn : ∀ d, (ls d).Nodup) (hs : ∀ d, ∀ e ∈ ls d, '/' ∉ e) (dir : Str) (comps : List Str) (base : Str) :
    ∃ l : List Str, ensureFileList (α := α) ls (.name dir comps base) = .ok (l.map .name) ∧ l.Pairwise (· < ·) ∧
      ∀ f, f ∈ l ↔ Named ls dir comps base f := by
  refine ⟨_, rfl, sorted_asc _ (glob_nodup ls hn hs dir comps base), fun f => ?_⟩
  rw [← mem_glob]
  exact (List.perm_insertionSort _ _).mem_iff

/-- **C111** (order of listing). Whatever the pattern, the files and the joined data do not depend on the order in which the directories are listed. -/
theorem C111_listing (timeAxes : List Axis) (ls ls' : Str → List Str) (h : ∀ d, (ls d).Perm (ls' d)) (content : Str → Option (Item α)) (files : Files α)
    (start stop : Axis → Option Int) (wanted : Option (List Name)) :
    ensureFileList ls files = ensureFileList ls' files ∧
    fromMultFiles timeAxes ls content files start stop wanted = fromMultFiles timeAxes ls' content files start stop wanted ∧
    readerTimes timeAxes ls content files = readerTimes timeAxes ls' content files := by
  have he : ensureFileList ls files = ensureFileList ls' files := by
    cases files with
    | name dir comps base => simp only [ensureFileList, sorted_perm (glob_perm h dir comps base)]
    | _ => rfl
  have hr : readerFiles (α := α) ls files = readerFiles ls' files := by
    cases files with
    | name dir comps base => simp only [readerFiles, sorted_perm (glob_perm h dir comps base)]
    | _ => rfl
  refine ⟨he, by unfold fromMultFiles; rw [he], ?_⟩
  unfold readerTimes fromMultFiles
  rw [hr]
  cases files <;> rfl

/-- **C111** (one name). A name without wildcards stands for that file; if it is not there, there is nothing to join and `IndexError` is raised. -/
theorem C111_literal_partial (timeAxes : List Axis) (ls : Str → List Str) (content : Str → Option (Item α)) (dir base : Str) (hp : Plain base)
    (start stop : Axis → Option Int) (wanted : Option (List Name)) :
    (base ∈ ls dir → ensureFileList (α := α) ls (.name dir [] base) = .ok [.name (dir ++ base)]) ∧
    (base ∉ ls dir → fromMultFiles timeAxes ls content (.name dir [] base) start stop wanted = .error (.tod .indexError)) := by
  have hm := plain_not_magic hp
  constructor
  · intro h
    simp [ensureFileList, glob, globIn, hm, h, sorted]
  · intro h
    simp [fromMultFiles, ensureFileList, glob, globIn, hm, h, sorted, openAll, Tod.concatenate]

/-- **C111** (sequences). Files given in a sequence are joined in its order, one that is open already is joined alone. -/
theorem C111_sequence (timeAxes : List Axis) (ls : Str → List Str) (content : Str → Option (Item α)) (l : List Str) (it : Str → Item α)
    (hc : ∀ f ∈ l, content f = some (it f)) (g : Item α) (start stop : Axis → Option Int) (wanted : Option (List Name)) :
    fromMultFiles timeAxes ls content (.seq (l.map .name)) start stop wanted = (Tod.concatenate timeAxes (l.map it) start stop wanted).mapError .tod ∧
    fromMultFiles timeAxes ls content (.group g) start stop wanted = (Tod.concatenate timeAxes [g] start stop wanted).mapError .tod := by
  constructor
  · unfold fromMultFiles
    simp only [ensureFileList, openAll_ok content l it hc]
    cases Tod.concatenate timeAxes (l.map it) start stop wanted <;> rfl
  · unfold fromMultFiles
    simp only [ensureFileList, openAll, openRef]
    cases Tod.concatenate timeAxes [g] start stop wanted <;> rfl

/-- **C111** (times). If the times in every file ascend and files with later names have later times, the times of the joined data ascend, and are those of the files that the pattern
stands for. `r` is the order of times. The same for the reader. -/
theorem C111_times_partial (timeAxes : List Axis) (hnd : timeAxes.Nodup) (ls : Str → List Str) (hn : ∀ d, (ls d).Nodup) (hs : ∀ d, ∀ e ∈ ls d, '/' ∉ e) (content : Str → Option (Item α)) (dir : Str) (comps : List Str) (base : Str)
    (hne : ∃ f, Named ls dir comps base f) (it : Str → Item α)
    (hc : ∀ f, Named ls dir comps base f → content f = some (it f)) (hu : ∀ l : List Str, (∀ f ∈ l, Named ls dir comps base f) → Uniform timeAxes (l.map it))
    (a : Axis) (ha : a ∈ timeAxes) (r : α → α → Prop)
    (hin : ∀ f, Named ls dir comps base f → (((it f).index a).getD []).Pairwise r)
    (hbetween : ∀ f g, Named ls dir comps base f → Named ls dir comps base g → f < g → ∀ s ∈ ((it f).index a).getD [], ∀ t ∈ ((it g).index a).getD [], r s t) :
    ∃ (out : Out α) (times : List α), fromMultFiles timeAxes ls content (.name dir comps base) (fun _ => none) (fun _ => none) none = .ok out ∧
      out.index a = some (times.map some) ∧ times.Pairwise r ∧
      (∀ t, t ∈ times ↔ ∃ f, Named ls dir comps base f ∧ t ∈ ((it f).index a).getD []) ∧
      ∃ out', readerTimes timeAxes ls content (.name dir comps base) = .ok out' ∧ out'.index a = some (times.map some) := by
  obtain ⟨l, e1, e2, e3⟩ := C111_pattern (α := α) ls hn hs dir comps base
  have hl : l.map it ≠ [] := by
    obtain ⟨f, hf⟩ := hne
    intro h
    rw [List.map_eq_nil_iff] at h
    have := (e3 f).2 hf
    simp [h] at this
  have hr : ∀ a ∈ timeAxes, InRange (allIndex (l.map it) a).length none none := by
    intro b _
    exact ⟨fun s hs => (by cases hs), by simp [Slice.Spec.ascFrom, Slice.Spec.ascTo]⟩
  have hslice : ∀ xs : List α, Slice.Spec.slice xs none none 1 = xs := by
    intro xs
    unfold Slice.Spec.slice Slice.Spec.positions
    have : (List.range xs.length).filter (fun g => decide (Slice.Spec.Selects xs.length none none 1 g)) = List.range xs.length := by
      rw [List.filter_eq_self]
      intro g hg
      rw [decide_eq_true_eq]
      unfold Slice.Spec.Selects Slice.Spec.ascFrom Slice.Spec.ascTo
      rw [if_pos (by decide)]
      have := List.mem_range.1 hg
      exact ⟨Int.natCast_nonneg g, by show (g : Int) < xs.length; omega, Int.one_dvd _⟩
    simp only [this, if_pos (show (0 : Int) < 1 by decide)]
    apply List.ext_getElem?
    intro i
    clear this
    have : ∀ n ≤ xs.length, ((List.range n).filterMap (xs[·]?)) = xs.take n := by
      intro n hn
      induction n with
      | zero => simp
      | succ n ih =>
        rw [List.range_succ, List.filterMap_append, ih (by omega), List.take_add_one, List.getElem?_eq_getElem (by omega)]
        simp [List.getElem?_eq_getElem (show n < xs.length by omega)]
    rw [this _ (Nat.le_refl _), List.take_length]
  have ho : openAll content (l.map .name) = .ok (l.map it) := openAll_ok content l it fun f hf => hc f ((e3 f).1 hf)
  have hU := hu l fun f hf => (e3 f).1 hf
  obtain ⟨out, g1, g2, -, -⟩ := Tod.C35_concatenate_filtered_partial timeAxes hnd (l.map it) hl hU (fun _ => none) (fun _ => none) hr none id (fun _ => rfl)
  obtain ⟨out', g1', g2', -, -⟩ := Tod.C35_concatenate_filtered_partial timeAxes hnd (l.map it) hl hU (fun _ => none) (fun _ => none) hr (some []) id (fun _ => rfl)
  have ht : allIndex (l.map it) a = l.flatMap fun f => ((it f).index a).getD [] := by
    unfold allIndex
    rw [List.flatMap_map]
  refine ⟨out, l.flatMap fun f => ((it f).index a).getD [], ?_, ?_, ?_, ?_, out', ?_, ?_⟩
  · unfold fromMultFiles
    simp only [e1, ho, g1]
  · rw [g2 a ha, hslice, ht]
  · rw [List.pairwise_flatMap]
    exact ⟨fun f hf => hin f ((e3 f).1 hf), List.Pairwise.imp_of_mem (fun hf hg hlt => hbetween _ _ ((e3 _).1 hf) ((e3 _).1 hg) hlt) e2⟩
  · intro t
    simp only [List.mem_flatMap, e3]
  · have e1' : readerFiles (α := α) ls (.name dir comps base) = .seq (l.map .name) := by
      simp only [ensureFileList, Except.ok.injEq] at e1
      simp only [readerFiles, e1]
    unfold readerTimes fromMultFiles
    rw [e1']
    simp only [ensureFileList, ho, g1']
  · rw [g2' a ha, hslice, ht]

/-! ## A directory -/

/-- Two files with two times each. -/
def file (t : Nat) : Item Nat := ⟨fun a => if a = "time" then some [t, t + 1] else none, []⟩

def names (l : List String) : List Str := l.map String.toList

/-- A directory with files of times 9 and 10, and others. -/
def listing (d : Str) : List Str := if d = "d/".toList then names ["t_09.h5", "notes.txt", ".t_11.h5", "t_11.h5"] else []

def stored (s : Str) : Option (Item Nat) := if s = "d/t_09.h5".toList then some (file 9) else if s = "d/t_11.h5".toList then some (file 11) else none

example : ensureFileList (α := Nat) listing (.name "d/".toList [] "t_*.h5".toList) = .ok ((names ["d/t_09.h5", "d/t_11.h5"]).map .name) := by rfl

example : Named listing "d/".toList [] "t_*.h5".toList "d/t_11.h5".toList :=
  .name (e := "t_11.h5".toList) (by decide) ⟨(C111_matching _ _).1 (by decide), by decide⟩

example : ∃ out, fromMultFiles ["time"] listing stored (.name "d/".toList [] "t_*.h5".toList) (fun _ => none) (fun _ => none) none = .ok out ∧
    out.index "time" = some [some 9, some 10, some 11, some 12] := ⟨_, rfl, by decide⟩

/-- Directories of days; a pattern for these and for the names. -/
def days (d : Str) : List Str :=
  if d = [] then names ["day2", "log", "day1", ".day0"]
  else if d = "day1/".toList then names ["b.h5", "a.h5"]
  else if d = "day2/".toList then names ["a.h5", "x.txt"]
  else if d = "log/".toList then names ["a.h5"]
  else []

example : ensureFileList (α := Nat) days (.name [] ["day?".toList] "*.h5".toList) = .ok ((names ["day1/a.h5", "day1/b.h5", "day2/a.h5"]).map .name) := by rfl

example : ∃ l : List Str, ensureFileList (α := Nat) days (.name [] ["*".toList] "a.h5".toList) = .ok (l.map .name) ∧ l = names ["day1/a.h5", "day2/a.h5", "log/a.h5"] := ⟨_, rfl, rfl⟩

/-- A set and its negation, a closing bracket in the first place, and an opening one that is not closed. -/
example : Fits "t_[0-5]?.h5".toList "t_09.h5".toList ∧ ¬ Fits "t_[!0-5]*".toList "t_09.h5".toList ∧ Fits "[]x]".toList "]".toList ∧ Fits "a[".toList "a[".toList := by
  refine ⟨(C111_matching _ _).1 (by decide), fun h => absurd ((C111_matching _ _).2 h) (by decide), (C111_matching _ _).1 (by decide), (C111_matching _ _).1 (by decide)⟩

/-- **C111 fails** for times in the names without leading zeros: the file of time 11 is joined before that of time 9, so the times do not ascend. -/
theorem C111_numbers_violated :
    ∃ (ls : Str → List Str) (content : Str → Option (Item Nat)) (out : Out Nat), ls [] = names ["t_9.h5", "t_11.h5"] ∧
      content "t_9.h5".toList = some (file 9) ∧ content "t_11.h5".toList = some (file 11) ∧
      fromMultFiles ["time"] ls content (.name [] [] "t_*.h5".toList) (fun _ => none) (fun _ => none) none = .ok out ∧
      out.index "time" = some [some 11, some 12, some 9, some 10] :=
  ⟨fun _ => names ["t_9.h5", "t_11.h5"], fun s => if s = "t_9.h5".toList then some (file 9) else if s = "t_11.h5".toList then some (file 11) else none, _, rfl, rfl, rfl, rfl, by decide⟩

/-- **C111 fails** for a file that has brackets in its name: given by its name it is not found, and another one may be found in its place. -/
theorem C111_brackets_violated :
    ∃ ls : Str → List Str, "run[1].h5".toList ∈ ls [] ∧ "run1.h5".toList ∈ ls [] ∧
      ensureFileList (α := Nat) ls (.name [] [] "run[1].h5".toList) = .ok [.name "run1.h5".toList] ∧
      ensureFileList (α := Nat) (fun _ => ["run[1].h5".toList]) (.name [] [] "run[1].h5".toList) = .ok [] :=
  ⟨fun _ => names ["run[1].h5", "run1.h5"], by decide, by decide, rfl, rfl⟩

/-- **C111 fails** for a name given as bytes, which is one of the types allowed: it is taken for a sequence of numbers. -/
theorem C111_bytes_violated (timeAxes : List Axis) (ls : Str → List Str) (content : Str → Option (Item α)) (b : List Nat) (hb : b ≠ []) (start stop : Axis → Option Int)
    (wanted : Option (List Name)) : fromMultFiles timeAxes ls content (.bytes b) start stop wanted = .error .attributeError := by
  cases b with
  | nil => exact absurd rfl hb
  | cons n b => rfl

/-- Anything else is refused. -/
theorem C111_refused (timeAxes : List Axis) (ls : Str → List Str) (content : Str → Option (Item α)) (start stop : Axis → Option Int) (wanted : Option (List Name)) :
    fromMultFiles timeAxes ls content .other start stop wanted = .error .valueError := rfl

end Verif.Glob
