import Verif.Tod.Filter
import Verif.Tod.Props

/-!
# C35 with a filter that is any callable
-/
namespace Verif.Tod

variable {α : Type}
open Slice.Spec (slice)

theorem copyDsetF_eq (timeAxes : List Axis) (wanted : Option (List Name)) (f : Fn α) (filt : List α → List α)
    (hp : ∀ d s, f.piece d s = .ok (getSlice (filt d) s)) (S E cur : Axis → Int) (it : Item α) (ds : Name → Option (List (Option α))) (d : Dset α) :
    copyDsetF timeAxes wanted f S E cur it ds d = lift (copyDset timeAxes wanted filt S E cur it ds d) := by
  unfold copyDsetF copyDset
  split
  · cases timeAxisOf timeAxes d with
    | none => rfl
    | some a =>
      simp only [hp]
      split
      · rfl
      · cases requireDset ds d.name (E a - S a) with
        | error e => rfl
        | ok o =>
          simp only
          cases setSlice o (inOutSlice (S a) (E a) (cur a) (lenOf it a)).2 (getSlice (filt d.data) (inOutSlice (S a) (E a) (cur a) (lenOf it a)).1) <;> rfl
  · rfl

theorem copyDsetsF_eq (timeAxes : List Axis) (wanted : Option (List Name)) (f : Fn α) (filt : List α → List α)
    (hp : ∀ d s, f.piece d s = .ok (getSlice (filt d) s)) (S E cur : Axis → Int) (it : Item α) (l : List (Dset α)) (ds : Name → Option (List (Option α))) :
    copyDsetsF timeAxes wanted f S E cur it ds l = lift (l.foldlM (copyDset timeAxes wanted filt S E cur it) ds) := by
  induction l generalizing ds with
  | nil => rfl
  | cons d l ih =>
    rw [copyDsetsF, copyDsetF_eq timeAxes wanted f filt hp, List.foldlM_cons]
    cases copyDset timeAxes wanted filt S E cur it ds d with
    | error e => rfl
    | ok ds' => exact ih ds'

theorem copyItemsF_eq (timeAxes : List Axis) (wanted : Option (List Name)) (f : Fn α) (filt : List α → List α)
    (hp : ∀ d s, f.piece d s = .ok (getSlice (filt d) s)) (S E : Axis → Int) (l : List (Item α)) (cur : Axis → Int) (out : Out α) :
    copyItemsF timeAxes wanted f S E cur out l = lift ((l.foldlM (copyItem timeAxes wanted filt S E) (cur, out)).map (·.2)) := by
  induction l generalizing cur out with
  | nil => rfl
  | cons it l ih =>
    rw [copyItemsF, List.foldlM_cons]
    simp only [copyItem, bind, Except.bind]
    cases timeAxes.foldlM (copyIndex S E cur it) out.index with
    | error e => rfl
    | ok idx =>
      simp only [copyDsetsF_eq timeAxes wanted f filt hp]
      cases it.dsets.foldlM (copyDset timeAxes wanted filt S E cur it) out.dsets with
      | error e => rfl
      | ok ds => exact ih _ _

/-- A filter that gives the slice of a filtered dataset. -/
theorem concatenateF_eq (timeAxes : List Axis) (items : List (Item α)) (start stop : Axis → Option Int) (wanted : Option (List Name)) (f : Fn α) (filt : List α → List α)
    (hp : ∀ d s, f.piece d s = .ok (getSlice (filt d) s)) :
    concatenateF timeAxes items start stop wanted f = lift (concatenate timeAxes items start stop wanted filt) := by
  unfold concatenateF concatenate
  cases items with
  | nil => rfl
  | cons first rest =>
    simp only
    split
    · rfl
    · rw [copyItemsF_eq timeAxes wanted f filt hp]
      simp only [bind, Except.bind]
      cases List.foldlM (copyItem timeAxes wanted filt _ _) _ (first :: rest) <;> rfl

/-- **C35** with a filter of either form. A function that takes one argument (its positional parameters are not two, and those after the first have defaults), or
one that takes two and applies the slice it is given to what the first would give; what the first gives keeps the number of entries: for inputs identical except along time and a selection in range, every time axis is the
slice of the end-to-end concatenation, and every dataset the slice of the filtered datasets end to end.
Missing: methods (`C35_bound_method_violated`), optional parameters (`C35_optional_violated`), and what is missing in `C35_concatenate_filtered_partial`. -/
theorem C35_filters_partial (timeAxes : List Axis) (hnd : timeAxes.Nodup) (items : List (Item α)) (hne : items ≠ []) (hu : Uniform timeAxes items)
    (start stop : Axis → Option Int) (hr : ∀ a ∈ timeAxes, InRange (allIndex items a).length (start a) (stop a))
    (wanted : Option (List Name)) (f : Fn α) (filt : List α → List α) (hfilt : ∀ l, (filt l).length = l.length) (hb : f.bound = false)
    (hf : (1 ≤ f.params ∧ f.params ≠ 2 ∧ f.required ≤ 1 ∧ f.one = filt) ∨ (f.params = 2 ∧ f.required ≤ 2 ∧ ∀ d s, f.two d s = getSlice (filt d) s)) :
    ∃ out, concatenateF timeAxes items start stop wanted f = .ok out ∧
      (∀ a ∈ timeAxes, out.index a = some ((slice (allIndex items a) (start a) (stop a) 1).map some)) ∧
      (∀ it ∈ items, ∀ d ∈ it.dsets, (∀ w, wanted = some w → d.name ∈ w) →
        ∀ a, d.axes.find? (fun a => decide (a ∈ timeAxes)) = some a →
        slice (items.flatMap fun i => filt (column d.name i)) (start a) (stop a) 1 ≠ [] →
        out.dsets d.name =
          some ((slice (items.flatMap fun i => filt (column d.name i)) (start a) (stop a) 1).map some)) ∧
      (∀ w name, wanted = some w → name ∉ w → out.dsets name = none) := by
  have hp : ∀ d s, f.piece d s = .ok (getSlice (filt d) s) := by
    intro d s
    unfold Fn.piece Fn.timeSlice Fn.argspec Fn.call1 Fn.call2
    rcases hf with ⟨h1, h2, h3, h4⟩ | ⟨h1, h2, h3⟩
    · simp [h1, hb, h2, h3, h4]
    · simp [h1, hb, h2, h3]
  obtain ⟨out, h, h'⟩ := C35_concatenate_filtered_partial timeAxes hnd items hne hu start stop hr wanted filt hfilt
  exact ⟨out, by rw [concatenateF_eq timeAxes items start stop wanted f filt hp, h]; rfl, h'⟩

/-- Twice every entry, as a function of one argument, of one and two more with defaults, and of two arguments. -/
def twice1 : Fn Nat := ⟨false, 1, 1, (·.map (2 * ·)), fun d _ => d⟩
def twice3 : Fn Nat := ⟨false, 3, 1, (·.map (2 * ·)), fun d _ => d⟩
def twice2 : Fn Nat := ⟨false, 2, 2, id, fun d s => getSlice (d.map (2 * ·)) s⟩

/-- The datasets of a result, or the exception. -/
def shown (r : Except FErr (Out Nat)) : Except FErr (Option (List (Option Nat)) × Option (List (Option Nat))) :=
  match r with
  | .ok out => .ok (out.dsets "vis", out.dsets "gain")
  | .error e => .error e

example : ["time", "utime"].Nodup ∧ exItems ≠ [] ∧ Uniform ["time", "utime"] exItems ∧
    (∀ a ∈ ["time", "utime"], InRange (allIndex exItems a).length (some (-2)) (some 10)) ∧
    (∀ l : List Nat, (l.map (2 * ·)).length = l.length) ∧
    (1 ≤ twice3.params ∧ twice3.params ≠ 2 ∧ twice3.required ≤ 1) ∧
    (twice2.params = 2 ∧ twice2.required ≤ 2 ∧ ∀ d s, twice2.two d s = getSlice (d.map (2 * ·)) s) :=
  ⟨by decide, by simp [exItems], exItems_uniform, by decide, by simp, by decide, rfl, by decide, fun _ _ => rfl⟩

example : ∀ f ∈ [twice1, twice3, twice2], shown (concatenateF ["time", "utime"] exItems (fun _ => some (-2)) (fun _ => some 10) none f) =
    .ok (some [some 80, some 100], some [some 800, some 1200]) := by
  simp only [List.mem_cons, List.not_mem_nil, or_false]
  rintro f (rfl | rfl | rfl) <;> rfl

/-- A callable that is refused for the first dataset makes the whole call fail. -/
theorem exItems_refused (f : Fn Nat) (h : ∀ d s, f.piece d s = .error .typeError) :
    concatenateF ["time", "utime"] exItems (fun _ => none) (fun _ => none) none f = .error .typeError := by
  simp only [concatenateF, exItems, exItem, copyItemsF, copyDsetsF, copyDsetF, h]
  rfl

/-- The violation: a method (or any object that can be called) is never accepted. One that takes a dataset is called with two arguments, and
one that takes a dataset and a slice with one: `TypeError`, whatever it does. -/
theorem C35_bound_method_violated :
    Uniform ["time", "utime"] exItems ∧
    ∀ f : Fn Nat, f.bound = true → f.required = f.params → f.params = 1 ∨ f.params = 2 →
      concatenateF ["time", "utime"] exItems (fun _ => none) (fun _ => none) none f = .error .typeError := by
  refine ⟨exItems_uniform, fun f hb hr h => exItems_refused f fun d s => ?_⟩
  unfold Fn.piece Fn.timeSlice Fn.argspec Fn.call1 Fn.call2
  rcases h with h | h <;> simp [h, hb, hr]

example : ∃ f : Fn Nat, f.bound = true ∧ f.required = f.params ∧ f.params = 1 := ⟨⟨true, 1, 1, id, fun d _ => d⟩, rfl, rfl, rfl⟩

/-- The violation: a filter of one argument with one more parameter that has a default gets the slice for it, and what it returns is not
sliced: a selection from a few inputs fails, although the same filter without the parameter succeeds. -/
theorem C35_optional_violated :
    Uniform ["time", "utime"] exItems ∧ (∀ a ∈ ["time", "utime"], InRange (allIndex exItems a).length (some 1) (some 10)) ∧
    concatenateF ["time", "utime"] exItems (fun _ => some 1) (fun _ => some 10) none ⟨false, 2, 1, id, fun d _ => d⟩ = .error (.py .valueError) ∧
    shown (concatenateF ["time", "utime"] exItems (fun _ => some 1) (fun _ => some 10) none ⟨false, 1, 1, id, fun d _ => d⟩) =
      .ok (some [some 20, some 30, some 40, some 50], some [some 400, some 600]) :=
  ⟨exItems_uniform, by decide, rfl, rfl⟩

end Verif.Tod
