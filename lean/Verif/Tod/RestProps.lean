import Verif.Tod.RestLemmas

/-!
# C98: what a concatenation takes from its first input
-/
namespace Verif.Tod
variable {α A : Type}
open Slice.Spec (slice)

/-- **C98.** If `concatenate` gets as far as copying time-ordered data, then the output has, in the order of the first
input, its attributes, its index maps, its reverse maps and its datasets without a time axis, with the same contents; the
index maps of time axes have the length that is wanted and nothing in them yet. Nothing that existed is changed. The
other inputs play no role. What is missing: the history (`C98_history_violated`), the attributes of reverse maps
(`C98_reverse_attrs_violated`), and independence of the first input in memory (`C98_shared_violated`). -/
theorem C98_rest_partial (conv plain : A → A) (strings outDisk : Bool) (timeAxes : List Axis) (len : Axis → Int)
    (cells cells' : Cells α) (first out : TCont A) (others : List (TCont A))
    (hi : Exists cells first.index) (hr : Exists cells first.reverse) (hd : Exists cells first.dsets)
    (e : concatRest conv plain strings outDisk timeAxes len cells (.list (first :: others)) = .ok (cells', out)) :
    cells <+: cells' ∧
      out.attrs = first.attrs.map (fun x => (x.1, conv x.2)) ∧
      List.Forall₂ (fun d d' => d'.name = d.name ∧ d'.attrs = d.attrs.map (fun x => (x.1, plain x.2)) ∧
        (d.name ∉ timeAxes → cells'[d'.ref]? = cells[d.ref]?) ∧
        (d.name ∈ timeAxes → cells'[d'.ref]? = some (List.replicate (len d.name).toNat none)))
        first.index out.index ∧
      List.Forall₂ (SameArray cells cells') first.reverse out.reverse ∧
      List.Forall₂ (fun d d' => SameArray cells cells' d d' ∧ d'.axes = d.axes ∧
        d'.attrs = d.attrs.map (fun x => (x.1, conv x.2))) (Timeless timeAxes first.dsets) out.dsets := by
  obtain ⟨c1, c2, e1, e2, e3, ea, -, -⟩ := takeRest_parts e
  obtain ⟨p1, f1⟩ := eachDs_rel (R := IndexRel plain timeAxes len strings) indexRel_mono indexOne_rel _ _ _ _ hi e1
  obtain ⟨p2, f2⟩ := eachDs_rel (R := ReverseRel) (fun c1 c2 c3 c4 d d' p p' h r =>
    ⟨sameArray_mono c1 c2 c3 c4 d d' p p' h r.1, r.2⟩) reverseOne_rel _ _ _ _ (exists_mono p1 hr) e2
  obtain ⟨p3, f3⟩ := eachDs_rel (R := DsetRel conv) (fun c1 c2 c3 c4 d d' p p' h r =>
    ⟨sameArray_mono c1 c2 c3 c4 d d' p p' h r.1, r.2⟩) dsetOne_rel _ _ _ _
    (timeless_exists (exists_mono (p1.trans p2) hd)) e3
  refine ⟨(p1.trans p2).trans p3, ea, ?_, ?_, ?_⟩
  · refine forall2_mono f1 fun d hm d' r => ?_
    obtain ⟨a, b, -, r⟩ := indexRel_mono _ _ _ _ d d' List.prefix_rfl (p2.trans p3) (hi d hm) r
    refine ⟨a, b, fun h => by rwa [if_neg h] at r, fun h => ?_⟩
    rw [if_pos h] at r
    exact r.1
  · exact forall2_mono f2 fun d hm d' r => sameArray_mono _ _ _ _ d d' p1 p3 (hr d hm) r.1
  · exact forall2_mono f3 fun d hm d' r => ⟨sameArray_mono _ _ _ _ d d' (p1.trans p2) List.prefix_rfl
      (timeless_exists hd d hm) r.1, r.2.2.1, r.2.2.2⟩

/-- A first input in memory with a time axis, an axis of frequencies with an attribute, a reverse map with an attribute, a
dataset of gains without and one of samples with a time axis, and an entry in its history. -/
def exampleFirst (disk : Bool) : TCont Nat :=
  ⟨disk, [("site", 1)], [("loaded", 9)], [⟨"time", [], .other, 0, []⟩, ⟨"freq", [], .bytes, 1, [("unit", 2)]⟩],
    [⟨"stack", [], .other, 2, [("origin", 3)]⟩],
    [⟨"gain", ["freq"], .bytes, 3, [("axis", 4)]⟩, ⟨"vis", ["freq", "time"], .other, 4, []⟩]⟩

/-- Its arrays. -/
def exampleCells : Cells Nat := [[some 10, some 11], [some 5, some 6], [some 0], [some 7, some 8], [some 1, some 2]]

/-- What a successful call gives. -/
def got {β : Type} : Except RErr β → Option β
  | .ok x => some x
  | .error _ => none

example : (got (concatRest id id false false ["time"] (fun _ => 3) exampleCells (.list [exampleFirst false]))).map
    (fun r => (r.1[5]?, r.2.index.map Ds.ref, r.2.reverse.map Ds.ref, r.2.dsets.map Ds.name, r.2.dsets.map Ds.ref)) =
    some (some [none, none, none], [5, 1], [2], ["gain"], [3]) := by decide +kernel
example : Exists exampleCells (exampleFirst false).index ∧ Exists exampleCells (exampleFirst false).reverse ∧
    Exists exampleCells (exampleFirst false).dsets := by
  refine ⟨?_, ?_, ?_⟩ <;> intro d hd <;> simp [exampleFirst] at hd <;> rcases hd with rfl | rfl <;> decide

/-- **C98.** When this succeeds: the selection of no time axis ends before it starts, and for an output on disk there are
no unicode strings in what is written, also none that come from the conversion of index maps. -/
theorem C98_succeeds (conv plain : A → A) (strings outDisk : Bool) (timeAxes : List Axis) (len : Axis → Int)
    (cells : Cells α) (first : TCont A) (others : List (TCont A)) :
    (∃ r, concatRest conv plain strings outDisk timeAxes len cells (.list (first :: others)) = .ok r) ↔
      (∀ d ∈ first.index, d.name ∈ timeAxes → 0 ≤ len d.name) ∧
      (outDisk = true → (∀ d ∈ first.index, d.kind ≠ .text ∧ (strings = true → d.kind ≠ .bytes)) ∧
        (∀ d ∈ first.reverse, d.kind ≠ .text) ∧ ∀ d ∈ Timeless timeAxes first.dsets, d.kind ≠ .text) := by
  have h1 := eachDs_ok (indexOne_ok (α := α) (plain := plain) (timeAxes := timeAxes) (len := len) (inDisk := first.disk)
    (outDisk := outDisk) (strings := strings)) first.index cells
  have h2 := eachDs_ok (reverseOne_ok (α := α) (A := A) (inDisk := first.disk) (outDisk := outDisk)) first.reverse
  have h3 := eachDs_ok (dsetOne_ok (α := α) (conv := conv) (inDisk := first.disk) (outDisk := outDisk)
    (strings := strings)) (Timeless timeAxes first.dsets)
  have key : (∃ r, concatRest conv plain strings outDisk timeAxes len cells (.list (first :: others)) = .ok r) ↔
      (∀ d ∈ first.index, (d.name ∈ timeAxes → 0 ≤ len d.name) ∧
        (outDisk = true → d.kind ≠ .text ∧ (strings = true → d.kind ≠ .bytes))) ∧
      (∀ d ∈ first.reverse, outDisk = true → d.kind ≠ .text) ∧
      ∀ d ∈ Timeless timeAxes first.dsets, outDisk = true → d.kind ≠ .text := by
    simp only [concatRest, takeRest, hasTime_eq]
    rw [← h1]
    cases e1 : eachDs (indexOne plain timeAxes len first.disk outDisk strings) cells first.index with
    | error x => simp
    | ok x =>
      have h2' := h2 x.1
      rw [← h2']
      cases e2 : eachDs (reverseOne first.disk outDisk) x.1 first.reverse with
      | error y => simp [e2]
      | ok y =>
        rw [← h3 y.1]
        cases e3 : eachDs (dsetOne conv first.disk outDisk strings) y.1 (Timeless timeAxes first.dsets) with
        | error z => simp [e2, e3]
        | ok z => simp [e2, e3]
  rw [key]
  constructor
  · rintro ⟨a, b, c⟩
    exact ⟨fun d hd => (a d hd).1, fun h => ⟨fun d hd => (a d hd).2 h, fun d hd => b d hd h, fun d hd => c d hd h⟩⟩
  · rintro ⟨a, b⟩
    exact ⟨fun d hd => ⟨a d hd, fun h => (b h).1 d hd⟩, fun d hd h => (b h).2.1 d hd, fun d hd h => (b h).2.2 d hd⟩

example : (got (concatRest id id false true ["time"] (fun _ => 3) exampleCells (.list [exampleFirst true]))).isSome :=
  by decide +kernel
example : got (concatRest id id true true ["time"] (fun _ => 3) exampleCells (.list [exampleFirst true])) = none :=
  rfl

/-- **C98.** If the first input or the output is on disk, the output has arrays of its own: none of them is one that
existed before. -/
theorem C98_independent (conv plain : A → A) (strings outDisk : Bool) (timeAxes : List Axis) (len : Axis → Int)
    (cells cells' : Cells α) (first out : TCont A) (others : List (TCont A))
    (hi : Exists cells first.index) (hr : Exists cells first.reverse) (hd : Exists cells first.dsets)
    (hdisk : first.disk = true ∨ outDisk = true)
    (e : concatRest conv plain strings outDisk timeAxes len cells (.list (first :: others)) = .ok (cells', out)) :
    (∀ d ∈ out.index, cells.length ≤ d.ref) ∧ (∀ d ∈ out.reverse, cells.length ≤ d.ref) ∧
      ∀ d ∈ out.dsets, cells.length ≤ d.ref := by
  obtain ⟨c1, c2, e1, e2, e3, -, -, -⟩ := takeRest_parts e
  obtain ⟨p1, f1⟩ := eachDs_rel (R := FreshRel) freshRel_mono (indexOne_fresh hdisk) _ _ _ _ hi e1
  obtain ⟨p2, f2⟩ := eachDs_rel (R := FreshRel) freshRel_mono (reverseOne_fresh hdisk) _ _ _ _ (exists_mono p1 hr) e2
  obtain ⟨p3, f3⟩ := eachDs_rel (R := FreshRel) freshRel_mono (dsetOne_fresh hdisk) _ _ _ _
    (timeless_exists (exists_mono (p1.trans p2) hd)) e3
  exact ⟨forall2_right f1 fun _ _ h => h, forall2_right f2 fun _ _ h => Nat.le_trans p1.length_le h,
    forall2_right f3 fun _ _ h => Nat.le_trans (p1.trans p2).length_le h⟩

example : (got (concatRest id id false false ["time"] (fun _ => 3) exampleCells (.list [exampleFirst true]))).map
    (fun r => (r.2.index.map Ds.ref, r.2.reverse.map Ds.ref, r.2.dsets.map Ds.ref)) = some ([5, 6], [7], [8]) := by
  decide +kernel

/-- **C98**, the code does not have this. In memory, the index maps of other axes, the reverse maps and the datasets without
a time axis are the arrays of the first input (unless byte strings were to be converted), so that writing to the output
changes the input: whatever is written to such an array is then in the first input. -/
theorem C98_shared_violated (conv plain : A → A) (strings : Bool) (timeAxes : List Axis) (len : Axis → Int)
    (cells cells' : Cells α) (first out : TCont A) (others : List (TCont A))
    (hi : Exists cells first.index) (hr : Exists cells first.reverse) (hd : Exists cells first.dsets)
    (hdisk : first.disk = false)
    (e : concatRest conv plain strings false timeAxes len cells (.list (first :: others)) = .ok (cells', out)) :
    List.Forall₂ (fun d d' => d.name ∉ timeAxes → (strings = true → d.kind ≠ .bytes) →
        ∀ v, (cells'.set d'.ref v)[d.ref]? = some v) first.index out.index ∧
      List.Forall₂ (fun d d' => ∀ v, (cells'.set d'.ref v)[d.ref]? = some v) first.reverse out.reverse ∧
      List.Forall₂ (fun d d' => (strings = true → d.kind ≠ .bytes) → ∀ v, (cells'.set d'.ref v)[d.ref]? = some v)
        (Timeless timeAxes first.dsets) out.dsets := by
  obtain ⟨c1, c2, e1, e2, e3, -, -, -⟩ := takeRest_parts e
  rw [hdisk] at e1 e2 e3
  obtain ⟨p1, f1⟩ := eachDs_rel sharedRel_mono indexOne_shared _ _ _ _ hi e1
  obtain ⟨p2, f2⟩ := eachDs_rel sharedRel_mono reverseOne_shared _ _ _ _ (exists_mono p1 hr) e2
  obtain ⟨p3, f3⟩ := eachDs_rel sharedRel_mono dsetOne_shared _ _ _ _
    (timeless_exists (exists_mono (p1.trans p2) hd)) e3
  have p := ((p1.trans p2).trans p3).length_le
  have w : ∀ (d d' : Ds A), d.ref < cells.length → d'.ref = d.ref → ∀ v, (cells'.set d'.ref v)[d.ref]? = some v := by
    intro d d' h h' v
    rw [h', List.getElem?_set_self (by omega)]
  exact ⟨forall2_mono f1 fun d hm d' r ht hk => w d d' (hi d hm) (r ⟨ht, hk⟩),
    forall2_mono f2 fun d hm d' r => w d d' (hr d hm) (r trivial),
    forall2_mono f3 fun d hm d' r hk => w d d' (timeless_exists hd d hm) (r hk)⟩

/-- Zeroing the gains of the output zeroes those of the first input. -/
example : (got (concatRest id id false false ["time"] (fun _ => 3) exampleCells (.list [exampleFirst false]))).map
    (fun r => r.2.dsets.map fun d => (r.1.set d.ref [some 0, some 0])[3]?) = some [some [some 0, some 0]] := by
  decide +kernel

/-- **C98**, the code does not have this. The history of the output is empty, whatever that of the first input is. -/
theorem C98_history_violated (conv plain : A → A) (strings outDisk : Bool) (timeAxes : List Axis) (len : Axis → Int)
    (cells cells' : Cells α) (first out : TCont A) (others : List (TCont A)) (h : first.history ≠ [])
    (e : concatRest conv plain strings outDisk timeAxes len cells (.list (first :: others)) = .ok (cells', out)) :
    out.history ≠ first.history ∧ out.history = [] := by
  obtain ⟨_, _, -, -, -, -, hh, -⟩ := takeRest_parts e
  rw [hh]
  exact ⟨fun h' => h h'.symm, rfl⟩

example : (exampleFirst false).history ≠ [] := by simp [exampleFirst]

/-- **C98**, the code does not have this. The reverse maps of the output have no attributes. -/
theorem C98_reverse_attrs_violated (conv plain : A → A) (strings outDisk : Bool) (timeAxes : List Axis)
    (len : Axis → Int) (cells cells' : Cells α) (first out : TCont A) (others : List (TCont A))
    (hi : Exists cells first.index) (hr : Exists cells first.reverse)
    (e : concatRest conv plain strings outDisk timeAxes len cells (.list (first :: others)) = .ok (cells', out)) :
    List.Forall₂ (fun d d' => d'.name = d.name ∧ d'.attrs = [] ∧ (d.attrs ≠ [] → d'.attrs ≠ d.attrs))
      first.reverse out.reverse := by
  obtain ⟨c1, c2, e1, e2, -, -, -, -⟩ := takeRest_parts e
  obtain ⟨p1, -⟩ := eachDs_rel (R := IndexRel plain timeAxes len strings) indexRel_mono indexOne_rel _ _ _ _ hi e1
  obtain ⟨-, f2⟩ := eachDs_rel (R := ReverseRel) (fun c1 c2 c3 c4 d d' p p' h r =>
    ⟨sameArray_mono c1 c2 c3 c4 d d' p p' h r.1, r.2⟩) reverseOne_rel _ _ _ _ (exists_mono p1 hr) e2
  exact forall2_mono f2 fun d _ d' r => ⟨r.1.1, r.2.2, fun h h' => h (h'.symm.trans r.2.2)⟩

example : (exampleFirst false).reverse.map Ds.attrs = [[("origin", 3)]] := rfl

/-- **C98**, the code does not have this. Asked to convert the strings of datasets, `concatenate` leaves the types of
datasets as they are, and converts the index maps. -/
theorem C98_strings_violated (conv plain : A → A) (outDisk : Bool) (timeAxes : List Axis)
    (len : Axis → Int) (cells cells' : Cells α) (first out : TCont A) (others : List (TCont A))
    (hi : Exists cells first.index) (hr : Exists cells first.reverse) (hd : Exists cells first.dsets)
    (e : concatRest conv plain true outDisk timeAxes len cells (.list (first :: others)) = .ok (cells', out)) :
    List.Forall₂ (fun d d' => d'.name = d.name ∧ d'.kind = d.kind) (Timeless timeAxes first.dsets) out.dsets ∧
      List.Forall₂ (fun d d' => d'.name = d.name ∧ (d.kind = .bytes → d'.kind = .text)) first.index out.index := by
  obtain ⟨c1, c2, e1, e2, e3, -, -, -⟩ := takeRest_parts e
  obtain ⟨p1, f1⟩ := eachDs_rel (R := IndexRel plain timeAxes len true) indexRel_mono indexOne_rel _ _ _ _ hi e1
  obtain ⟨p2, -⟩ := eachDs_rel (R := ReverseRel) (fun c1 c2 c3 c4 d d' p p' h r =>
    ⟨sameArray_mono c1 c2 c3 c4 d d' p p' h r.1, r.2⟩) reverseOne_rel _ _ _ _ (exists_mono p1 hr) e2
  obtain ⟨-, f3⟩ := eachDs_rel (R := DsetRel conv) (fun c1 c2 c3 c4 d d' p p' h r =>
    ⟨sameArray_mono c1 c2 c3 c4 d d' p p' h r.1, r.2⟩) dsetOne_rel _ _ _ _
    (timeless_exists (exists_mono (p1.trans p2) hd)) e3
  exact ⟨forall2_mono f3 fun d _ d' r => ⟨r.1.1, r.2.1⟩,
    forall2_mono f1 fun d _ d' r => ⟨r.1, fun h => by rw [r.2.2.1, h]; rfl⟩⟩

example : (got (concatRest id id true false ["time"] (fun _ => 3) exampleCells (.list [exampleFirst false]))).map
    (fun r => (r.2.dsets.map Ds.kind, r.2.index.map Ds.kind)) = some ([.bytes], [.other, .text]) := by decide +kernel

/-- **C98**, the code does not have this. A sequence of containers that is not a list is never concatenated, although the
same containers in a list are. -/
theorem C98_tuple_violated (conv plain : A → A) (strings outDisk : Bool) (timeAxes : List Axis) (len : Axis → Int)
    (cells : Cells α) (l : List (TCont A)) :
    (¬ ∃ r, concatRest conv plain strings outDisk timeAxes len cells (.otherSequence l) = .ok r) ∧
      (l ≠ [] → (∃ r, concatRest conv plain strings outDisk timeAxes len cells (.list l) = .ok r) →
        concatRest conv plain strings outDisk timeAxes len cells (.otherSequence l) = .error .attributeError) := by
  cases l with
  | nil => simp [concatRest]
  | cons first others =>
    refine ⟨?_, fun _ ⟨r, hr⟩ => ?_⟩
    · rintro ⟨r, h⟩
      simp only [concatRest] at h
      split at h
      · cases h
      · split at h <;> cases h
    · obtain ⟨c1, c2, e1, e2, -⟩ := takeRest_parts (cells' := r.1) (out := r.2) hr
      simp only [concatRest, e1, e2]

example : ∃ r, concatRest id id false false ["time"] (fun _ => 3) exampleCells (.list [exampleFirst false]) = .ok r :=
  (C98_succeeds ..).mpr ⟨by simp, by simp⟩

/-- **C98.** No containers are an error, however they are given. -/
theorem C98_nothing (conv plain : A → A) (strings outDisk : Bool) (timeAxes : List Axis) (len : Axis → Int)
    (cells : Cells α) :
    concatRest conv plain strings outDisk timeAxes len cells (.list []) = .error .indexError ∧
      concatRest conv plain strings outDisk timeAxes len cells (.otherSequence []) = .error .indexError := ⟨rfl, rfl⟩

/-- **C98.** In memory, the index map of a time axis is in the end the wanted slice of those of all inputs, end to end. -/
theorem C98_time_index (start stop : Option Int) (inputs : List (List α))
    (hr : InRange inputs.flatten.length start stop) :
    fillAxis false (startStop start stop inputs.flatten.length).1 (startStop start stop inputs.flatten.length).2 0 inputs
        (List.replicate ((startStop start stop inputs.flatten.length).2 -
          (startStop start stop inputs.flatten.length).1).toNat none) =
      .ok ((slice inputs.flatten start stop 1).map some) := by
  have hss := startStop_eq _ _ _ hr
  rw [hss]
  rw [← view_eq_slice inputs.flatten start stop, ← view_nil]
  have := fillAxis_memory _ _ hr.2 inputs []
  simpa using this

example : InRange [[10, 11], [12, 13, 14]].flatten.length (some 1) (some (-1)) := by decide
example : fillAxis false 1 4 0 [[10, 11], [12, 13, 14]] (List.replicate 3 none) = .ok [some 11, some 12, some 13] := by
  decide +kernel

/-- **C98**, the code does not have this. In an output on disk nothing is ever written to the index map of a time axis,
whatever the inputs are: every entry stays as it was made, uninitialised. -/
theorem C98_disk_index_violated (start stop : Option Int) (inputs : List (List α))
    (hr : InRange inputs.flatten.length start stop) (hs : slice inputs.flatten start stop 1 ≠ []) :
    ∃ o, fillAxis true (startStop start stop inputs.flatten.length).1 (startStop start stop inputs.flatten.length).2 0
        inputs (List.replicate ((startStop start stop inputs.flatten.length).2 -
          (startStop start stop inputs.flatten.length).1).toNat none) = .ok o ∧
      (∀ x ∈ o, x = none) ∧ o ≠ (slice inputs.flatten start stop 1).map some := by
  have hss := startStop_eq _ _ _ hr
  rw [hss]
  have := fillAxis_disk _ _ hr.2 inputs [] (List.replicate (Slice.Spec.ascTo inputs.flatten.length stop -
    Slice.Spec.ascFrom inputs.flatten.length start).toNat none) (by simp)
  refine ⟨_, this, fun x hx => List.eq_of_mem_replicate hx, fun h => ?_⟩
  obtain ⟨y, ys, hy⟩ := List.exists_cons_of_ne_nil hs
  have hm : some y ∈ (slice inputs.flatten start stop 1).map some := by rw [hy]; simp
  rw [← h] at hm
  cases List.eq_of_mem_replicate hm

example : slice [[10, 11], [12, 13, 14]].flatten (some 1) (some (-1)) 1 = [11, 12, 13] := by decide +kernel
example : fillAxis true 1 4 0 [[10, 11], [12, 13, 14]] (List.replicate 3 none) = .ok [none, none, none] := by
  decide +kernel

end Verif.Tod
