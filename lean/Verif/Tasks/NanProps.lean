import Verif.Tasks.Nan

/-!
# C52: the NaN check sees every dataset and all processes agree
-/
namespace Verif.Tasks

/-! ## Specification -/

mutual
/-- Some numeric dataset at any depth holds a NaN or an infinity. -/
def Bad : Node → Prop
  | .dset kind _ data => kind = .numeric ∧ (Elem.nan ∈ data ∨ Elem.inf ∈ data)
  | .group items => BadItems items
  | .onDisk items => BadItems items
/-- The same for the items of a group. -/
def BadItems : Nodes → Prop
  | .nil => False
  | .cons n rest => Bad n ∨ BadItems rest
end

mutual
/-- Everything is in memory, and all datasets have axes. -/
def Plain' : Node → Prop
  | .dset _ zeroDim _ => zeroDim = false
  | .group items => PlainItems items
  | .onDisk _ => False
/-- The same for the items of a group. -/
def PlainItems : Nodes → Prop
  | .nil => True
  | .cons n rest => Plain' n ∧ PlainItems rest
end

/-! ## Lemmas -/

theorem bad_pushAll (items : Nodes) (stack : List Node) :
    (∃ n ∈ pushAll items stack, Bad n) ↔ BadItems items ∨ ∃ n ∈ stack, Bad n := by
  match items with
  | .nil => simp [pushAll, BadItems]
  | .cons n rest =>
    rw [pushAll, bad_pushAll rest]
    simp [BadItems]
    tauto

theorem plain_pushAll (items : Nodes) (stack : List Node) (hi : PlainItems items)
    (hs : ∀ n ∈ stack, Plain' n) : ∀ n ∈ pushAll items stack, Plain' n := by
  match items with
  | .nil => simpa [pushAll] using hs
  | .cons n rest =>
    simp only [PlainItems] at hi
    rw [pushAll]
    apply plain_pushAll rest _ hi.2
    intro m hm
    rcases List.mem_cons.1 hm with rfl | hm
    · exact hi.1
    · exact hs m hm

theorem not_all_finite (data : List Elem) (h : ¬ data.all (· = .finite)) :
    Elem.nan ∈ data ∨ Elem.inf ∈ data := by
  simp at h
  obtain ⟨x, hx, hne⟩ := h
  cases x with
  | finite => exact absurd rfl hne
  | nan => exact Or.inl hx
  | inf => exact Or.inr hx

theorem all_finite (data : List Elem) (h : data.all (· = .finite)) :
    ¬ (Elem.nan ∈ data ∨ Elem.inf ∈ data) := by
  simp at h
  rintro (h' | h') <;> have := h _ h' <;> cases this

theorem walkLoop_spec (stack : List Node) (hs : ∀ n ∈ stack, Plain' n) :
    ∃ b, walkLoop stack = some b ∧ (b = true ↔ ∃ n ∈ stack, Bad n) := by
  fun_induction walkLoop stack with
  | case1 => exact ⟨false, rfl, by simp⟩
  | case2 => exact absurd (hs _ (List.mem_cons_self ..)) (by simp [Plain'])
  | case3 data stack ih =>
    obtain ⟨b, h1, h2⟩ := ih (fun n hn => hs n (by simp [hn]))
    refine ⟨b, h1, ?_⟩
    rw [h2]
    simp [Bad]
  | case4 data stack hall ih =>
    obtain ⟨b, h1, h2⟩ := ih (fun n hn => hs n (by simp [hn]))
    refine ⟨b, h1, ?_⟩
    rw [h2]
    have := all_finite data hall
    simp [Bad]
    tauto
  | case5 data stack hall hnan =>
    refine ⟨true, rfl, ?_⟩
    simp only [true_iff]
    refine ⟨_, List.mem_cons_self .., ?_⟩
    simp only [Bad, true_and]
    exact not_all_finite data hall
  | case6 data stack hall hnan hinf =>
    refine ⟨true, rfl, ?_⟩
    simp only [true_iff]
    refine ⟨_, List.mem_cons_self .., ?_⟩
    simp only [Bad, true_and]
    exact not_all_finite data hall
  | case7 data stack hall hnan hinf ih =>
    exfalso
    rcases not_all_finite data hall with h | h
    · apply hnan; simpa using h
    · apply hinf; simpa using h
  | case8 items stack ih =>
    have hg := hs _ (List.mem_cons_self ..)
    simp only [Plain'] at hg
    obtain ⟨b, h1, h2⟩ := ih (plain_pushAll items stack hg (fun n hn => hs n (by simp [hn])))
    refine ⟨b, h1, ?_⟩
    rw [h2, bad_pushAll]
    simp [Bad]
  | case9 => exact absurd (hs _ (List.mem_cons_self ..)) (by simp [Plain'])

theorem checkOutput_error {α : Type} (c : Pipe.Cfg) (h : c.outKeys ≠ []) :
    Pipe.checkOutput c (Pipe.Ret.error (α := α)) = none := by
  rcases c with ⟨_, _, ks, _, _, _⟩
  cases ks with
  | nil => exact absurd rfl h
  | cons k ks => cases ks <;> rfl

theorem checkOutput_obj {α : Type} (c : Pipe.Cfg) (y : α) (l : List (Pipe.Key × Option α))
    (h : Pipe.checkOutput c (.obj y) = some l) (k : Pipe.Key) (x : α) (hx : (k, some x) ∈ l) : x = y := by
  rcases c with ⟨_, _, ks, b, _, _⟩
  match ks with
  | [] => simp [Pipe.checkOutput] at h; subst h; cases hx
  | [k'] =>
    simp [Pipe.checkOutput] at h
    obtain ⟨_, rfl⟩ := h
    simp at hx
    exact hx.2
  | k' :: k'' :: ks => simp [Pipe.checkOutput] at h

theorem checkOutput_tup {α : Type} (c : Pipe.Cfg) (m : List (Option α)) (l : List (Pipe.Key × Option α))
    (h : Pipe.checkOutput c (.tup m) = some l) (k : Pipe.Key) (x : α) (hx : (k, some x) ∈ l) :
    some x ∈ m := by
  rcases c with ⟨_, _, ks, b, _, _⟩
  match ks with
  | [] => simp [Pipe.checkOutput] at h; subst h; cases hx
  | [k'] =>
    simp [Pipe.checkOutput] at h
    subst h
    exact (List.of_mem_zip hx).2
  | k' :: k'' :: ks =>
    simp only [Pipe.checkOutput] at h
    split at h
    · cases h
      exact (List.of_mem_zip hx).2
    · cases h

/-! ## The property -/

/-- C52, for containers in memory all of whose datasets have axes: every process reports the same, namely
whether some process holds a NaN or an infinity in some numeric dataset. -/
theorem C52_check_partial (parts : List Node) (hp : ∀ p ∈ parts, Plain' p) :
    ∃ b, nanCheck parts = List.replicate parts.length (.result b) ∧ (b = true ↔ ∃ p ∈ parts, Bad p) := by
  have hw : ∀ p ∈ parts, ∃ b, walkLoop [p] = some b ∧ (b = true ↔ Bad p) := by
    intro p hpm
    obtain ⟨b, h1, h2⟩ := walkLoop_spec [p] (by simpa using hp p hpm)
    exact ⟨b, h1, by simpa using h2⟩
  refine ⟨(parts.map fun p => walkLoop [p]).any (· = some true), ?_, ?_⟩
  · unfold nanCheck
    simp only
    rw [if_neg]
    · rw [List.map_map]
      apply List.ext_getElem
      · simp
      · intro i h1 h2
        simp
    · simp only [List.any_map, List.any_eq_true, Function.comp, not_exists, not_and]
      intro p hpm
      obtain ⟨b, h1, _⟩ := hw p hpm
      simp [h1]
  · simp only [List.any_map, List.any_eq_true, Function.comp, decide_eq_true_eq]
    constructor
    · rintro ⟨p, hpm, h⟩
      obtain ⟨b, h1, h2⟩ := hw p hpm
      rw [h1] at h
      exact ⟨p, hpm, h2.1 (by simpa using h)⟩
    · rintro ⟨p, hpm, h⟩
      obtain ⟨b, h1, h2⟩ := hw p hpm
      exact ⟨p, hpm, by rw [h1, h2.2 h]⟩

/-- C52. With checking and skipping on, no container in which something was found reaches another task. -/
theorem C52_skipped {α : Type} (c : Pipe.Cfg) (outs : List (α × Bool)) (l : List (Pipe.Key × Option α))
    (h : Pipe.checkOutput c (processOutputs true true outs) = some l) (k : Pipe.Key) (x : α)
    (hx : (k, some x) ∈ l) : (x, false) ∈ outs := by
  have key : ∀ y, some y ∈ (outs.map fun o => if true && o.2 && true then none else some o.1) →
      (y, false) ∈ outs := by
    intro y hy
    simp only [Bool.true_and, Bool.and_true, List.mem_map] at hy
    obtain ⟨⟨z, b⟩, hz, he⟩ := hy
    cases b
    · simp at he; subst he; exact hz
    · simp at he
  unfold processOutputs at h
  generalize (outs.map fun o => if true && o.2 && true then none else some o.1) = m at h key
  match m with
  | [] =>
    simp only at h
    by_cases hk : c.outKeys = []
    · rcases c with ⟨_, _, ks, _, _, _⟩
      simp only at hk
      subst hk
      simp [Pipe.checkOutput] at h
      subst h
      cases hx
    · rw [checkOutput_error c hk] at h
      cases h
  | [some y] =>
    have := checkOutput_obj c y l h k x hx
    subst this
    exact key _ (by simp)
  | [none] =>
    have : l = [] := by
      rcases c with ⟨_, _, ks, _, _, _⟩
      cases ks <;> simp [Pipe.checkOutput] at h <;> exact h
    subst this
    cases hx
  | a :: b :: rest =>
    have h' : Pipe.checkOutput c (.tup (a :: b :: rest)) = some l := by
      cases a <;> exact h
    exact key _ (checkOutput_tup c _ l h' k x hx)

/-- C52. With a single output, a container in which something was found ends the matter: there is no
product at all. -/
theorem C52_skipped_single {α : Type} (c : Pipe.Cfg) (x : α) :
    Pipe.checkOutput c (processOutputs true true [(x, true)]) = some [] := by
  rcases c with ⟨_, _, ks, _, _, _⟩
  cases ks <;> simp [Pipe.checkOutput, processOutputs]

/-- C52 fails for containers on disk: nothing in them is looked at. -/
theorem C52_on_disk_violated :
    Bad (.onDisk (.cons (.dset .numeric false [.nan]) .nil)) ∧
    nanCheck [.onDisk (.cons (.dset .numeric false [.nan]) .nil)] = [.result false] := by
  constructor
  · simp [Bad, BadItems]
  · simp [nanCheck, walkLoop]

/-- C52 fails for datasets without axes: the check itself raises an exception. -/
theorem C52_no_axes_violated (kind : DKind) (e : Elem) :
    nanCheck [.group (.cons (.dset kind true [e]) .nil)] = [.indexError] := by
  simp [nanCheck, walkLoop, pushAll]

/-- C52 fails for a task with several outputs: `None` is passed on in the place of the skipped container,
and the next task is called with it. -/
theorem C52_several_outputs_violated {α : Type} (x y : α) :
    Pipe.checkOutput ⟨[], [], ["a", "b"], false, none, 0⟩ (processOutputs true true [(x, true), (y, false)]) =
      some [("a", none), ("b", some y)] ∧
    Pipe.Stage.queue ⟨[], ["a"], [], false, none, 0⟩ "a" none (.next [[]]) =
      some (Pipe.Stage.next (α := α) [[none]]) := by
  constructor
  · simp [Pipe.checkOutput, processOutputs]
  · simp [Pipe.Stage.queue, Pipe.push]

/-- Two processes; one holds an infinity in a nested group. -/
def exParts : List Node :=
  [.group (.cons (.dset .numeric false [.finite]) (.cons (.group (.cons (.dset .numeric false [.inf]) .nil))
    .nil)),
   .group (.cons (.dset .other false [.finite]) .nil)]

example : nanCheck exParts = [.result true, .result true] := by
  simp [nanCheck, exParts, walkLoop, pushAll]

example : ∀ p ∈ exParts, Plain' p := by simp [exParts, Plain', PlainItems]

end Verif.Tasks
