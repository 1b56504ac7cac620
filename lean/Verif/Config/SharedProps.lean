import Verif.Config.SharedLemmas

/-!
# C100: configured attributes are independent
-/
namespace Verif.Config.Shared

variable {V : Type}

/-- A class with the attribute `x`. -/
def oneClass : Classes := ⟨fun c => if c = 0 then [("x", 0)] else [], fun c => [c]⟩

/-- A class with the attributes `x` and `y`, which are different properties. -/
def twoAttrs : Classes := ⟨fun c => if c = 0 then [("x", 0), ("y", 1)] else [], fun c => [c]⟩

/-- A program with two properties that have the default 3 and make new values. -/
def start2 : World Nat := ⟨[⟨.make some, some 0, none, none⟩, ⟨.make some, some 0, none, none⟩], [], [3]⟩

theorem start2_fresh : Fresh start2 :=
  ⟨by simp [start2], rfl, by simp [start2]⟩

theorem start2_make : AllMake start2 := by
  intro d hd
  simp only [start2, List.mem_cons, List.not_mem_nil, or_false, or_self] at hd
  exact ⟨some, by rw [hd]⟩

theorem twoAttrs_oneName : OneName twoAttrs := by
  intro c c' a a' p h1 h2
  simp only [twoAttrs] at h1 h2
  split at h1 <;> split at h2 <;> simp_all
  rcases h1 with ⟨rfl, rfl⟩ | ⟨rfl, rfl⟩ <;> simp_all

/-- **C100** If every property object has one name: whatever was done before, an operation sees, and does to objects and values, what it would with property objects that had never been used.
Missing: property objects with two names (`C100_order_violated`). -/
theorem C100_history_partial (K : Classes) (hK : OneName K) (w0 : World V) (h0 : Fresh w0) (ops : List (Op V)) (op : Op V) :
    (step K (run K w0 ops) op).2 = (step K { run K w0 ops with props := w0.props } op).2 ∧
      (step K (run K w0 ops) op).1.objs = (step K { run K w0 ops with props := w0.props } op).1.objs ∧
      (step K (run K w0 ops) op).1.cells = (step K { run K w0 ops with props := w0.props } op).1.cells := by
  have ha := run_adm hK ops (Adm.of_fresh K w0 h0.names)
  have hb : Adm K w0.props { run K w0 ops with props := w0.props } := Adm.of_fresh K _ h0.names
  obtain ⟨ps, -, k⟩ := step_eq hK ha op
  obtain ⟨ps', -, k'⟩ := step_eq hK hb op
  rw [k, k']
  exact ⟨rfl, rfl, rfl⟩

example : (step twoAttrs (run twoAttrs start2 [.object 0, .get 0 "x", .value 7, .set 0 "y" 2]) (.get 0 "y")).2 =
    (step twoAttrs { run twoAttrs start2 [.object 0, .get 0 "x", .value 7, .set 0 "y" 2] with props := start2.props } (.get 0 "y")).2 :=
  (C100_history_partial twoAttrs twoAttrs_oneName start2 start2_fresh _ _).1

/-- **C100** If every property object has one name: setting an attribute of an object changes what is read from this attribute of this object, to what the conversion gives, and nothing that is read from any other attribute or any other object.
Missing: property objects with two names (`C100_two_names_violated`). -/
theorem C100_set_partial (K : Classes) (hK : OneName K) (w0 : World V) (h0 : Fresh w0) (ops : List (Op V)) (i : Nat) (a : String) (r : Nat)
    (hs : (step K (run K w0 ops) (.set i a r)).2 = .done) :
    (∃ o p d v v', (run K w0 ops).objs[i]? = some o ∧ K.lookup o.cls a = some p ∧ w0.props[p]? = some d ∧ (run K w0 ops).cells[r]? = some v ∧ d.conv.gives v = some v' ∧
        reads K (step K (run K w0 ops) (.set i a r)).1 i a = .ok (some v')) ∧
      ∀ j b, (j, b) ≠ (i, a) → reads K (step K (run K w0 ops) (.set i a r)).1 j b = reads K (run K w0 ops) j b := by
  have ha := run_adm hK ops (Adm.of_fresh K w0 h0.names)
  have hok := run_inv hK (Ok w0.props) (fun _ op h => h.step op) ops (Adm.of_fresh K w0 h0.names) h0.ok
  generalize run K w0 ops = w at *
  obtain ⟨o, p, d, v, v', r', cells', ho, hl, hp, hv, hg, hc, hr', hadm, hobjs, hcells⟩ := set_done hK ha i a r hs
  have hlt := (List.getElem?_eq_some_iff.1 ho).1
  refine ⟨⟨o, p, d, v, v', ho, hl, hp, hv, hg, ?_⟩, fun j b hjb => ?_⟩
  · rw [reads_eq hK hadm, hobjs, hcells, readsPure]
    have e : (w.objs.set i (o.put a r'))[i]? = some (o.put a r') := by simp [hlt]
    simp only [e]
    have e2 : (o.put a r').cls = o.cls := rfl
    rw [e2, hl]
    simp only [hp]
    have e3 : (o.put a r').dict a = some r' := by simp [Ob.put]
    rw [e3]
    simp only [hr']
  · rw [reads_eq hK hadm, reads_eq hK ha, hobjs, hcells]
    have hkeep : ∀ q, q < w.cells.length → cells'[q]? = w.cells[q]? := by
      intro q hq
      rcases hc with ⟨-, -, -, rfl⟩ | ⟨-, rfl⟩
      · rfl
      · exact List.getElem?_append_left hq
    refine readsPure_congr ?_ (fun o1 q h1 h2 => hkeep q (hok.held j o1 b q h1 h2)) (fun d1 hd q hq => hkeep q (hok.defaults d1 hd q hq))
    simp only
    by_cases e : i = j
    · subst e
      have e2 : b ≠ a := fun e2 => hjb (by rw [e2])
      rw [ho]
      simp [hlt, Ob.put, e2]
    · rw [List.getElem?_set_ne e]

example : reads twoAttrs (step twoAttrs (run twoAttrs start2 [.object 0, .object 0, .value 7]) (.set 0 "x" 1)).1 1 "x" = reads twoAttrs (run twoAttrs start2 [.object 0, .object 0, .value 7]) 1 "x" :=
  (C100_set_partial twoAttrs twoAttrs_oneName start2 start2_fresh [.object 0, .object 0, .value 7] 0 "x" 1 rfl).2 1 "x" (by decide)

/-- **C100** If every property object has one name: reading an attribute, setting one in vain, and making a value or an object change nothing that is read; a configuration changes what is read from the object that reads it only.
Missing: property objects with two names (`C100_order_violated`). -/
theorem C100_others_partial (K : Classes) (hK : OneName K) (w0 : World V) (h0 : Fresh w0) (ops : List (Op V)) (op : Op V) (hch : ∀ r v, op ≠ .change r v)
    (hset : ∀ i a r, op = .set i a r → (step K (run K w0 ops) op).2 ≠ .done) (j : Nat) (hj : j < (run K w0 ops).objs.length) (hcfg : ∀ cfg, op ≠ .config j cfg) (b : String) :
    reads K (step K (run K w0 ops) op).1 j b = reads K (run K w0 ops) j b := by
  have ha := run_adm hK ops (Adm.of_fresh K w0 h0.names)
  have hok := run_inv hK (Ok w0.props) (fun _ op h => h.step op) ops (Adm.of_fresh K w0 h0.names) h0.ok
  generalize run K w0 ops = w at *
  obtain ⟨ps, k1, k⟩ := step_eq hK ha op
  rw [k] at hset ⊢
  have hjn : j ≠ w.objs.length := by omega
  rw [reads_eq hK (k1 _ _), reads_eq hK ha]
  refine readsPure_congr ?_ (fun o1 q h1 h2 => ?_) (fun d1 hd q hq => ?_)
  rotate_left
  · have hq := hok.held j o1 b q h1 h2
    exact cells_keep K w0.props (w.objs, w.cells) op hch q hq
  · exact cells_keep K w0.props (w.objs, w.cells) op hch q (hok.defaults d1 hd q hq)
  · cases op with
    | value v => rfl
    | change r v => rfl
    | object c =>
      simp only [stepPure]
      rw [List.getElem?_append_left hj]
    | get i a =>
      simp only [stepPure]
      cases w.objs[i]? with
      | none => rfl
      | some o =>
        simp only
        cases K.lookup o.cls a with
        | none => rfl
        | some p =>
          simp only
          cases w0.props[p]? with
          | none => rfl
          | some d0 =>
            simp only
            generalize getPure d0 a o w.cells = y
            obtain ⟨c, e⟩ := y
            cases e <;> rfl
    | set i a r =>
      have hs := hset i a r rfl
      simp only [stepPure] at hs ⊢
      cases ho : w.objs[i]? with
      | none => simp only
      | some o =>
        simp only [ho] at hs ⊢
        cases hl : K.lookup o.cls a with
        | none => simp only
        | some p =>
          simp only [hl] at hs ⊢
          cases hp : w0.props[p]? with
          | none => simp only
          | some d =>
            simp only [hp, setPure] at hs ⊢
            cases hc : convert w.cells d.conv r with
            | error e => simp only
            | ok x => simp [hc] at hs
    | config i cfg =>
      have hij : j ≠ i := fun e => hcfg cfg (by rw [e])
      simp only [stepPure]
      cases ho : w.objs[i]? with
      | none => simp only
      | some o =>
        simp only
        have := (loopPure_other w0.props cfg i (K.all o.cls) (w.objs, w.cells)).1 j hij
        generalize loopPure w0.props cfg i (w.objs, w.cells) (K.all o.cls) = y at this
        obtain ⟨s', e⟩ := y
        cases e <;> (simp only at this ⊢; rw [this])

example : reads twoAttrs (step twoAttrs (run twoAttrs start2 [.object 0, .object 0, .value 7]) (.config 0 fun _ => some 1)).1 1 "x" = reads twoAttrs (run twoAttrs start2 [.object 0, .object 0, .value 7]) 1 "x" :=
  C100_others_partial twoAttrs twoAttrs_oneName start2 start2_fresh [.object 0, .object 0, .value 7] (.config 0 fun _ => some 1) (fun _ _ h => by cases h)
    (fun _ _ _ h => by cases h) 1 (by decide) (fun _ h => by cases h) "x"

/-- **C100** If every property object has one name and all conversions make new values: changing in place what was read from an attribute changes nothing that is read from another attribute or object; if reading gives the same thing each time, as it does for attributes that have been set, the change is seen there.
Missing: conversions that return their argument (`C100_default_violated`, `C100_config_violated`); attributes that have not been set (`C100_lost_violated`). -/
theorem C100_contents_partial (K : Classes) (hK : OneName K) (w0 : World V) (h0 : Fresh w0) (hm : AllMake w0) (ops : List (Op V)) (i : Nat) (a : String) (r : Nat)
    (hs : (step K (run K w0 ops) (.get i a)).2 = .got (some r)) (v : V) :
    (∀ j b, (j, b) ≠ (i, a) → reads K (step K (step K (run K w0 ops) (.get i a)).1 (.change r v)).1 j b = reads K (run K w0 ops) j b) ∧
      ((step K (step K (run K w0 ops) (.get i a)).1 (.get i a)).2 = .got (some r) → reads K (step K (step K (run K w0 ops) (.get i a)).1 (.change r v)).1 i a = .ok (some v)) := by
  have ha := run_adm hK ops (Adm.of_fresh K w0 h0.names)
  have hinv := run_inv hK (fun s => Ok w0.props s ∧ Excl w0.props s) (fun _ op h => h.2.step hm h.1 op) ops (Adm.of_fresh K w0 h0.names) ⟨h0.ok, h0.excl⟩
  generalize run K w0 ops = w at *
  obtain ⟨hok, hex⟩ := hinv
  obtain ⟨o, p, d, ho, hl, hp, hadm, hobjs, hcase⟩ := get_got hK ha i a r hs
  have hsecond := get_got hK hadm i a r
  generalize (step K w (.get i a)).1 = w1 at *
  have hadm2 : Adm K w0.props (step K w1 (.change r v)).1 := hadm
  obtain ⟨f, hf⟩ := hm d (List.mem_of_getElem? hp)
  constructor
  · intro j b hjb
    rw [reads_eq hK hadm2, reads_eq hK ha]
    simp only [step]
    rw [hobjs]
    have hkeep : ∀ q, q < w.cells.length → q ≠ r → (w1.cells.set r v)[q]? = w.cells[q]? := by
      intro q hq hqr
      rw [List.getElem?_set_ne (Ne.symm hqr)]
      rcases hcase with ⟨-, e⟩ | ⟨-, q', -, ⟨h4, -, -⟩ | ⟨v1, -, e⟩⟩
      · rw [e]
      · exact absurd hf (h4 f)
      · rw [e]
        exact List.getElem?_append_left hq
    refine readsPure_congr rfl (fun o1 q h1 h2 => ?_) (fun d1 hd q hq => ?_)
    · have hq : q < w.cells.length := hok.held j o1 b q h1 h2
      refine hkeep q hq ?_
      rintro rfl
      rcases hcase with ⟨e, -⟩ | ⟨-, q', -, ⟨h4, -, -⟩ | ⟨v1, e, -⟩⟩
      · obtain ⟨rfl, rfl⟩ := hex.held j i o1 o b a q h1 ho h2 e
        exact hjb rfl
      · exact h4 f hf
      · omega
    · have hq' : q < w.cells.length := hok.defaults d1 hd q hq
      refine hkeep q hq' ?_
      rintro rfl
      rcases hcase with ⟨e, -⟩ | ⟨-, q', -, ⟨h4, -, -⟩ | ⟨v1, e, -⟩⟩
      · exact hex.defaults d1 hd i o a q hq ho e
      · exact h4 f hf
      · omega
  · intro h2
    obtain ⟨o', p', d', ho', hl', hp', -, -, hcase'⟩ := hsecond h2
    rw [hobjs, ho] at ho'
    cases ho'
    rw [hl] at hl'
    cases hl'
    rw [hp] at hp'
    cases hp'
    rcases hcase with ⟨e, ec⟩ | ⟨e, q, -, ⟨h4, -, -⟩ | ⟨v1, e1, e2⟩⟩
    · rw [reads_eq hK hadm2, readsPure]
      simp only [step, hobjs, ho, hl, hp, e]
      have := hok.held i o a r ho e
      rw [ec]
      simp only [List.getElem?_set_self this]
    · exact absurd hf (h4 f)
    · rcases hcase' with ⟨e', -⟩ | ⟨-, q', -, ⟨h4, -, -⟩ | ⟨v2, e3, -⟩⟩
      · rw [e] at e'
        cases e'
      · exact absurd hf (h4 f)
      · rw [e2, List.length_append] at e3
        simp only [List.length_cons, List.length_nil] at e3
        omega

example : reads twoAttrs (step twoAttrs (step twoAttrs (run twoAttrs start2 [.object 0, .object 0, .value 7, .config 0 fun _ => some 1, .config 1 fun _ => some 1]) (.get 0 "x")).1 (.change 2 9)).1 0 "x" = .ok (some 9) ∧
    reads twoAttrs (step twoAttrs (step twoAttrs (run twoAttrs start2 [.object 0, .object 0, .value 7, .config 0 fun _ => some 1, .config 1 fun _ => some 1]) (.get 0 "x")).1 (.change 2 9)).1 1 "x" = .ok (some 7) := by
  have h := C100_contents_partial twoAttrs twoAttrs_oneName start2 start2_fresh start2_make [.object 0, .object 0, .value 7, .config 0 fun _ => some 1, .config 1 fun _ => some 1] 0 "x" 2 rfl 9
  exact ⟨h.2 rfl, (h.1 1 "x" (by decide)).trans rfl⟩

/-- **C100** If every property object has one name and all conversions make new values: changing in place a value that was given to an attribute does not change what is read from it.
Missing: conversions that return their argument. -/
theorem C100_given_partial (K : Classes) (hK : OneName K) (w0 : World V) (h0 : Fresh w0) (hm : AllMake w0) (ops : List (Op V)) (i : Nat) (a : String) (r : Nat)
    (hs : (step K (run K w0 ops) (.set i a r)).2 = .done) (v : V) :
    reads K (step K (step K (run K w0 ops) (.set i a r)).1 (.change r v)).1 i a = reads K (step K (run K w0 ops) (.set i a r)).1 i a := by
  have ha := run_adm hK ops (Adm.of_fresh K w0 h0.names)
  generalize run K w0 ops = w at *
  obtain ⟨o, p, d, v0, v', r', cells', ho, hl, hp, hv, hg, hc, hr', hadm, hobjs, hcells⟩ := set_done hK ha i a r hs
  generalize (step K w (.set i a r)).1 = w1 at *
  obtain ⟨f, hf⟩ := hm d (List.mem_of_getElem? hp)
  have hlt := (List.getElem?_eq_some_iff.1 ho).1
  have hrl := (List.getElem?_eq_some_iff.1 hv).1
  have hadm2 : Adm K w0.props (step K w1 (.change r v)).1 := hadm
  rw [reads_eq hK hadm2, reads_eq hK hadm]
  simp only [step, readsPure, hobjs]
  have e : (w.objs.set i (o.put a r'))[i]? = some (o.put a r') := by simp [hlt]
  have e2 : (o.put a r').cls = o.cls := rfl
  have e3 : (o.put a r').dict a = some r' := by simp [Ob.put]
  rw [e]
  simp only
  rw [e2, hl]
  simp only [hp, e3]
  rcases hc with ⟨-, h4, -, -⟩ | ⟨rfl, -⟩
  · exact absurd hf (h4 f)
  · rw [List.getElem?_set_ne (by omega)]

example : reads twoAttrs (step twoAttrs (step twoAttrs (run twoAttrs start2 [.object 0, .value 7]) (.set 0 "x" 1)).1 (.change 1 9)).1 0 "x" = .ok (some 7) :=
  (C100_given_partial twoAttrs twoAttrs_oneName start2 start2_fresh start2_make [.object 0, .value 7] 0 "x" 1 rfl 9).trans rfl

/-! ### Where the code is not like this -/

/-- **C100** (negation) If one property object is assigned to two names of a class, setting one attribute sets the other. -/
theorem C100_two_names_violated : ∃ (K : Classes) (w0 : World Nat) (ops : List (Op Nat)) (r : Nat), Fresh w0 ∧ (step K (run K w0 ops) (.set 0 "x" r)).2 = .done ∧
    reads K (run K w0 ops) 0 "y" = .ok (some 3) ∧ reads K (step K (run K w0 ops) (.set 0 "x" r)).1 0 "y" = .ok (some 7) :=
  ⟨⟨fun _ => [("x", 0), ("y", 0)], fun c => [c]⟩, ⟨[⟨.make some, some 0, none, none⟩], [], [3]⟩, [.object 0, .value 7], 1, ⟨by simp, rfl, by simp⟩, rfl, rfl, rfl⟩

/-- **C100** (negation) If one property object is in two classes under different names, whether a configuration is read depends on whether an object of the other class was used before: the object does not find its key if the attribute of the other was read first. -/
theorem C100_order_violated : ∃ (K : Classes) (w0 : World Nat) (ops : List (Op Nat)) (cfg : String → Option Nat), Fresh w0 ∧
    reads K (run K w0 (ops ++ [.config 1 cfg])) 1 "y" = .ok (some 7) ∧ reads K (run K w0 (ops ++ [.get 0 "x", .config 1 cfg])) 1 "y" = .ok (some 3) :=
  ⟨⟨fun c => if c = 0 then [("x", 0)] else [("y", 0)], fun c => [c]⟩, ⟨[⟨.make some, some 0, none, none⟩], [], [3]⟩, [.object 0, .object 1, .value 7],
    fun k => if k = "y" then some 1 else none, ⟨by simp, rfl, by simp⟩, rfl, rfl⟩

/-- **C100** (negation) The default of a property whose conversion returns its argument (none, `enum`, `list_type`) is one value for all objects: changing in place what one object gives changes all others that have not been set, and all that are made later. -/
theorem C100_default_violated (ok : V → Bool) (v v' : V) (hv : ok v = true) (hv' : ok v' = true) :
    ∃ (w0 : World V) (r : Nat), w0.props = [⟨.same ok, some 0, none, none⟩] ∧ w0.cells = [v] ∧ Fresh w0 ∧
      (step oneClass (run oneClass w0 [.object 0, .object 0]) (.get 0 "x")).2 = .got (some r) ∧
      reads oneClass (run oneClass w0 [.object 0, .object 0]) 1 "x" = .ok (some v) ∧
      reads oneClass (run oneClass w0 [.object 0, .object 0, .get 0 "x", .change r v']) 1 "x" = .ok (some v') ∧
      reads oneClass (run oneClass w0 [.object 0, .object 0, .get 0 "x", .change r v', .object 0]) 2 "x" = .ok (some v') := by
  refine ⟨⟨[⟨.same ok, some 0, none, none⟩], [], [v]⟩, 0, rfl, rfl, ⟨by simp, rfl, by simp⟩, ?_, ?_, ?_, ?_⟩ <;>
    simp [run, step, get, reads, oneClass, Classes.lookup, Classes.all, nameFor, convert, hv, hv']

example : ∃ (w0 : World (List Nat)) (r : Nat), w0.props = [⟨.same fun _ => true, some 0, none, none⟩] ∧ w0.cells = [[1]] ∧ Fresh w0 ∧
      (step oneClass (run oneClass w0 [.object 0, .object 0]) (.get 0 "x")).2 = .got (some r) ∧
      reads oneClass (run oneClass w0 [.object 0, .object 0]) 1 "x" = .ok (some [1]) ∧
      reads oneClass (run oneClass w0 [.object 0, .object 0, .get 0 "x", .change r [1, 2]]) 1 "x" = .ok (some [1, 2]) ∧
      reads oneClass (run oneClass w0 [.object 0, .object 0, .get 0 "x", .change r [1, 2], .object 0]) 2 "x" = .ok (some [1, 2]) :=
  C100_default_violated _ _ _ rfl rfl

/-- **C100** (negation) Two objects that read the same configuration through such a conversion have the same value, not equal ones. -/
theorem C100_config_violated (ok : V → Bool) (v v' : V) (hv : ok v = true) :
    ∃ (w0 : World V) (r : Nat), w0.props = [⟨.same ok, none, none, none⟩] ∧ Fresh w0 ∧
      (step oneClass (run oneClass w0 [.value v, .object 0, .object 0, .config 0 (fun _ => some 0), .config 1 fun _ => some 0]) (.get 0 "x")).2 = .got (some r) ∧
      reads oneClass (run oneClass w0 [.value v, .object 0, .object 0, .config 0 (fun _ => some 0), .config 1 (fun _ => some 0), .get 0 "x", .change r v']) 1 "x" = .ok (some v') := by
  refine ⟨⟨[⟨.same ok, none, none, none⟩], [], []⟩, 0, rfl, ⟨by simp, rfl, by simp⟩, ?_, ?_⟩ <;>
    simp [run, step, get, reads, oneClass, Classes.lookup, Classes.all, nameFor, convert, readConfig, readLoop, fromConfig, Ob.put, hv]

example : ∃ (w0 : World (List Nat)) (r : Nat), w0.props = [⟨.same fun _ => true, none, none, none⟩] ∧ Fresh w0 ∧
      (step oneClass (run oneClass w0 [.value [1], .object 0, .object 0, .config 0 (fun _ => some 0), .config 1 fun _ => some 0]) (.get 0 "x")).2 = .got (some r) ∧
      reads oneClass (run oneClass w0 [.value [1], .object 0, .object 0, .config 0 (fun _ => some 0), .config 1 (fun _ => some 0), .get 0 "x", .change r []]) 1 "x" = .ok (some []) :=
  C100_config_violated _ _ _ rfl

/-- **C100** (negation) An attribute with a default and a conversion that makes new values (`list`, `dict`) gives a new value each time while it is not set: what is changed in place is lost. -/
theorem C100_lost_violated (f : V → Option V) (v v' v'' : V) (hf : f v = some v') :
    ∃ (w0 : World V) (r : Nat), w0.props = [⟨.make f, some 0, none, none⟩] ∧ w0.cells = [v] ∧ Fresh w0 ∧
      (step oneClass (run oneClass w0 [.object 0]) (.get 0 "x")).2 = .got (some r) ∧
      reads oneClass (run oneClass w0 [.object 0, .get 0 "x", .change r v'']) 0 "x" = .ok (some v') := by
  refine ⟨⟨[⟨.make f, some 0, none, none⟩], [], [v]⟩, 1, rfl, rfl, ⟨by simp, rfl, by simp⟩, ?_, ?_⟩ <;>
    simp [run, step, get, reads, oneClass, Classes.lookup, Classes.all, nameFor, convert, hf]

example : ∃ (w0 : World (List Nat)) (r : Nat), w0.props = [⟨.make some, some 0, none, none⟩] ∧ w0.cells = [[1]] ∧ Fresh w0 ∧
      (step oneClass (run oneClass w0 [.object 0]) (.get 0 "x")).2 = .got (some r) ∧
      reads oneClass (run oneClass w0 [.object 0, .get 0 "x", .change r [1, 2]]) 0 "x" = .ok (some [1]) :=
  C100_lost_violated _ _ _ _ rfl

end Verif.Config.Shared
