import Verif.Iter.Lemmas

/-!
# C67: tasks over files
-/
namespace Verif.Iter

variable {α β σ : Type}

/-- **C67** (files). A task that iterates over files reads them in the order given, each once, processes each before
the next is read, and writes every output that is not `None` to the file of the same middle; after the last it
stops, without doing anything more. -/
theorem C67_files_partial (u : User α β σ) (c : Cfg) (r : Str) (hroot : c.inputRoot = some r) (dirs : Str → Bool)
    (t0 tn : σ) (xs : List α) (ys : List (Option β))
    (hread : List.Forall₂ (fun m x => u.read (u.expand (r ++ m ++ c.inputExt)) = .ok x) c.middles xs)
    (hproc : Produces u.process t0 (xs.map some) ys tn) (hw : ∀ f y, u.write f y = .ok ())
    (hd : ∀ m ∈ c.middles, InDirectory u.expand c.outputRoot (m ++ c.outputExt)) :
    ∃ s, calls (nextIter u c false) (start t0 dirs) (List.replicate c.middles.length none) = .ok (ys, s) ∧
      s.trace = filesTrace u.expand r c.outputRoot c.inputExt c.outputExt (c.middles.zip (xs.zip ys)) ∧
      s.user = tn ∧ ∀ input, nextIter u c false s input = .error .pipelineStop := by
  have key : ∀ (ms pre : List Str) (xs : List α) (ys : List (Option β)) (s : St α β σ), c.middles = pre ++ ms →
      s.iteration = pre.length → List.Forall₂ (fun m x => u.read (u.expand (r ++ m ++ c.inputExt)) = .ok x) ms xs →
      Produces u.process s.user (xs.map some) ys tn →
      ∃ t, calls (nextIter u c false) s (List.replicate ms.length none) = .ok (ys, t) ∧
        t.trace = s.trace ++ filesTrace u.expand r c.outputRoot c.inputExt c.outputExt (ms.zip (xs.zip ys)) ∧
        t.user = tn ∧ t.iteration = c.middles.length := by
    intro ms
    induction ms with
    | nil =>
      intro pre xs ys s hm hi hf hp
      cases hf
      cases hp
      exact ⟨s, rfl, by simp [filesTrace], rfl, by rw [hi, hm, List.append_nil]⟩
    | cons m ms ih =>
      intro pre xs ys s hm hi hf hp
      cases hf with
      | @cons _ x _ xs h1 h2 =>
        rw [List.map_cons] at hp
        cases hp with
        | cons _ t' _ _ y _ ys hp1 hp2 =>
          have hget : c.middles[s.iteration]? = some m := by
            rw [hi, hm, List.getElem?_append_right (Nat.le_refl _), Nat.sub_self]
            rfl
          obtain ⟨t, e1, e2, e3, -, e5⟩ := file_ok u c r (m ++ c.inputExt) (some (m ++ c.outputExt)) x y t' s hroot
            (by rw [← List.append_assoc]; exact h1) hp1 hw
            (.inr (.inr ⟨_, rfl, hd m (by rw [hm]; simp)⟩))
          obtain ⟨t2, g1, g2, g3, g4⟩ := ih (pre ++ [m]) xs ys { t with iteration := t.iteration + 1 }
            (by rw [hm]; simp) (by simp [e3, hi]) h2 (by simp only; rw [e2]; exact hp2)
          refine ⟨t2, ?_, ?_, g3, g4⟩
          · have hstep : nextIter u c false s none = .ok (y, { t with iteration := t.iteration + 1 }) := by
              unfold nextIter fileNames
              simp only [hget, castIn, e1]
            rw [List.length_cons, List.replicate_succ, calls, hstep]
            simp only [g1]
          · rw [g2]
            simp only [e5, Option.getD_some, List.zip_cons_cons, filesTrace, List.append_assoc, List.cons_append]
  obtain ⟨s, h1, h2, h3, h4⟩ := key c.middles [] xs ys (start t0 dirs) rfl rfl hread hproc
  refine ⟨s, h1, by rw [h2]; rfl, h3, fun input => ?_⟩
  unfold nextIter fileNames
  rw [h4, List.getElem?_eq_none (Nat.le_refl _), hroot]
  rfl

/-- **C67** (inputs). A task that is given its inputs processes each in turn, after casting it, and writes every output
that is not `None` to the file whose middle is at the same place in the list. -/
theorem C67_inputs_partial (u : User α β σ) (c : Cfg) (dirs : Str → Bool) (t0 tn : σ) (xs : List α) (ys : List (Option β))
    (ht : ∀ x ∈ xs, u.truthy x = true) (hl : xs.length ≤ c.middles.length)
    (hproc : Produces u.process t0 (xs.map fun x => some (u.cast x)) ys tn) (hw : ∀ f y, u.write f y = .ok ())
    (hd : ∀ m ∈ c.middles, InDirectory u.expand c.outputRoot (m ++ c.outputExt)) :
    ∃ s, calls (nextIter u c false) (start t0 dirs) (xs.map some) = .ok (ys, s) ∧
      s.trace = inputsTrace u.expand c.outputRoot c.outputExt (c.middles.zip ((xs.map u.cast).zip ys)) ∧ s.user = tn := by
  have key : ∀ (xs : List α) (ys : List (Option β)) (pre ms : List Str) (s : St α β σ), (∀ x ∈ xs, u.truthy x = true) →
      c.middles = pre ++ ms → s.iteration = pre.length → xs.length ≤ ms.length →
      Produces u.process s.user (xs.map fun x => some (u.cast x)) ys tn →
      ∃ t, calls (nextIter u c false) s (xs.map some) = .ok (ys, t) ∧
        t.trace = s.trace ++ inputsTrace u.expand c.outputRoot c.outputExt (ms.zip ((xs.map u.cast).zip ys)) ∧ t.user = tn := by
    intro xs
    induction xs with
    | nil =>
      intro ys pre ms s _ hm hi hl hp
      cases hp
      exact ⟨s, rfl, by simp [inputsTrace], rfl⟩
    | cons x xs ih =>
      intro ys pre ms s ht hm hi hl hp
      rw [List.map_cons] at hp
      cases hp with
      | cons _ t' _ _ y _ ys hp1 hp2 =>
        cases ms with
        | nil => simp at hl
        | cons m ms =>
          have hget : c.middles[s.iteration]? = some m := by
            rw [hi, hm, List.getElem?_append_right (Nat.le_refl _), Nat.sub_self]
            rfl
          obtain ⟨t, e1, e2, e3, -, e5⟩ := input_ok u c (some (m ++ c.inputExt)) (some (m ++ c.outputExt)) (u.cast x) y t' s hp1 hw
            (.inr (.inr ⟨_, rfl, hd m (by rw [hm]; simp)⟩))
          obtain ⟨t2, g1, g2, g3⟩ := ih ys (pre ++ [m]) ms { t with iteration := t.iteration + 1 }
            (fun z hz => ht z (List.mem_cons_of_mem _ hz))
            (by rw [hm]; simp) (by simp [e3, hi]) (by simpa using hl) (by simp only; rw [e2]; exact hp2)
          refine ⟨t2, ?_, ?_, g3⟩
          · have hstep : nextIter u c false s (some x) = .ok (y, { t with iteration := t.iteration + 1 }) := by
              unfold nextIter fileNames
              simp only [hget, castIn, ht x List.mem_cons_self, if_true, e1]
            rw [List.map_cons, calls, hstep]
            simp only [g1]
          · rw [g2]
            simp only [e5, Option.getD_some, List.map_cons, List.zip_cons_cons, inputsTrace, List.append_assoc, List.cons_append]
  obtain ⟨s, h1, h2, h3⟩ := key xs ys [] c.middles (start t0 dirs) ht rfl rfl hl hproc
  exact ⟨s, h1, by rw [h2]; rfl, h3⟩

/-- **C67** (names run out). An output for which there is no name is not dropped: the task fails. -/
theorem C67_no_name (u : User α β σ) (c : Cfg) (s : St α β σ) (x : α) (y : β) (t' : σ) (r : Str) (hroot : c.outputRoot = some r)
    (hin : c.inputRoot = none) (hi : c.middles.length ≤ s.iteration)
    (hp : u.process s.user (castIn u (some x)) = .ok (t', some y)) :
    nextIter u c false s (some x) = .error .runtimeError := by
  have hc : ∃ z, castIn u (some x) = some z := by
    unfold castIn
    simp only
    split <;> exact ⟨_, rfl⟩
  obtain ⟨z, hz⟩ := hc
  unfold nextIter fileNames
  rw [List.getElem?_eq_none hi, hin]
  simp only [Option.isSome_none, Bool.false_eq_true, if_false]
  rw [hz] at hp ⊢
  unfold readProcessWrite readIn
  simp only
  unfold processIn
  simp only [Bool.false_and, Bool.false_eq_true, if_false, hp]
  unfold writeOut
  rw [hroot]

/-- **C67** (single). A task that does not iterate reads its file, processes it, writes the output if there is one, once;
after that it stops. -/
theorem C67_single_partial (u : User α β σ) (c : Cfg) (r : Str) (hroot : c.inputRoot = some r) (dirs : Str → Bool)
    (t0 t1 : σ) (x : α) (y : Option β) (hread : u.read (u.expand (r ++ c.inputFile)) = .ok x)
    (hproc : u.process t0 (some x) = .ok (t1, y)) (hw : ∀ f y, u.write f y = .ok ())
    (hd : InDirectory u.expand c.outputRoot c.outputFile) :
    ∃ s, nextSingle u c false (start t0 dirs) none = .ok (y, s) ∧
      s.trace = [.read (u.expand (r ++ c.inputFile)) x, .process (some x) y] ++ writeEv u.expand c.outputRoot c.outputFile y ∧
      ∀ input, nextSingle u c false s input = .error .pipelineStop := by
  obtain ⟨t, e1, e2, e3, e4, e5⟩ := file_ok u c r c.inputFile (some c.outputFile) x y t1
    { (start t0 dirs : St α β σ) with done := true } hroot hread hproc hw (.inr (.inr ⟨_, rfl, hd⟩))
  refine ⟨t, e1, by rw [e5]; rfl, fun input => ?_⟩
  unfold nextSingle
  rw [e4]
  rfl

/-- **C67** (configuration). A task is accepted if and only if `process` takes, beside `self`, no arguments or one, all of
them plain, and there is one input for an argument - an "in" key or files, not both - and none without. -/
theorem C67_validate (c : Cfg) (s : Spec) (hs : 1 ≤ s.args) (nin : Nat) :
    validate c s nin = .ok () ↔
      (s.varargs = false ∧ s.varkw = false ∧ s.kwonly = false ∧ s.defaults = false) ∧
      ((s.args = 1 ∧ nin = 0 ∧ c.inputRoot = none) ∨
       (s.args = 2 ∧ ((nin = 1 ∧ c.inputRoot = none) ∨ (nin = 0 ∧ c.inputRoot ≠ none)))) := by
  unfold validate
  simp only
  cases s.varargs <;> cases s.varkw <;> cases s.kwonly <;> cases s.defaults <;> cases hr : c.inputRoot <;> grind

/-- **C67** (directories). However a task has been called, each file it has written is in a directory that there is, made
if need be; and none that there was is gone. -/
theorem C67_directories (u : User α β σ) (c : Cfg) (no : Bool) (t0 : σ) (dirs : Str → Bool) (xs : List (Option α))
    (ys : List (Option β)) (s : St α β σ)
    (h : calls (nextIter u c no) (start t0 dirs) xs = .ok (ys, s) ∨ calls (nextSingle u c no) (start t0 dirs) xs = .ok (ys, s)) :
    (∀ f y, .write f y ∈ s.trace → ∃ d, Parent d f ∧ s.dirs d = true) ∧ ∀ d, dirs d = true → s.dirs d = true := by
  have h0 : Housed (start t0 dirs : St α β σ) := fun f y hf => by simp [start] at hf
  have key : Housed s ∧ ∀ d, dirs d = true → s.dirs d = true := by
    rcases h with h | h
    · exact calls_dirs _ (fun s s' x y => nextIter_dirs u c no s s' x y) xs _ _ _ h h0
    · exact calls_dirs _ (fun s s' x y => nextSingle_dirs u c no s s' x y) xs _ _ _ h h0
  exact ⟨fun f y hf => ⟨_, dirname_parent f, key.1 f y hf⟩, key.2⟩

/-- **C67** (surplus). A task whose `process` takes no argument does not swallow an input: it fails, and calls nothing. -/
theorem C67_surplus (u : User α β σ) (c : Cfg) (s : St α β σ) (x : α) :
    (∀ p, nextSingle u c true s (some x) ≠ .ok p) ∧ (∀ p, nextIter u c true s (some x) ≠ .ok p) ∧
    (s.done = false → nextSingle u c true s (some x) = .error .runtimeError) ∧
    (s.iteration < c.middles.length ∨ c.inputRoot = none → nextIter u c true s (some x) = .error .runtimeError) := by
  have hc : ∃ z, castIn u (some x) = some z := by
    unfold castIn
    simp only
    split <;> exact ⟨_, rfl⟩
  obtain ⟨z, hz⟩ := hc
  have hr : ∀ i o (s : St α β σ), readProcessWrite u c true (castIn u (some x)) i o s = .error .runtimeError := by
    intro i o s
    rw [hz]
    rfl
  have h1 : s.done = false → nextSingle u c true s (some x) = .error .runtimeError := by
    intro hd
    unfold nextSingle
    rw [hr, hd]
    rfl
  have h2 : s.iteration < c.middles.length ∨ c.inputRoot = none → nextIter u c true s (some x) = .error .runtimeError := by
    intro h
    unfold nextIter fileNames
    rcases Nat.lt_or_ge s.iteration c.middles.length with h' | h'
    · rw [List.getElem?_eq_getElem h']
      simp only [hr]
    · rw [List.getElem?_eq_none h', h.resolve_left (by omega)]
      simp only [hr, Option.isSome_none, Bool.false_eq_true, if_false]
  refine ⟨fun p => ?_, fun p => ?_, h1, h2⟩
  · cases hd : s.done with
    | true => unfold nextSingle; rw [hd]; simp
    | false => rw [h1 hd]; simp
  · rcases Nat.lt_or_ge s.iteration c.middles.length with h' | h'
    · rw [h2 (.inl h')]; simp
    · cases hi : c.inputRoot with
      | none => rw [h2 (.inr hi)]; simp
      | some r =>
        unfold nextIter fileNames
        rw [List.getElem?_eq_none h', hi]
        simp

/-! ### A case -/

/-- Files contain the length of their name; `process` adds them up and drops the first; everything can be written. -/
def summing : User Nat Nat Nat :=
  { read := fun f => .ok f.length
    process := fun t x => .ok (t + x.getD 0, if t = 0 then none else some (t + x.getD 0))
    write := fun _ _ => .ok ()
    cast := fun x => x + 100
    truthy := fun x => x != 0
    expand := id }

def runCfg : Cfg := ⟨some "in/".toList, some "out/".toList, ".h5".toList, ".dat".toList, ["a".toList, "bcd".toList], [], []⟩

def traceOf (r : Except PyErr (List (Option Nat) × St Nat Nat Nat)) : Option (List (Option Nat) × List (Ev Nat Nat)) :=
  match r with
  | .ok (ys, s) => some (ys, s.trace)
  | .error _ => none

example : traceOf (calls (nextIter summing runCfg false) (start 0 fun _ => false) [none, none]) =
    some ([none, some 16], [.read "in/a.h5".toList 7, .process (some 7) none, .read "in/bcd.h5".toList 9,
      .process (some 9) (some 16), .write "out/bcd.dat".toList 16]) := by decide

/-- The hypotheses of `C67_files_partial` can be met. -/
example : ∃ s, calls (nextIter summing runCfg false) (start 0 fun _ => false) [none, none] = .ok ([none, some 16], s) ∧
    ∀ input, nextIter summing runCfg false s input = .error .pipelineStop := by
  obtain ⟨s, h1, -, -, h4⟩ := C67_files_partial summing runCfg "in/".toList rfl (fun _ => false) 0 16 [7, 9] [none, some 16]
    (.cons rfl (.cons rfl .nil)) (.cons 0 7 16 _ _ _ _ rfl (.cons 7 16 16 _ _ _ _ rfl (.nil _))) (fun _ _ => rfl)
    (by
      intro m hm r hr
      obtain rfl := Option.some.inj hr
      simp [summing])
  exact ⟨s, h1, h4⟩

example : traceOf (calls (nextIter summing { runCfg with inputRoot := none } false) (start 0 fun _ => true) [some 1, some 2]) =
    some ([none, some 203], [.process (some 101) none, .process (some 102) (some 203), .write "out/bcd.dat".toList 203]) := by
  decide

example : nextSingle summing runCfg true (start 0 fun _ => false) (some 3) = .error .runtimeError :=
  (C67_surplus summing runCfg _ 3).2.2.1 rfl

/-! ### Where the property fails -/

/-- C67: an input that counts as false, such as `0` or an empty list, is processed without being cast. -/
theorem C67_falsy_violated :
    traceOf (calls (nextIter summing { runCfg with inputRoot := none } false) (start 0 fun _ => true) [some 0]) =
      some ([none], [.process (some 0) none]) := by decide

/-- C67: an output cannot be written to the current directory (by a name without a directory). -/
theorem C67_current_directory_violated (u : User α β σ) (c : Cfg) (s : St α β σ) (r name : Str) (y : β)
    (hroot : c.outputRoot = some r) (h : '/' ∉ u.expand (r ++ name)) :
    writeOut u c (some name) (some y) s = .error .fileNotFound := by
  have hd : dirname (u.expand (r ++ name)) = [] := by
    unfold dirname
    have : ((u.expand (r ++ name)).reverse.dropWhile (· != '/')) = [] := by
      rw [List.dropWhile_eq_nil_iff]
      intro x hx
      have hx := List.mem_reverse.1 hx
      simp only [bne_iff_ne, ne_eq]
      rintro rfl
      exact h hx
    simp [this]
  unfold writeOut
  rw [hroot]
  simp [hd]

example : '/' ∉ summing.expand ([] ++ "a.h5".toList) := by decide

/-- C67: the tasks for HDF5 groups cannot write anything: `MemGroup` is not defined where it is used. If the name has no
directory the error is that of `os.makedirs`. -/
theorem C67_group_violated (f : Str) : groupWrite f = .error (if '/' ∈ f then .nameError else .fileNotFound) := by
  unfold groupWrite
  by_cases h : '/' ∈ f
  · rw [if_neg (dirname_ne f h), if_pos h]
  · have : dirname f = [] := by
      unfold dirname
      have h1 : f.reverse.dropWhile (· != '/') = [] := by
        rw [List.dropWhile_eq_nil_iff]
        intro x hx
        have hx := List.mem_reverse.1 hx
        simp only [bne_iff_ne, ne_eq]
        rintro rfl
        exact h hx
      simp [h1]
    rw [if_pos this, if_neg h]

/-- One call of `next`: a call of `process` that is recorded is an earlier one or has an input just if `process` takes one. -/
theorem rpw_arity (u : User α β σ) (c : Cfg) (no : Bool) (x : Option α) (f g : Option Str) (s t : St α β σ) (y : Option β)
    (h : readProcessWrite u c no x f g s = .ok (y, t)) (z : Option α) (w : Option β) (hz : Ev.process z w ∈ t.trace) :
    Ev.process z w ∈ s.trace ∨ z.isSome = !no := by
  unfold readProcessWrite at h
  cases h1 : readIn u c no x f s with
  | error e => rw [h1] at h; cases h
  | ok r =>
    obtain ⟨x1, s1⟩ := r
    simp only [h1] at h
    cases h2 : processIn u no x1 s1 with
    | error e => rw [h2] at h; cases h
    | ok r =>
      obtain ⟨y1, s2⟩ := r
      simp only [h2] at h
      cases h3 : writeOut u c g y1 s2 with
      | error e => rw [h3] at h; cases h
      | ok s3 =>
        simp only [h3, Except.ok.injEq, Prod.mk.injEq] at h
        obtain ⟨rfl, rfl⟩ := h
        have e3 : Ev.process z w ∈ s2.trace := by
          unfold writeOut at h3
          split at h3
          · split at h3
            · cases h3
            · simp only at h3
              split at h3
              · split at h3
                · cases h3
                · cases h3; simpa using hz
              · split at h3
                · cases h3
                · split at h3
                  · cases h3
                  · cases h3; simpa using hz
          · cases h3; exact hz
        have e2 : Ev.process z w ∈ s1.trace ∨ (z = x1 ∧ (no && x1.isSome) = false) := by
          unfold processIn at h2
          split at h2
          · cases h2
          · rename_i hc
            split at h2
            · cases h2
            · cases h2
              simp only [List.mem_append, List.mem_singleton, Ev.process.injEq] at e3
              rcases e3 with e3 | e3
              · exact .inl e3
              · exact .inr ⟨e3.1, by simpa using hc⟩
        have e1 : s1.trace = s.trace ∧ (no = false → x1.isSome = true) ∨ (∃ q v, s1.trace = s.trace ++ [.read q v]) ∧ x1.isSome = true ∧ no = false := by
          unfold readIn at h1
          split at h1
          · split at h1
            · cases h1
            · simp only at h1
              split at h1
              · cases h1
              · cases h1; exact .inr ⟨⟨_, _, rfl⟩, rfl, rfl⟩
          · rename_i hne
            cases h1
            refine .inl ⟨rfl, fun hno => ?_⟩
            cases x with
            | none => exact absurd hno (fun hno => hne rfl hno)
            | some v => rfl
        rcases e2 with e2 | ⟨rfl, e2⟩
        · rcases e1 with ⟨e, _⟩ | ⟨⟨q, v, e⟩, _⟩
          · exact .inl (e ▸ e2)
          · rw [e] at e2; simp at e2; exact .inl e2
        · right
          rcases e1 with ⟨_, e⟩ | ⟨_, e, e'⟩
          · cases no <;> simp_all
          · simp [e, e']

/-- C67: `process` is never called with the wrong number of arguments. If the task has been accepted, then however often
`next` is called and with what, `process` gets an input if it takes an argument besides `self`, and none otherwise. -/
theorem C67_arity (u : User α β σ) (c : Cfg) (spec : Spec) (nin : Nat) (hv : validate c spec nin = .ok ()) (hself : 1 ≤ spec.args)
    (single : Bool) (t0 : σ) (dirs : Str → Bool) (xs : List (Option α)) (ys : List (Option β)) (s : St α β σ)
    (hc : calls (if single then nextSingle u c (noInput spec) else nextIter u c (noInput spec)) (start t0 dirs) xs = .ok (ys, s))
    (z : Option α) (w : Option β) (hz : Ev.process z w ∈ s.trace) : spec.args = if z.isSome then 2 else 1 := by
  have hn : spec.args ≤ 2 := by
    unfold validate at hv
    by_contra hc
    simp only at hv
    rw [if_pos (by omega)] at hv
    cases hv
  have key : ∀ (xs : List (Option α)) (ys : List (Option β)) (s0 s : St α β σ),
      calls (if single then nextSingle u c (noInput spec) else nextIter u c (noInput spec)) s0 xs = .ok (ys, s) →
      Ev.process z w ∈ s.trace → Ev.process z w ∈ s0.trace ∨ z.isSome = !(noInput spec) := by
    intro xs
    induction xs with
    | nil => intro ys s0 s h hm; simp only [calls, Except.ok.injEq, Prod.mk.injEq] at h; exact .inl (h.2 ▸ hm)
    | cons x xs ih =>
      intro ys s0 s h hm
      unfold calls at h
      split at h
      · cases h
      · rename_i y t hstep
        split at h
        · cases h
        · rename_i ys' r hrest
          cases h
          rcases ih ys' t s hrest hm with h' | h'
          · cases single with
            | true =>
              simp only [if_true] at hstep
              unfold nextSingle at hstep
              split at hstep
              · cases hstep
              · exact rpw_arity u c _ _ _ _ _ t y hstep z w h'
            | false =>
              simp only [Bool.false_eq_true, if_false] at hstep
              unfold nextIter at hstep
              split at hstep
              · cases hstep
              · split at hstep
                · cases hstep
                · rename_i t' hr
                  cases hstep
                  exact rpw_arity u c _ _ _ _ _ _ y hr z w h'
          · exact .inr h'
  rcases key xs ys _ s hc hz with h | h
  · simp [start] at h
  · rw [h]
    unfold noInput
    by_cases h1 : spec.args = 1
    · simp [h1]
    · have : spec.args = 2 := by omega
      simp [this]

/-- The task of the examples takes one argument, has been accepted, and gets its two files. -/
example : validate runCfg ⟨2, false, false, false, false⟩ 0 = .ok () ∧
    traceOf (calls (nextIter summing runCfg (noInput ⟨2, false, false, false, false⟩)) (start 0 fun _ => false) [none, none]) ≠ none :=
  ⟨rfl, by decide⟩

end Verif.Iter
