import Verif.Iter.Props

/-!
# C67: tasks over files, when reading, processing or writing may fail
-/
namespace Verif.Iter

variable {α β σ : Type}

/-- The last step of a call that has succeeded. -/
theorem writeOut_inv (u : User α β σ) (c : Cfg) (f : Str) (y : Option β) (s t : St α β σ) (h : writeOut u c (some f) y s = .ok t) :
    t.user = s.user ∧ t.iteration = s.iteration ∧ t.trace = s.trace ++ writeEv u.expand c.outputRoot f y ∧
    ∀ r z, c.outputRoot = some r → y = some z → u.write (u.expand (r ++ f)) z = .ok () := by
  unfold writeOut at h
  cases hr : c.outputRoot with
  | none =>
    rw [hr] at h
    cases h
    exact ⟨rfl, rfl, by cases y <;> simp [writeEv], fun r z h1 => by cases h1⟩
  | some r =>
    cases y with
    | none =>
      rw [hr] at h
      cases h
      exact ⟨rfl, rfl, by simp [writeEv], fun r z _ h2 => by cases h2⟩
    | some z =>
      rw [hr] at h
      simp only at h
      split at h
      · split at h
        · cases h
        · rename_i hw
          cases h
          exact ⟨rfl, rfl, rfl, fun r' z' h1 h2 => by cases h1; cases h2; exact hw⟩
      · split at h
        · cases h
        · split at h
          · cases h
          · rename_i hw
            cases h
            exact ⟨rfl, rfl, rfl, fun r' z' h1 h2 => by cases h1; cases h2; exact hw⟩

/-- A call with a file that has succeeded. -/
theorem file_inv (u : User α β σ) (c : Cfg) (r : Str) (hroot : c.inputRoot = some r) (s t : St α β σ) (y : Option β)
    (h : nextIter u c false s none = .ok (y, t)) :
    ∃ m x, c.middles[s.iteration]? = some m ∧ u.read (u.expand (r ++ m ++ c.inputExt)) = .ok x ∧
      u.process s.user (some x) = .ok (t.user, y) ∧ t.iteration = s.iteration + 1 ∧
      t.trace = s.trace ++ filesTrace u.expand r c.outputRoot c.inputExt c.outputExt [(m, x, y)] ∧
      ∀ q z, c.outputRoot = some q → y = some z → u.write (u.expand (q ++ m ++ c.outputExt)) z = .ok () := by
  unfold nextIter fileNames at h
  cases hm : c.middles[s.iteration]? with
  | none => rw [hm, hroot] at h; cases h
  | some m =>
    rw [hm] at h
    simp only [castIn, readProcessWrite, readIn, hroot, Option.getD_some] at h
    cases hx : u.read (u.expand (r ++ (m ++ c.inputExt))) with
    | error e => rw [hx] at h; cases h
    | ok x =>
      rw [hx] at h
      simp only [processIn, Bool.false_and, Bool.false_eq_true, if_false] at h
      cases hp : u.process s.user (some x) with
      | error e => rw [hp] at h; cases h
      | ok p =>
        obtain ⟨t', y'⟩ := p
        rw [hp] at h
        simp only at h
        generalize hs2 : ({ s with user := t', trace := s.trace ++ [.read (u.expand (r ++ (m ++ c.inputExt))) x] ++ [.process (some x) y'] } : St α β σ) = s2 at h
        cases hw : writeOut u c (some (m ++ c.outputExt)) y' s2 with
        | error e => rw [hw] at h; cases h
        | ok s3 =>
          rw [hw] at h
          simp only [Except.ok.injEq, Prod.mk.injEq] at h
          obtain ⟨rfl, rfl⟩ := h
          obtain ⟨h1, h2, h3, h4⟩ := writeOut_inv u c _ _ _ _ hw
          subst hs2
          refine ⟨m, x, rfl, by rw [List.append_assoc]; exact hx, by simp only [h1, hp], by simp only [h2], ?_, ?_⟩
          · simp only [h3, filesTrace, List.append_nil, List.append_assoc, List.cons_append, List.nil_append]
          · intro q z hq hz
            rw [List.append_assoc]
            exact h4 q z hq hz

/-- **C67** (files, whatever fails). If the calls of a task that iterates over files have succeeded so far, then there was a file for
each; it has read the first files of the list in order, each once and with success, called `process` with what they contain, each before
the next is read, and written the outputs with success, each to the file of the same middle; nothing else. -/
theorem C67_only_files (u : User α β σ) (c : Cfg) (r : Str) (hroot : c.inputRoot = some r) (dirs : Str → Bool) (t0 : σ) (n : Nat)
    (ys : List (Option β)) (s : St α β σ) (h : calls (nextIter u c false) (start t0 dirs) (List.replicate n none) = .ok (ys, s)) :
    n ≤ c.middles.length ∧ ∃ xs, List.Forall₂ (fun m x => u.read (u.expand (r ++ m ++ c.inputExt)) = .ok x) (c.middles.take n) xs ∧
      Produces u.process t0 (xs.map some) ys s.user ∧
      s.trace = filesTrace u.expand r c.outputRoot c.inputExt c.outputExt ((c.middles.take n).zip (xs.zip ys)) ∧
      List.Forall₂ (fun m y => ∀ q z, c.outputRoot = some q → y = some z → u.write (u.expand (q ++ m ++ c.outputExt)) z = .ok ())
        (c.middles.take n) ys := by
  have key : ∀ (n : Nat) (pre ms : List Str) (ys : List (Option β)) (s0 s : St α β σ), c.middles = pre ++ ms → s0.iteration = pre.length →
      calls (nextIter u c false) s0 (List.replicate n none) = .ok (ys, s) →
      n ≤ ms.length ∧ ∃ xs, List.Forall₂ (fun m x => u.read (u.expand (r ++ m ++ c.inputExt)) = .ok x) (ms.take n) xs ∧
        Produces u.process s0.user (xs.map some) ys s.user ∧
        s.trace = s0.trace ++ filesTrace u.expand r c.outputRoot c.inputExt c.outputExt ((ms.take n).zip (xs.zip ys)) ∧
        List.Forall₂ (fun m y => ∀ q z, c.outputRoot = some q → y = some z → u.write (u.expand (q ++ m ++ c.outputExt)) z = .ok ())
          (ms.take n) ys := by
    intro n
    induction n with
    | zero =>
      intro pre ms ys s0 s _ _ h
      simp only [List.replicate_zero, calls, Except.ok.injEq, Prod.mk.injEq] at h
      obtain ⟨rfl, rfl⟩ := h
      exact ⟨Nat.zero_le _, [], .nil, .nil _, by simp [filesTrace], .nil⟩
    | succ n ih =>
      intro pre ms ys s0 s hm hi h
      rw [List.replicate_succ, calls] at h
      split at h
      · cases h
      · rename_i y t hstep
        split at h
        · cases h
        · rename_i ys' s' hrest
          simp only [Except.ok.injEq, Prod.mk.injEq] at h
          obtain ⟨rfl, rfl⟩ := h
          obtain ⟨m, x, h1, h2, h3, h4, h5, h6⟩ := file_inv u c r hroot s0 t y hstep
          rw [hi, hm, List.getElem?_append_right (Nat.le_refl _), Nat.sub_self] at h1
          cases ms with
          | nil => cases h1
          | cons m' ms =>
            cases h1
            obtain ⟨g1, xs, g2, g3, g4, g5⟩ := ih (pre ++ [m]) ms ys' t s' (by rw [hm]; simp) (by rw [h4, hi]; simp) hrest
            refine ⟨by simpa using g1, x :: xs, ?_, ?_, ?_, ?_⟩
            · exact .cons h2 g2
            · exact .cons _ _ _ _ _ _ _ h3 g3
            · rw [g4, h5]
              simp [filesTrace]
            · exact .cons h6 g5
  obtain ⟨h1, xs, h2, h3, h4, h5⟩ := key n [] c.middles ys _ s rfl rfl h
  exact ⟨h1, xs, h2, h3, by rw [h4]; rfl, h5⟩

/-- A call with an input, while there are names, that has succeeded. -/
theorem input_inv (u : User α β σ) (c : Cfg) (s t : St α β σ) (x : α) (y : Option β) (m : Str) (hm : c.middles[s.iteration]? = some m)
    (h : nextIter u c false s (some x) = .ok (y, t)) :
    u.process s.user (some (if u.truthy x then u.cast x else x)) = .ok (t.user, y) ∧ t.iteration = s.iteration + 1 ∧
      t.trace = s.trace ++ inputsTrace u.expand c.outputRoot c.outputExt [(m, if u.truthy x then u.cast x else x, y)] ∧
      ∀ q z, c.outputRoot = some q → y = some z → u.write (u.expand (q ++ m ++ c.outputExt)) z = .ok () := by
  have hc : castIn u (some x) = some (if u.truthy x then u.cast x else x) := by
    unfold castIn
    simp only
    split <;> rfl
  unfold nextIter fileNames at h
  rw [hm, hc] at h
  generalize (if u.truthy x then u.cast x else x) = x' at h ⊢
  simp only [readProcessWrite, readIn, processIn, Bool.false_and, Bool.false_eq_true, if_false] at h
  cases hp : u.process s.user (some x') with
  | error e => rw [hp] at h; cases h
  | ok p =>
    obtain ⟨t', y'⟩ := p
    rw [hp] at h
    simp only at h
    generalize hs2 : ({ s with user := t', trace := s.trace ++ [.process (some x') y'] } : St α β σ) = s2 at h
    cases hw : writeOut u c (some (m ++ c.outputExt)) y' s2 with
    | error e => rw [hw] at h; cases h
    | ok s3 =>
      rw [hw] at h
      simp only [Except.ok.injEq, Prod.mk.injEq] at h
      obtain ⟨rfl, rfl⟩ := h
      obtain ⟨h1, h2, h3, h4⟩ := writeOut_inv u c _ _ _ _ hw
      subst hs2
      refine ⟨by simp only [h1], by simp only [h2], ?_, ?_⟩
      · simp only [h3, inputsTrace, List.append_nil, List.append_assoc, List.cons_append, List.nil_append]
      · intro q z hq hz
        rw [List.append_assoc]
        exact h4 q z hq hz

/-- **C67** (inputs, whatever fails). If the calls of a task that is given its inputs have succeeded so far, and there was a name for
each, then `process` has been called with the inputs in order, cast unless they count as false, and the outputs have been written with
success, each to the file whose middle is at the same place in the list; nothing else. -/
theorem C67_only_inputs (u : User α β σ) (c : Cfg) (dirs : Str → Bool) (t0 : σ) (xs : List α) (hl : xs.length ≤ c.middles.length)
    (ys : List (Option β)) (s : St α β σ) (h : calls (nextIter u c false) (start t0 dirs) (xs.map some) = .ok (ys, s)) :
    let zs := xs.map fun x => if u.truthy x then u.cast x else x
    Produces u.process t0 (zs.map some) ys s.user ∧
      s.trace = inputsTrace u.expand c.outputRoot c.outputExt ((c.middles.take xs.length).zip (zs.zip ys)) ∧
      List.Forall₂ (fun m y => ∀ q z, c.outputRoot = some q → y = some z → u.write (u.expand (q ++ m ++ c.outputExt)) z = .ok ())
        (c.middles.take xs.length) ys := by
  have key : ∀ (xs : List α) (pre ms : List Str) (ys : List (Option β)) (s0 s : St α β σ), c.middles = pre ++ ms → s0.iteration = pre.length →
      xs.length ≤ ms.length → calls (nextIter u c false) s0 (xs.map some) = .ok (ys, s) →
      Produces u.process s0.user ((xs.map fun x => if u.truthy x then u.cast x else x).map some) ys s.user ∧
        s.trace = s0.trace ++ inputsTrace u.expand c.outputRoot c.outputExt
          ((ms.take xs.length).zip ((xs.map fun x => if u.truthy x then u.cast x else x).zip ys)) ∧
        List.Forall₂ (fun m y => ∀ q z, c.outputRoot = some q → y = some z → u.write (u.expand (q ++ m ++ c.outputExt)) z = .ok ())
          (ms.take xs.length) ys := by
    intro xs
    induction xs with
    | nil =>
      intro pre ms ys s0 s _ _ _ h
      simp only [List.map_nil, calls, Except.ok.injEq, Prod.mk.injEq] at h
      obtain ⟨rfl, rfl⟩ := h
      exact ⟨.nil _, by simp [inputsTrace], .nil⟩
    | cons x xs ih =>
      intro pre ms ys s0 s hm hi hl h
      rw [List.map_cons, calls] at h
      split at h
      · cases h
      · rename_i y t hstep
        split at h
        · cases h
        · rename_i ys' s' hrest
          simp only [Except.ok.injEq, Prod.mk.injEq] at h
          obtain ⟨rfl, rfl⟩ := h
          cases ms with
          | nil => simp at hl
          | cons m ms =>
            obtain ⟨h3, h4, h5, h6⟩ := input_inv u c s0 t x y m
              (by rw [hi, hm, List.getElem?_append_right (Nat.le_refl _), Nat.sub_self]; rfl) hstep
            obtain ⟨g3, g4, g5⟩ := ih (pre ++ [m]) ms ys' t s' (by rw [hm]; simp) (by rw [h4, hi]; simp) (by simpa using hl) hrest
            refine ⟨?_, ?_, ?_⟩
            · exact .cons _ _ _ _ _ _ _ h3 g3
            · rw [g4, h5]
              simp [inputsTrace]
            · exact .cons h6 g5
  obtain ⟨h3, h4, h5⟩ := key xs [] c.middles ys _ s rfl rfl hl h
  exact ⟨h3, by rw [h4]; rfl, h5⟩

/-- **C67** (failures). An exception of the user's methods, or of reading and writing, is not swallowed: the call raises it, whether
it is raised when the file is read, by `process`, or when the output is written. -/
theorem C67_fails (u : User α β σ) (c : Cfg) (r : Str) (hroot : c.inputRoot = some r) (s : St α β σ) (m : Str)
    (hm : c.middles[s.iteration]? = some m) :
    (∀ e, u.read (u.expand (r ++ m ++ c.inputExt)) = .error e → nextIter u c false s none = .error e) ∧
    ∀ x, u.read (u.expand (r ++ m ++ c.inputExt)) = .ok x →
      (∀ e, u.process s.user (some x) = .error e → nextIter u c false s none = .error e) ∧
      ∀ t q y e, u.process s.user (some x) = .ok (t, some y) → c.outputRoot = some q → '/' ∈ u.expand (q ++ m ++ c.outputExt) →
        u.write (u.expand (q ++ m ++ c.outputExt)) y = .error e → nextIter u c false s none = .error e := by
  simp only [nextIter, fileNames, hm, castIn, readProcessWrite, readIn, hroot, Option.getD_some, ← List.append_assoc]
  refine ⟨fun e he => by rw [he], fun x hx => ⟨fun e he => ?_, fun t q y e hp hq hsl he => ?_⟩⟩
  · rw [hx]
    simp only [processIn, Bool.false_and, Bool.false_eq_true, if_false, he]
  · rw [hx]
    have hd := dirname_ne _ hsl
    simp only [processIn, Bool.false_and, Bool.false_eq_true, if_false, hp, writeOut, hq, ← List.append_assoc, he]
    by_cases h : s.dirs (dirname (u.expand (q ++ m ++ c.outputExt))) = true
    · rw [if_pos ⟨hd, h⟩]
    · rw [if_neg (fun hh => h hh.2), if_neg hd]

/-- The second file cannot be read. -/
def broken : User Nat Nat Nat := { summing with read := fun f => if f.length = 7 then .ok 7 else .error (.user 3) }

/-- The first call succeeds, and the second raises what reading raises. -/
example : traceOf (calls (nextIter broken runCfg false) (start 0 fun _ => false) [none]) =
    some ([none], [.read "in/a.h5".toList 7, .process (some 7) none]) := by decide

example (s : St Nat Nat Nat) (h : s.iteration = 1) : nextIter broken runCfg false s none = .error (.user 3) :=
  (C67_fails broken runCfg "in/".toList rfl s "bcd".toList (by rw [h]; rfl)).1 _ rfl

end Verif.Iter
