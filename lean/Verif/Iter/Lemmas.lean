import Verif.Iter.Spec
import Mathlib.Data.List.TakeWhile

/-!
# Lemmas for tasks over files
-/
namespace Verif.Iter

variable {α β σ : Type}

theorem dirname_ne (p : Str) (h : '/' ∈ p) : dirname p ≠ [] := by
  unfold dirname
  have hne : (p.reverse.dropWhile (· != '/')) ≠ [] := by
    intro e
    rw [List.dropWhile_eq_nil_iff] at e
    have := e '/' (List.mem_reverse.2 h)
    simp at this
  simp only
  split
  · simpa using hne
  · rename_i hall
    rw [ne_eq, List.reverse_eq_nil_iff, List.dropWhile_eq_nil_iff]
    intro e
    apply hall
    rw [List.all_eq_true]
    intro x hx
    exact e x (List.mem_reverse.2 hx)

/-- Writing the output. -/
theorem writeOut_ok (u : User α β σ) (c : Cfg) (name : Option Str) (y : Option β) (s : St α β σ)
    (hw : ∀ f y, u.write f y = .ok ())
    (hn : c.outputRoot = none ∨ y = none ∨ ∃ n, name = some n ∧ InDirectory u.expand c.outputRoot n) :
    ∃ t, writeOut u c name y s = .ok t ∧ t.user = s.user ∧ t.iteration = s.iteration ∧ t.done = s.done ∧
      t.trace = s.trace ++ writeEv u.expand c.outputRoot (name.getD []) y := by
  unfold writeOut
  cases hr : c.outputRoot with
  | none =>
    refine ⟨s, rfl, rfl, rfl, rfl, ?_⟩
    cases y <;> simp [writeEv]
  | some r =>
    cases y with
    | none => exact ⟨s, rfl, rfl, rfl, rfl, by simp [writeEv]⟩
    | some v =>
      rcases hn with h | h | ⟨n, rfl, hd⟩
      · rw [hr] at h; cases h
      · cases h
      · have hne := dirname_ne _ (hd r hr)
        simp only
        by_cases hs : s.dirs (dirname (u.expand (r ++ n))) = true
        · rw [if_pos ⟨hne, hs⟩, hw]
          exact ⟨_, rfl, rfl, rfl, rfl, by simp [writeEv]⟩
        · rw [if_neg (fun h => hs h.2), if_neg hne, hw]
          exact ⟨_, rfl, rfl, rfl, rfl, by simp [writeEv]⟩

/-- One file. -/
theorem file_ok (u : User α β σ) (c : Cfg) (r inN : Str) (outN : Option Str) (x : α) (y : Option β) (t' : σ) (s : St α β σ)
    (hroot : c.inputRoot = some r) (hread : u.read (u.expand (r ++ inN)) = .ok x)
    (hp : u.process s.user (some x) = .ok (t', y)) (hw : ∀ f y, u.write f y = .ok ())
    (hn : c.outputRoot = none ∨ y = none ∨ ∃ n, outN = some n ∧ InDirectory u.expand c.outputRoot n) :
    ∃ t, readProcessWrite u c false none (some inN) outN s = .ok (y, t) ∧ t.user = t' ∧ t.iteration = s.iteration ∧
      t.done = s.done ∧
      t.trace = s.trace ++ (.read (u.expand (r ++ inN)) x :: .process (some x) y :: writeEv u.expand c.outputRoot (outN.getD []) y) := by
  unfold readProcessWrite readIn
  simp only [hroot, Option.getD_some, hread]
  unfold processIn
  simp only [Bool.false_and, Bool.false_eq_true, if_false, hp]
  obtain ⟨t, h1, h2, h3, h4, h5⟩ := writeOut_ok u c outN y
    { s with user := t', trace := s.trace ++ [.read (u.expand (r ++ inN)) x] ++ [.process (some x) y] } hw hn
  rw [h1]
  exact ⟨t, rfl, h2, h3, h4, by rw [h5]; simp⟩

/-- One input. -/
theorem input_ok (u : User α β σ) (c : Cfg) (inN outN : Option Str) (x : α) (y : Option β) (t' : σ) (s : St α β σ)
    (hp : u.process s.user (some x) = .ok (t', y)) (hw : ∀ f y, u.write f y = .ok ())
    (hn : c.outputRoot = none ∨ y = none ∨ ∃ n, outN = some n ∧ InDirectory u.expand c.outputRoot n) :
    ∃ t, readProcessWrite u c false (some x) inN outN s = .ok (y, t) ∧ t.user = t' ∧ t.iteration = s.iteration ∧
      t.done = s.done ∧ t.trace = s.trace ++ (.process (some x) y :: writeEv u.expand c.outputRoot (outN.getD []) y) := by
  unfold readProcessWrite readIn
  simp only
  unfold processIn
  simp only [Bool.false_and, Bool.false_eq_true, if_false, hp]
  obtain ⟨t, h1, h2, h3, h4, h5⟩ := writeOut_ok u c outN y
    { s with user := t', trace := s.trace ++ [.process (some x) y] } hw hn
  rw [h1]
  exact ⟨t, rfl, h2, h3, h4, by rw [h5]; simp⟩

theorem dirname_parent (f : Str) : Parent (dirname f) f := by
  have h1 : f = (f.reverse.dropWhile (· != '/')).reverse ++ (f.reverse.takeWhile (· != '/')).reverse := by
    rw [← List.reverse_append, List.takeWhile_append_dropWhile, List.reverse_reverse]
  have h2 : '/' ∉ (f.reverse.takeWhile (· != '/')).reverse := by
    intro h
    have := List.mem_takeWhile_imp (List.mem_reverse.1 h)
    simp at this
  unfold dirname
  simp only
  generalize (f.reverse.dropWhile (· != '/')).reverse = hd at h1
  generalize (f.reverse.takeWhile (· != '/')).reverse = tl at h1 h2
  split
  · exact ⟨[], tl, by simp [h1], by simp, h2⟩
  · refine ⟨(hd.reverse.takeWhile (· == '/')).reverse, tl, ?_, ?_, h2⟩
    · rw [← List.reverse_append, List.takeWhile_append_dropWhile, List.reverse_reverse]
      exact h1
    · intro ch hch
      have := List.mem_takeWhile_imp (List.mem_reverse.1 hch)
      simpa using this

/-- All written files are in directories that there are. -/
def Housed (s : St α β σ) : Prop := ∀ f y, .write f y ∈ s.trace → s.dirs (dirname f) = true

theorem readIn_dirs (u : User α β σ) (c : Cfg) (no : Bool) (input : Option α) (fn : Option Str) (s s' : St α β σ) (x : Option α)
    (h : readIn u c no input fn s = .ok (x, s')) (hs : Housed s) : Housed s' ∧ s'.dirs = s.dirs := by
  unfold readIn at h
  split at h
  · split at h
    · simp at h
    · simp only at h
      split at h
      · simp at h
      · simp only [Except.ok.injEq, Prod.mk.injEq] at h
        obtain ⟨-, rfl⟩ := h
        refine ⟨fun f y hf => hs f y ?_, rfl⟩
        simpa using hf
  · simp only [Except.ok.injEq, Prod.mk.injEq] at h
    obtain ⟨-, rfl⟩ := h
    exact ⟨hs, rfl⟩

theorem processIn_dirs (u : User α β σ) (no : Bool) (input : Option α) (s s' : St α β σ) (y : Option β)
    (h : processIn u no input s = .ok (y, s')) (hs : Housed s) : Housed s' ∧ s'.dirs = s.dirs := by
  unfold processIn at h
  split at h
  · simp at h
  · split at h
    · simp at h
    · simp only [Except.ok.injEq, Prod.mk.injEq] at h
      obtain ⟨-, rfl⟩ := h
      refine ⟨fun f y hf => hs f y ?_, rfl⟩
      simpa using hf

theorem writeOut_dirs (u : User α β σ) (c : Cfg) (fn : Option Str) (y : Option β) (s s' : St α β σ)
    (h : writeOut u c fn y s = .ok s') (hs : Housed s) : Housed s' ∧ ∀ d, s.dirs d = true → s'.dirs d = true := by
  unfold writeOut at h
  split at h
  · split at h
    · simp at h
    · simp only at h
      split at h
      · next hd =>
        split at h
        · simp at h
        · simp only [Except.ok.injEq] at h
          subst h
          refine ⟨fun f y hf => ?_, fun d h => h⟩
          simp only [List.mem_append, List.mem_singleton, Ev.write.injEq] at hf
          rcases hf with hf | ⟨rfl, rfl⟩
          · exact hs f y hf
          · exact hd.2
      · split at h
        · simp at h
        · split at h
          · simp at h
          · simp only [Except.ok.injEq] at h
            subst h
            refine ⟨fun f y hf => ?_, fun d h => by simp [h]⟩
            simp only [List.mem_append, List.mem_singleton, Ev.write.injEq] at hf
            rcases hf with hf | ⟨rfl, rfl⟩
            · simp [hs f y hf]
            · simp
  · simp only [Except.ok.injEq] at h
    subst h
    exact ⟨hs, fun _ h => h⟩

theorem rpw_dirs (u : User α β σ) (c : Cfg) (no : Bool) (input : Option α) (i o : Option Str) (s s' : St α β σ) (y : Option β)
    (h : readProcessWrite u c no input i o s = .ok (y, s')) (hs : Housed s) :
    Housed s' ∧ ∀ d, s.dirs d = true → s'.dirs d = true := by
  unfold readProcessWrite at h
  split at h
  · simp at h
  · next x s1 h1 =>
    obtain ⟨a1, a2⟩ := readIn_dirs u c no input i s s1 x h1 hs
    split at h
    · simp at h
    · next y2 s2 h2 =>
      obtain ⟨b1, b2⟩ := processIn_dirs u no x s1 s2 y2 h2 a1
      split at h
      · simp at h
      · next s3 h3 =>
        simp only [Except.ok.injEq, Prod.mk.injEq] at h
        obtain ⟨-, rfl⟩ := h
        obtain ⟨d1, d2⟩ := writeOut_dirs u c o y2 s2 s3 h3 b1
        exact ⟨d1, fun d hd => d2 d (by rw [b2, a2]; exact hd)⟩

theorem nextIter_dirs (u : User α β σ) (c : Cfg) (no : Bool) (s s' : St α β σ) (x : Option α) (y : Option β)
    (h : nextIter u c no s x = .ok (y, s')) (hs : Housed s) : Housed s' ∧ ∀ d, s.dirs d = true → s'.dirs d = true := by
  unfold nextIter at h
  split at h
  · simp at h
  · split at h
    · simp at h
    · next y t ht =>
      simp only [Except.ok.injEq, Prod.mk.injEq] at h
      obtain ⟨-, rfl⟩ := h
      exact rpw_dirs u c no _ _ _ s t y ht hs

theorem nextSingle_dirs (u : User α β σ) (c : Cfg) (no : Bool) (s s' : St α β σ) (x : Option α) (y : Option β)
    (h : nextSingle u c no s x = .ok (y, s')) (hs : Housed s) : Housed s' ∧ ∀ d, s.dirs d = true → s'.dirs d = true := by
  unfold nextSingle at h
  split at h
  · simp at h
  · exact rpw_dirs u c no _ _ _ { s with done := true } s' y h hs

theorem calls_dirs (next : St α β σ → Option α → Except PyErr (Option β × St α β σ))
    (hn : ∀ s s' x y, next s x = .ok (y, s') → Housed s → Housed s' ∧ ∀ d, s.dirs d = true → s'.dirs d = true)
    (xs : List (Option α)) : ∀ (s s' : St α β σ) (ys : List (Option β)), calls next s xs = .ok (ys, s') → Housed s →
      Housed s' ∧ ∀ d, s.dirs d = true → s'.dirs d = true := by
  induction xs with
  | nil =>
    intro s s' ys h hs
    simp only [calls, Except.ok.injEq, Prod.mk.injEq] at h
    obtain ⟨-, rfl⟩ := h
    exact ⟨hs, fun _ h => h⟩
  | cons x xs ih =>
    intro s s' ys h hs
    rw [calls] at h
    split at h
    · simp at h
    · next y t ht =>
      split at h
      · simp at h
      · next zs r hr =>
        simp only [Except.ok.injEq, Prod.mk.injEq] at h
        obtain ⟨-, rfl⟩ := h
        obtain ⟨a, b⟩ := hn s t x y ht hs
        obtain ⟨a', b'⟩ := ih t r zs hr a
        exact ⟨a', fun d hd => b' d (b d hd)⟩

end Verif.Iter
