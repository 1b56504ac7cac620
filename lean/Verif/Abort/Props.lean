import Verif.Abort.Lemmas

/-!
# C110: when one process fails, the whole job ends
-/
namespace Verif.Abort

/-- Processes that do not fail make the same `m` collective calls. Others fail earlier, with an exception that is neither `EOFError` nor a broken pipe nor a wish to exit. -/
def Usual (n m : Nat) (prog : Nat → List Op) : Prop :=
  ∀ i < n, (failure (prog i) = none ∧ calls (prog i) = m) ∨
    ((failure (prog i) = some .ordinary ∨ failure (prog i) = some .osError) ∧ calls (prog i) ≤ m)

theorem Usual.together {n m : Nat} {prog : Nat → List Op} (h : Usual n m prog) : Together n m prog := by
  intro i hi
  rcases h i hi with ⟨h1, h2⟩ | ⟨h1 | h1, h2⟩ <;> simp only [h1]
  · exact h2
  · exact ⟨h2, rfl⟩
  · exact ⟨h2, rfl⟩

/-- C110. With the option as it is by default: at any time, in any order of turns, some process can go on unless all have ended; there are only so many steps; so that all processes end. -/
theorem C110_ends_partial (n m : Nat) (prog : Nat → List Op) (h : Usual n m prog) (turns : List Nat) :
    ((∃ i < n, ended (command false n prog turns i) = false) → ∃ i < n, (step true n (command false n prog turns) i).isSome = true) ∧
    moves true n (start prog) turns ≤ tot (fun i => (prog i).length + 2) n ∧
    ∃ more, ∀ i < n, ended (command false n prog (turns ++ more) i) = true := by
  have hinv := run_inv turns _ (start_inv true n prog)
  refine ⟨progress h.together hinv, moves_le turns _, ?_⟩
  obtain ⟨more, hm⟩ := can_end h.together _ _ hinv (Nat.le_refl _)
  exact ⟨more, by simpa [command, run_append] using hm⟩

/-- C110. The job reports failure if and only if some process failed: when all have ended, every process has the exit code 1 if one failed, and 0 otherwise. -/
theorem C110_result_partial (n m : Nat) (prog : Nat → List Op) (h : Usual n m prog) (turns : List Nat) (hend : ∀ i < n, ended (command false n prog turns i) = true) :
    ((∃ i < n, failure (prog i) ≠ none) → ∀ i < n, (command false n prog turns i).pos = .ended 1) ∧
    ((∀ i < n, failure (prog i) = none) → ∀ i < n, (command false n prog turns i).pos = .ended 0) := by
  have hinv : Inv true n prog (command false n prog turns) := run_inv turns _ (start_inv true n prog)
  rcases hinv with ⟨h1, _⟩ | ⟨h1, _, i, hi, e, he, _⟩
  · have key : ∀ i < n, failure (prog i) = none ∧ (command false n prog turns i).pos = .ended 0 := by
      intro i hi
      have hok := h1 i hi
      have hen := hend i hi
      cases hp : (command false n prog turns i).pos with
      | ended c =>
        simp only [Ok, hp] at hok
        have ht := h.together i hi
        cases hf : failure (prog i) with
        | none => simp only [hf] at hok; exact ⟨rfl, by rw [hok.2]⟩
        | some e => simp only [hf] at hok ht; simp [ht.2] at hok
      | _ => simp [ended, hp] at hen
    exact ⟨fun ⟨i, hi, hne⟩ => absurd (key i hi).1 hne, fun _ i hi => (key i hi).2⟩
  · exact ⟨fun _ => h1, fun hno => absurd (hno i hi) (by simp [he])⟩

/-- The exit code of a process by itself: 0 if it does not fail, what it asked for if it asked to exit, otherwise 1. -/
def codeOf : Option Exc → Nat
  | none => 0
  | some (.exit c) => c
  | some _ => 1

/-- C110. Whatever the exceptions and the option: if a process ends, then with the exit code of its own failure, unless the option is as by default and some process failed with an exception that ends all
with the exit code 1. So if some process ends after an error, the job reports failure. -/
theorem C110_codes (n : Nat) (prog : Nat → List Op) (noMpiAbort : Bool) (turns : List Nat) (i : Nat) (hi : i < n) (c : Nat)
    (hc : (command noMpiAbort n prog turns i).pos = .ended c) :
    (c = codeOf (failure (prog i)) ∨ (c = 1 ∧ noMpiAbort = false ∧ ∃ j < n, failure (prog j) = some .ordinary ∨ failure (prog j) = some .osError)) ∧
    ((∃ e, failure (prog i) = some e ∧ e.isError = true) → c ≠ 0) := by
  have hinv : Inv (!noMpiAbort) n prog (command noMpiAbort n prog turns) := run_inv turns _ (start_inv _ n prog)
  rcases hinv with ⟨h1, _⟩ | ⟨h1, hh, j, hj, e, he, hr⟩
  · have hok := h1 i hi
    simp only [Ok, hc] at hok
    have key : c = codeOf (failure (prog i)) := by
      have h := hok.2
      cases hf : failure (prog i) with
      | none => rw [hf] at h; exact h
      | some e =>
        rw [hf] at h
        rcases h with h | ⟨h, _, rfl⟩
        · cases e <;> simp only [clickMain, Leave.exit.injEq, reduceCtorEq] at h <;> rw [← h] <;> rfl
        · cases e <;> simp only [clickMain, reduceCtorEq] at h <;> rfl
    refine ⟨.inl key, ?_⟩
    rintro ⟨e, he, herr⟩
    rw [key, he]
    cases e <;> simp [codeOf, Exc.isError] at herr ⊢
  · have : c = 1 := by
      have := h1 i hi
      rw [hc] at this
      simpa using this
    refine ⟨.inr ⟨this, by simpa using hh, j, hj, ?_⟩, fun _ => by rw [this]; simp⟩
    cases e <;> simp only [clickMain, reduceCtorEq] at hr <;> simp [he]

example : (command true 2 (fun i => if i = 0 then [.fail .brokenPipe] else []) [0, 1, 0, 1] 0).pos = .ended 1 ∧
    (command false 2 (fun i => if i = 0 then [.fail (.exit 3)] else []) [0, 1, 0, 1] 0).pos = .ended 3 := by decide

/-- Three processes: one fails after the first of two collective calls. -/
private def three : Nat → List Op := fun i => if i = 1 then [.coll, .fail .ordinary, .coll] else [.work, .coll, .coll]

example : Usual 3 2 three ∧ (∀ i < 3, (command false 3 three ([0, 0, 1, 0, 2, 2, 1, 0, 1, 2, 1]) i).pos = .ended 1) := by
  constructor
  · intro i hi
    have : i = 0 ∨ i = 1 ∨ i = 2 := by omega
    rcases this with rfl | rfl | rfl <;> simp [three, failure, calls]
  · decide

/-- C110 violated: a task that raises `EOFError` (say because a file is too short), or an `OSError` of a broken pipe. It is an error, but click ends the process quietly with `sys.exit(1)`, and the handler is
not called. If another process makes a collective call after that, then no process ever ends, whatever the order of turns. -/
theorem C110_quiet_violated (n : Nat) (prog : Nat → List Op) (a b : Nat) (ha : a < n) (hb : b < n) (e : Exc) (he : e = .eof ∨ e = .brokenPipe)
    (hfail : failure (prog a) = some e) (hothers : ∀ i < n, i ≠ a → failure (prog i) = none) (hlt : calls (prog a) < calls (prog b)) (turns : List Nat) :
    e.isError = true ∧ ∀ i < n, ended (command false n prog turns i) = false := by
  refine ⟨by rcases he with rfl | rfl <;> rfl, fun i hi => ?_⟩
  have hq : ∀ i < n, ∀ e', failure (prog i) = some e' → true = true → clickMain e' ≠ .raised := by
    intro i hi e' hf _
    by_cases hia : i = a
    · subst hia
      rw [hfail] at hf
      injection hf with hf; subst hf
      rcases he with rfl | rfl <;> simp [clickMain]
    · rw [hothers i hi hia] at hf; cases hf
  have hst := stuck_run ha hb hlt hq turns _ (start_stuck true n prog a b)
  have := (hst.1 i hi).2.2
  unfold ended
  cases hp : (command false n prog turns i).pos with
  | ended c => exact absurd hp (this c)
  | _ => rfl

private def short : Nat → List Op := fun i => if i = 1 then [.work, .fail .eof] else [.work, .coll]

example : failure (short 1) = some .eof ∧ (∀ i < 3, i ≠ 1 → failure (short i) = none) ∧ calls (short 1) < calls (short 0) := by
  refine ⟨rfl, fun i _ h => by simp [short, h, failure], by decide⟩

/-- C110, `--no-mpi-abort`: after any exception of one process no process ever ends, if another one makes a collective call after that. The documentation of the handler says so. -/
theorem C110_without (n : Nat) (prog : Nat → List Op) (a b : Nat) (ha : a < n) (hb : b < n) (hlt : calls (prog a) < calls (prog b)) (turns : List Nat) :
    ∀ i < n, ended (command true n prog turns i) = false := by
  intro i hi
  have hst := stuck_run ha hb hlt (fun _ _ _ _ h => by cases h) turns _ (start_stuck false n prog a b)
  have := (hst.1 i hi).2.2
  unfold ended
  cases hp : (command true n prog turns i).pos with
  | ended c => exact absurd hp (this c)
  | _ => rfl

example : calls (three 1) < calls (three 0) := by decide

end Verif.Abort
