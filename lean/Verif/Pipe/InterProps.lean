import Verif.Pipe.InterLemmas
import Verif.Pipe.Props

/-!
# C113: stepping through a pipeline does what running it does

`genNexts keyOk inter ρ fs σ` are calls of `next` on a runner, one for every entry of `fs`; the entry
bounds the rounds that the call may take before it comes back. `inter` says in which rounds interactive
mode is switched on. `runFrom keyOk s ρ n` is the run without interactive mode after `n` rounds.
-/
namespace Verif.Pipe
variable {α : Type}

theorem restart_init (cfgs : List Cfg) : restart (State.init cfgs : State α) = State.init cfgs := rfl

/-- **C113.** A new runner on a manager in any state, and any calls of `next` that came back, for any
pattern of interactive mode. The tasks and all hook calls so far are those of the run without interactive
mode after as many rounds. Either the runner is frozen, that run still goes on, and the next hook it calls,
if any in the next round, is one of the task the runner is frozen at; or the runner has ended without an
exception and that run ends in the next round with the same hook calls; or an exception came out and that
run has failed. -/
theorem C113_steps (keyOk : Key → Bool) (inter : Nat → Bool) (ρ : Nat → Ret α) (s : State α) (f : Nat)
    (fs : List Nat) (ys : List Yield) (σ : Sess α)
    (h : genNexts keyOk inter ρ (f :: fs) ⟨s, .fresh, 0⟩ = some (ys, σ)) :
    σ.state.tasks = (runFrom keyOk (restart s) ρ σ.round).tasks ∧
    σ.state.log = (runFrom keyOk (restart s) ρ σ.round).log ∧
    ((σ.gen = .frozen ∧ (∀ y ∈ ys, y = .frozen) ∧
        (runFrom keyOk (restart s) ρ σ.round).status = .running ∧
        (runFrom keyOk (restart s) ρ (σ.round + 1)).status ≠ .done ∧
        (∀ e, (runFrom keyOk (restart s) ρ (σ.round + 1)).log =
          (runFrom keyOk (restart s) ρ σ.round).log ++ [e] → e.task = σ.state.idx)) ∨
      (σ.gen = .closed ∧ .raised ∉ ys ∧ .stopped ∈ ys ∧
        (runFrom keyOk (restart s) ρ σ.round).status = .running ∧
        (runFrom keyOk (restart s) ρ (σ.round + 1)).status = .done ∧
        (runFrom keyOk (restart s) ρ (σ.round + 1)).log = σ.state.log) ∨
      (σ.gen = .closed ∧ .raised ∈ ys ∧ (runFrom keyOk (restart s) ρ σ.round).status = .failed)) := by
  rw [genNexts] at h
  cases hg : genNext keyOk inter ρ f ⟨s, .fresh, 0⟩ with
  | none => rw [hg] at h; simp at h
  | some p =>
    obtain ⟨y1, σ1⟩ := p
    have h1 := genNext_fresh hg
    rw [hg] at h
    simp only [Option.map_eq_some_iff] at h
    obtain ⟨⟨ys', σ2⟩, h2, h3⟩ := h
    simp only [Prod.mk.injEq] at h3
    obtain ⟨rfl, rfl⟩ := h3
    have key : (Yield.raised ∉ y1 :: ys' ∧ Yield.stopped ∉ y1 :: ys' ∧
          Back keyOk (restart s) ρ .frozen σ2) ∨
        (Yield.raised ∉ y1 :: ys' ∧ Yield.stopped ∈ y1 :: ys' ∧ Back keyOk (restart s) ρ .stopped σ2) ∨
        (Yield.raised ∈ y1 :: ys' ∧ Back keyOk (restart s) ρ .raised σ2) := by
      cases y1 with
      | frozen =>
        rcases (genNexts_spec fs σ1 σ2 ys').1 ⟨h1, h2⟩ with ⟨a, b, c⟩ | ⟨a, b, c⟩ | ⟨a, c⟩
        · exact Or.inl ⟨by simp [a], by simp [b], c⟩
        · exact Or.inr (Or.inl ⟨by simp [a], by simp [b], c⟩)
        · exact Or.inr (Or.inr ⟨by simp [a], c⟩)
      | stopped =>
        obtain ⟨rfl, a⟩ := (genNexts_spec (s0 := restart s) fs σ1 σ2 ys').2 ⟨(h1.stopped rfl).1, h2⟩
        exact Or.inr (Or.inl ⟨by simp [a], by simp, h1⟩)
      | raised =>
        obtain ⟨rfl, a⟩ := (genNexts_spec (s0 := restart s) fs σ1 σ2 ys').2 ⟨(h1.raised rfl).1, h2⟩
        exact Or.inr (Or.inr ⟨by simp, h1⟩)
    rcases key with ⟨a, b, c⟩ | ⟨a, b, c⟩ | ⟨a, c⟩
    · obtain ⟨g, hr, hn, hs⟩ := c.frozen rfl
      have hst := step_some hr hn (ρ σ2.round) (keyOk := keyOk)
      refine ⟨by rw [hs], by rw [hs], Or.inl ⟨g, fun y hy => ?_, hr, ?_, fun e he => ?_⟩⟩
      · cases y with
        | frozen => rfl
        | stopped => exact absurd hy b
        | raised => exact absurd hy a
      · rw [runFrom]
        rcases hst.2 with e | e <;> rw [e] <;> simp
      · rw [runFrom] at he
        rcases hst.1 with e' | ⟨e', ht, e''⟩
        · rw [e'] at he
          simp at he
        · rw [e''] at he
          have := List.append_cancel_left he
          simp only [List.cons.injEq, and_true] at this
          rw [← this, ht]
    · obtain ⟨g, hr, hn, hs⟩ := c.stopped rfl
      have := step_none hr hn (ρ σ2.round) (keyOk := keyOk)
      refine ⟨by rw [hs], by rw [hs], Or.inr (Or.inl ⟨g, a, b, hr, ?_, ?_⟩)⟩
      · rw [runFrom, this]
      · rw [runFrom, this, hs]
    · obtain ⟨g, hr, hs⟩ := c.raised rfl
      exact ⟨by rw [hs], by rw [hs], Or.inr (Or.inr ⟨g, a, hr⟩)⟩

/-- Interactive mode on for all rounds but 2 and 3: four calls of `next` on the example have carried out
five rounds, in which the source and the other task were set up and 7 went through. -/
example : ∃ σ, genNexts (fun _ => true) (fun n => n != 2 && n != 3) exHooks [9, 9, 9, 9]
    ⟨State.init exCfgs, .fresh, 0⟩ = some ([.frozen, .frozen, .frozen, .frozen], σ) ∧ σ.round = 5 ∧
    hooksOf 0 σ.state.log = [.setup, .next, .next] ∧ hooksOf 1 σ.state.log = [.setup, .next] :=
  ⟨_, rfl, by decide +kernel⟩

/-- **C113.** In one round at most one hook is called. -/
theorem C113_one_round (keyOk : Key → Bool) (ρ : Nat → Ret α) (s : State α) (k : Nat)
    (hr : (runFrom keyOk (restart s) ρ k).status = .running) :
    (runFrom keyOk (restart s) ρ (k + 1)).log = (runFrom keyOk (restart s) ρ k).log ∨
      (∃ e, (runFrom keyOk (restart s) ρ (k + 1)).log =
        (runFrom keyOk (restart s) ρ k).log ++ [e]) := by
  rw [runFrom]
  cases hn : nextTask (runFrom keyOk (restart s) ρ k) with
  | none => rw [step_none hr hn]; exact Or.inl rfl
  | some i =>
    rcases (step_some hr hn (ρ k) (keyOk := keyOk)).1 with h | ⟨e, _, h⟩
    · exact Or.inl h
    · exact Or.inr ⟨e, h⟩

/-- **C113.** With interactive mode on, `k + 1` calls of `next` carry out exactly `k` rounds, as long as the
run goes on. -/
theorem C113_count (keyOk : Key → Bool) (ρ : Nat → Ret α) (s : State α) (k : Nat)
    (hr : (runFrom keyOk (restart s) ρ k).status = .running)
    (hd : (runFrom keyOk (restart s) ρ (k + 1)).status ≠ .done) :
    ∃ σ, genNexts keyOk (fun _ => true) ρ (List.replicate (k + 1) 1) ⟨s, .fresh, 0⟩ =
        some (List.replicate (k + 1) .frozen, σ) ∧ σ.round = k ∧
      σ.state.tasks = (runFrom keyOk (restart s) ρ k).tasks ∧
      σ.state.log = (runFrom keyOk (restart s) ρ k).log := by
  have hlast : ∀ j, j ≤ k → (runFrom keyOk (restart s) ρ j).status = .running := by
    intro j hj
    by_cases h : (runFrom keyOk (restart s) ρ j).status = .running
    · exact h
    · rw [runFrom_stays keyOk (restart s) ρ j h k hj] at hr
      exact absurd hr h
  have hsel : ∀ j, j ≤ k → ∃ i, nextTask (runFrom keyOk (restart s) ρ j) = some i := by
    intro j hj
    cases hn : nextTask (runFrom keyOk (restart s) ρ j) with
    | some i => exact ⟨i, rfl⟩
    | none =>
      have h1 : (runFrom keyOk (restart s) ρ (j + 1)).status = .done := by
        rw [runFrom, step_none (hlast j hj) hn]
      have h2 := runFrom_stays keyOk (restart s) ρ (j + 1) (by rw [h1]; simp) (k + 1) (by omega)
      rw [h2] at hd
      exact absurd h1 hd
  have go : ∀ j, j ≤ k → goOn keyOk (fun _ => true) ρ 1 j (runFrom keyOk (restart s) ρ j) =
      (nextTask (runFrom keyOk (restart s) ρ j)).map fun i =>
        (.frozen, ⟨{ runFrom keyOk (restart s) ρ j with idx := i }, .frozen, j⟩) := by
    intro j hj
    obtain ⟨i, hi⟩ := hsel j hj
    rw [goOn, hi]
    rfl
  have later : ∀ m j i, j + m = k → nextTask (runFrom keyOk (restart s) ρ j) = some i →
      ∃ i', nextTask (runFrom keyOk (restart s) ρ k) = some i' ∧
      genNexts keyOk (fun _ => true) ρ (List.replicate m 1)
        ⟨{ runFrom keyOk (restart s) ρ j with idx := i }, .frozen, j⟩ =
        some (List.replicate m .frozen, ⟨{ runFrom keyOk (restart s) ρ k with idx := i' }, .frozen, k⟩) := by
    intro m
    induction m with
    | zero =>
      intro j i hj hi
      have : j = k := by omega
      subst this
      exact ⟨i, hi, rfl⟩
    | succ m ih =>
      intro j i hj hi
      obtain ⟨i1, h1⟩ := hsel (j + 1) (by omega)
      obtain ⟨i', h', h''⟩ := ih (j + 1) i1 (by omega) h1
      refine ⟨i', h', ?_⟩
      have hrj := hlast (j + 1) (by omega)
      have e : genNext keyOk (fun _ => true) ρ 1
          ⟨{ runFrom keyOk (restart s) ρ j with idx := i }, .frozen, j⟩ =
          some (.frozen, ⟨{ runFrom keyOk (restart s) ρ (j + 1) with idx := i1 }, .frozen, j + 1⟩) := by
        unfold genNext
        simp only
        rw [exec_step (hlast j (by omega)) hi, ← runFrom, if_neg (by rw [hrj]; simp), go (j + 1) (by omega), h1]
        rfl
      rw [List.replicate_succ, List.replicate_succ, genNexts, e]
      simp only
      rw [h'']
      rfl
  obtain ⟨i0, h0⟩ := hsel 0 (by omega)
  obtain ⟨i', h', h''⟩ := later k 0 i0 (by omega) h0
  refine ⟨⟨{ runFrom keyOk (restart s) ρ k with idx := i' }, .frozen, k⟩, ?_, rfl, rfl, rfl⟩
  have e : genNext keyOk (fun _ => true) ρ 1 ⟨s, .fresh, 0⟩ =
      some (.frozen, ⟨{ runFrom keyOk (restart s) ρ 0 with idx := i0 }, .frozen, 0⟩) := by
    have := go 0 (by omega)
    rw [h0] at this
    exact this
  rw [List.replicate_succ, List.replicate_succ, genNexts, e]
  simp only
  rw [h'']
  rfl

/-- The hypotheses hold for five rounds of the example. -/
example : (runFrom (fun _ => true) (restart (State.init exCfgs)) exHooks 5).status = .running ∧
    (runFrom (fun _ => true) (restart (State.init exCfgs)) exHooks 6).status ≠ .done ∧
    hooksOf 0 (runFrom (fun _ => true) (restart (State.init exCfgs)) exHooks 5).log =
      [.setup, .next, .next] := by decide +kernel

/-- **C113.** `run()` ignores interactive mode. Whatever the pattern of interactive mode, it comes back if
the run without it comes to an end. Then all hook calls are the same; it comes back without an exception
exactly if that run does not fail. -/
theorem C113_run (keyOk : Key → Bool) (inter : Nat → Bool) (ρ : Nat → Ret α) (s : State α) :
    (∀ N fuel, (runFrom keyOk (restart s) ρ N).status ≠ .running → N + 2 ≤ fuel →
      ∃ y σ, runAll keyOk inter ρ fuel s = some (y, σ) ∧
        σ.state.tasks = (runFrom keyOk (restart s) ρ N).tasks ∧
        σ.state.log = (runFrom keyOk (restart s) ρ N).log ∧
        (y = .stopped ↔ (runFrom keyOk (restart s) ρ N).status = .done) ∧
        (y = .raised ↔ (runFrom keyOk (restart s) ρ N).status = .failed)) ∧
    ((∀ N, (runFrom keyOk (restart s) ρ N).status = .running) →
      ∀ fuel, runAll keyOk inter ρ fuel s = none) := by
  have main : ∀ fuel y σ, runAll keyOk inter ρ fuel s = some (y, σ) →
      ∃ M, (runFrom keyOk (restart s) ρ M).status ≠ .running ∧
        σ.state.tasks = (runFrom keyOk (restart s) ρ M).tasks ∧
        σ.state.log = (runFrom keyOk (restart s) ρ M).log ∧
        (y = .stopped ↔ (runFrom keyOk (restart s) ρ M).status = .done) ∧
        (y = .raised ↔ (runFrom keyOk (restart s) ρ M).status = .failed) := by
    intro fuel y σ h
    obtain ⟨hb, hy⟩ := runAll_spec h
    cases y with
    | frozen => exact absurd rfl hy
    | stopped =>
      obtain ⟨_, hr, hn, hs⟩ := hb.stopped rfl
      refine ⟨σ.round + 1, ?_⟩
      rw [runFrom, step_none hr hn, hs]
      simp
    | raised =>
      obtain ⟨_, hr, hs⟩ := hb.raised rfl
      refine ⟨σ.round, ?_⟩
      rw [hr, hs]
      simp
  constructor
  · intro N fuel hN hf
    have ht := runAll_total (inter := inter) hN hf
    cases h : runAll keyOk inter ρ fuel s with
    | none => rw [h] at ht; simp at ht
    | some p =>
      obtain ⟨y, σ⟩ := p
      obtain ⟨M, hM, hrest⟩ := main fuel y σ h
      have : runFrom keyOk (restart s) ρ M = runFrom keyOk (restart s) ρ N := by
        rcases Nat.le_total M N with hle | hle
        · exact (runFrom_stays keyOk (restart s) ρ M hM N hle).symm
        · exact runFrom_stays keyOk (restart s) ρ N hN M hle
      rw [this] at hrest
      exact ⟨y, σ, rfl, hrest⟩
  · intro hN fuel
    cases h : runAll keyOk inter ρ fuel s with
    | none => rfl
    | some p =>
      obtain ⟨y, σ⟩ := p
      obtain ⟨M, hM, _⟩ := main fuel y σ h
      exact absurd (hN M) hM

/-- The example comes to its end, also with interactive mode on in every second round. -/
example : (runFrom (fun _ => true) (restart (State.init exCfgs)) exHooks 13).status = .done ∧
    ∃ σ, runAll (fun _ => true) (fun n => n % 2 == 0) exHooks 15 (State.init exCfgs) =
      some (.stopped, σ) ∧ hooksOf 1 σ.state.log = [.setup, .next, .next, .finish] :=
  ⟨by decide +kernel, _, rfl, by decide +kernel⟩

/-! ## Leaving a runner -/

/-- The states of a manager of which runners are made and left. Any number of rounds are carried out (by
`C113_steps` this is what calls of `next` do); a new runner is made only before the first task has finished,
or after all tasks have, and not after an exception. -/
inductive Reach (keyOk : Key → Bool) (cfgs : List Cfg) : State α → Prop where
  | start : Reach keyOk cfgs (State.init cfgs)
  | round (s : State α) (r : Ret α) : Reach keyOk cfgs s → Reach keyOk cfgs (step keyOk s r)
  | anew (s : State α) : Reach keyOk cfgs s → s.status ≠ .failed →
      (live s.tasks 0 = true ∨ ∀ i, live s.tasks i = false) → Reach keyOk cfgs (restart s)

theorem Reach.inv {keyOk : Key → Bool} {cfgs : List Cfg} (hwf : WellFormed cfgs) {s : State α}
    (h : Reach keyOk cfgs s) : s.status ≠ .failed →
      GInv cfgs (Acc keyOk cfgs s.log) s.tasks s.head s.log := by
  induction h with
  | start => intro _; exact init_inv keyOk cfgs
  | round s r _ ih =>
    intro hok
    by_cases hr : s.status = .running
    · exact step_inv hwf hr (ih (by rw [hr]; simp)) _ hok
    · rw [step_stopped hr] at hok ⊢
      exact ih hok
  | anew s _ hf hl ih =>
    intro _
    have hg := ih hf
    refine ⟨hg.same, ⟨fun i hi => absurd hi (Nat.not_lt_zero i), fun ⟨i, hi⟩ => ?_⟩, hg.slots⟩
    rcases hl with h | h
    · exact h
    · have := h i
      rw [show live s.tasks i = true from hi] at this
      simp at this

theorem Reach.runFrom {keyOk : Key → Bool} {cfgs : List Cfg} {s : State α} (h : Reach keyOk cfgs s)
    (ρ : Nat → Ret α) (n : Nat) : Reach keyOk cfgs (runFrom keyOk s ρ n) := by
  induction n with
  | zero => exact h
  | succ n ih => exact .round _ _ ih

/-- **C113.** While new runners are only made before the first task has finished (or after all have), every
task gets its hooks in order and at most once over all runners together, and has received, together with what
is queued for it, exactly what was emitted under its keys, in order. Missing: runners made later
(`C113_restart_violated`). -/
theorem C113_resume_partial (keyOk : Key → Bool) (cfgs : List Cfg) (hwf : WellFormed cfgs) (s : State α)
    (h : Reach keyOk cfgs s) :
    (∀ i, Lifecycle (hooksOf i s.log)) ∧
    (s.status ≠ .failed → ∀ (i j : Nat) (c : Cfg) (t : TState α) (q : List (List (Option α))) (k : Key)
      (l : List (Option α)), s.tasks[i]? = some ⟨c, some t⟩ → t.stage.queues = some q →
      c.inKeys[j]? = some k → q[j]? = some l →
      received i j s.log ++ l = if keyOk k then emitted cfgs k s.log else []) := by
  constructor
  · induction h with
    | start => intro i; exact .nothing
    | round s r hs ih =>
      intro i
      by_cases hr : s.status = .running
      · have hg := hs.inv hwf (by rw [hr]; simp)
        rcases step_log (keyOk := keyOk) hr hg r with
          h | ⟨k, c, t, e, ret, t', ret', r', h1, h2, h3, h4⟩
        · rw [h]; exact ih i
        · rw [h2]
          by_cases hki : k = i
          · subst hki
            rw [hooksOf_ret (r' := ret')]
            exact hookInv_lifecycle ((hg.slots k _ h1).called h3).hooks
          · rw [hooksOf_other (e := ⟨k, e.1, e.2, ret⟩) hki]; exact ih i
      · rw [step_stopped hr]; exact ih i
    | anew s _ _ _ ih => exact ih
  · intro hok i j c t q k l ht hq hk hl
    have h := ((h.inv hwf hok).slots i _ ht).queues
    simp only [QueueInv, Option.map_some, Option.bind_some, hq] at h
    exact h.2 j k l hk hl

/-- A run with the invariant comes to an end if the tasks emit, and the sources idle, only finitely often. -/
theorem ends_of_inv {keyOk : Key → Bool} {cfgs : List Cfg} (hwf : WellFormed cfgs) {s : State α}
    {ρ : Nat → Ret α} {N : Nat} (hinv : ∀ n, (runFrom keyOk s ρ n).status ≠ .failed →
      GInv cfgs (Acc keyOk cfgs (runFrom keyOk s ρ n).log) (runFrom keyOk s ρ n).tasks
        (runFrom keyOk s ρ n).head (runFrom keyOk s ρ n).log)
    (hem : ∀ n i, emissions i (runFrom keyOk s ρ n).log ≤ N)
    (hidle : ∀ n i, idle i (runFrom keyOk s ρ n).log ≤ N) :
    ∃ n, (runFrom keyOk s ρ n).status ≠ .running := by
  have key : ∀ n, (Pipe.runFrom keyOk s ρ n).status = .running →
      Phi (nOut cfgs * nIn cfgs + 1) N cfgs.length (Pipe.runFrom keyOk s ρ n).tasks
        (Pipe.runFrom keyOk s ρ n).log + n ≤
      Phi (nOut cfgs * nIn cfgs + 1) N cfgs.length s.tasks s.log := by
    intro n
    induction n with
    | zero => intro _; exact Nat.le_refl _
    | succ n ih =>
      intro hn
      have hr := runFrom_running keyOk s ρ n hn
      have h1 := ih hr
      have hg := hinv n (by rw [hr]; simp)
      have h2 := step_measure hwf hr hg (ρ n) hn (nOut cfgs * nIn cfgs + 1) N (by omega)
        (fun i => ⟨hem (n + 1) i, hidle (n + 1) i⟩)
      simp only [Pipe.runFrom]
      omega
  refine ⟨Phi (nOut cfgs * nIn cfgs + 1) N cfgs.length s.tasks s.log + 1, fun hr => ?_⟩
  have := key _ hr
  omega

/-- At the normal end of a run no task is left. -/
theorem done_dead {keyOk : Key → Bool} {s : State α} {ρ : Nat → Ret α} (hs : s.status = .running)
    {i : Nat} : ∀ n, (runFrom keyOk s ρ n).status = .done →
      i < (runFrom keyOk s ρ n).tasks.length → live (runFrom keyOk s ρ n).tasks i = false := by
  intro n
  induction n with
  | zero => intro hd; rw [Pipe.runFrom, hs] at hd; simp at hd
  | succ n ih =>
    intro hd hi
    by_cases hr : (Pipe.runFrom keyOk s ρ n).status = .running
    · cases hn : nextTask (Pipe.runFrom keyOk s ρ n) with
      | some j =>
        rcases (step_some hr hn (ρ n) (keyOk := keyOk)).2 with a | a <;>
          (rw [Pipe.runFrom, a] at hd; simp at hd)
      | none =>
        rw [Pipe.runFrom, step_none hr hn] at hi ⊢
        exact nextTask_none_live hn hi
    · rw [Pipe.runFrom, step_stopped hr] at hd hi ⊢
      exact ih hd hi

/-- **C113.** Such a run comes to an end if the tasks emit, and the sources idle, only finitely often; and if
it ends normally every task has had `finish` exactly once. -/
theorem C113_resume_ends_partial (keyOk : Key → Bool) (cfgs : List Cfg) (hwf : WellFormed cfgs)
    (s : State α) (h : Reach keyOk cfgs s) (ρ : Nat → Ret α) (N : Nat)
    (hem : ∀ n i, emissions i (runFrom keyOk s ρ n).log ≤ N)
    (hidle : ∀ n i, idle i (runFrom keyOk s ρ n).log ≤ N) :
    ∃ n, (runFrom keyOk s ρ n).status ≠ .running ∧ ((runFrom keyOk s ρ n).status = .done →
      s.status = .running → ∀ i, i < cfgs.length → hooksOf i (runFrom keyOk s ρ n).log = [.finish] ∨
        ∃ m, hooksOf i (runFrom keyOk s ρ n).log = (.setup :: List.replicate m .next) ++ [.finish]) := by
  obtain ⟨n, hn⟩ := ends_of_inv hwf (fun n => (h.runFrom ρ n).inv hwf) hem hidle
  refine ⟨n, hn, fun hd hs i hi => ?_⟩
  have hg := (h.runFrom ρ n).inv hwf (by rw [hd]; simp)
  obtain ⟨st, hst⟩ := slot_exists hg (List.getElem?_eq_getElem hi)
  cases st with
  | some t =>
    have hl := done_dead (keyOk := keyOk) (ρ := ρ) hs n hd (getElem?_lt hst)
    rw [(live_iff _ _).2 ⟨_, t, hst⟩] at hl
    simp at hl
  | none => exact (hg.slots i _ hst).hooks

/-- Five rounds of the example, a new runner, and eight more rounds. -/
example : Reach (fun _ => true) exCfgs
      (restart (runFrom (fun _ => true) (State.init exCfgs) exHooks 5)) ∧
    (runFrom (fun _ => true) (restart (runFrom (fun _ => true) (State.init exCfgs) exHooks 5))
      (fun n => exHooks (n + 5)) 8).status = .done := by
  refine ⟨.anew _ (Reach.runFrom .start _ _) (by decide +kernel) (Or.inl (by decide +kernel)), ?_⟩
  decide +kernel

/-- The task waits for a requirement or an input. -/
def lacksInput : Stage α → Prop
  | .setup req _ => none ∈ req
  | .next q => [] ∈ q
  | _ => False

/-- **C113 is violated** if a runner is left after the first task has finished: if what is left waits for
input, which is how every run ends, a new runner and `run()` go round for ever without calling any hook,
whatever the pattern of interactive mode. -/
theorem C113_restart_violated (keyOk : Key → Bool) (s : State α) (h0 : live s.tasks 0 = false)
    (hl : ∃ i, live s.tasks i = true)
    (hw : ∀ (i : Nat) (c : Cfg) (t : TState α), s.tasks[i]? = some ⟨c, some t⟩ → lacksInput t.stage)
    (ρ : Nat → Ret α) :
    (∀ n, (runFrom keyOk (restart s) ρ n).status = .running ∧
      (runFrom keyOk (restart s) ρ n).log = s.log) ∧
    ∀ inter fuel, runAll keyOk inter ρ fuel s = none := by
  have hfix : ∀ r, step keyOk (restart s) r = restart s := by
    intro r
    obtain ⟨i, hi⟩ : ∃ i, nextTask (restart s) = some i := by
      cases hn : nextTask (restart s) with
      | some i => exact ⟨i, rfl⟩
      | none =>
        obtain ⟨i, hi⟩ := hl
        have hlt : i < (restart s).tasks.length := by
          obtain ⟨c, t, e⟩ := (live_iff _ _).1 hi
          exact getElem?_lt e
        have hf : live s.tasks i = false := nextTask_none_live (s := restart s) hn hlt
        rw [hf] at hi
        simp at hi
    have hli := nextTask_live hi
    obtain ⟨c, t, hct⟩ := (live_iff _ _).1 hli
    have hne : i ≠ 0 := by
      rintro rfl
      rw [show live s.tasks 0 = true from hli] at h0
      simp at h0
    have hm : pipelineNext c t r = .missing := by
      have := hw i c t hct
      unfold pipelineNext
      cases hg : t.stage with
      | setup req q =>
        rw [hg] at this
        simp only [lacksInput] at this
        have : req.all Option.isSome = false := by
          rw [List.all_eq_false]
          exact ⟨none, this, by simp⟩
        simp [this]
      | next q =>
        rw [hg] at this
        simp only [lacksInput] at this
        have : pop q = none := by
          clear hg
          induction q with
          | nil => simp at this
          | cons l ls ih =>
            cases l with
            | nil => rfl
            | cons x l =>
              rw [pop, ih (by simpa using this)]
        simp [this]
      | finish q => rw [hg] at this; exact this.elim
      | raised q => rw [hg] at this; exact this.elim
    unfold step
    rw [show (restart s).status = .running from rfl, hi]
    simp only
    rw [hct]
    simp only
    rw [hm, handle, if_neg (by exact hne)]
    rfl
  have hrun : ∀ n, runFrom keyOk (restart s) ρ n = restart s := by
    intro n
    induction n with
    | zero => rfl
    | succ n ih => rw [runFrom, ih, hfix]
  refine ⟨fun n => by rw [hrun n]; exact ⟨rfl, rfl⟩, fun inter => ?_⟩
  exact (C113_run keyOk inter ρ s).2 fun N => by rw [hrun N]; rfl

/-- The example after the first task has finished. -/
def exLeft : State Nat :=
  ⟨[⟨⟨[], [], ["a"], true, none, 0⟩, none⟩, ⟨⟨[], ["a"], [], false, none, 0⟩, some ⟨.next [[]], 0⟩⟩], 1, 1, .running,
    [⟨0, .setup, [], .none⟩, ⟨1, .setup, [], .none⟩, ⟨0, .next, [], .obj 7⟩, ⟨1, .next, [some 7], .none⟩,
      ⟨0, .next, [], .obj 8⟩, ⟨1, .next, [some 8], .none⟩, ⟨0, .next, [], .stop⟩, ⟨0, .finish, [], .none⟩]⟩

/-- **C113 is violated** by a pipeline of two tasks, a source and a consumer. Ten calls of `next` leave it
in such a state: the source has finished, the other task waits for its input. The runner that was left would
have come to its end in four more rounds; `run()` never comes back. -/
theorem C113_left_violated : genNexts (fun _ => true) (fun _ => true) exHooks (List.replicate 10 1)
      ⟨State.init exCfgs, .fresh, 0⟩ = some (List.replicate 10 .frozen, ⟨exLeft, .frozen, 9⟩) ∧
    (run (fun _ => true) exCfgs exHooks 13).status = .done ∧
    ∀ inter ρ fuel, runAll (fun _ => true) inter ρ fuel exLeft = none := by
  refine ⟨by decide +kernel, by decide +kernel, fun inter ρ fuel => ?_⟩
  refine (C113_restart_violated _ exLeft rfl ⟨1, rfl⟩ ?_ ρ).2 inter fuel
  intro i c t ht
  match i with
  | 0 => simp [exLeft] at ht
  | 1 =>
    simp only [exLeft, List.getElem?_cons_succ, List.getElem?_cons_zero, Option.some.injEq, Slot.mk.injEq] at ht
    rw [← ht.2]
    exact List.mem_singleton.2 rfl
  | i + 2 => simp [exLeft] at ht

end Verif.Pipe
