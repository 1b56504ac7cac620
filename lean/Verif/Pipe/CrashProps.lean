import Verif.Pipe.CrashLemmas

/-!
# C128: a pipeline can go on after an exception

`crash keyOk s r = some s'`: in the round from the state `s`, in which the hook does `r`, an exception comes out of
the runner; `s'` is the manager then. The last entry of its log is the call that failed; it has the return
value `.error` if the hook raised. `restart s'` is the start of a new runner, `runFrom keyOk (restart s') ρ n`
is the manager after `n` more rounds.
-/
namespace Verif.Pipe
variable {α : Type}

/-- **C128.** An exception comes out of a round exactly if the runner of C20 fails in it, and the calls that
were made are the same. -/
theorem C128_when (keyOk : Key → Bool) (s : State α) (r : Ret α) (hr : s.status = .running) :
    ((∃ s', crash keyOk s r = some s') ↔ (step keyOk s r).status = .failed) ∧
    ∀ s', crash keyOk s r = some s' → (step keyOk s r).log = s'.log := by
  unfold crash step
  rw [hr]
  simp only
  cases hn : nextTask s with
  | none => simp
  | some i =>
    simp only
    obtain ⟨c, t, hct⟩ := (live_iff _ _).1 (nextTask_live hn)
    rw [hct]
    simp only
    cases hp : pipelineNext c t r with
    | missing =>
      simp only [handle]
      split <;> simp [hr]
    | finished => simp [handle, hr]
    | failed e =>
      refine ⟨⟨fun _ => rfl, fun _ => ⟨_, rfl⟩⟩, fun s' h => ?_⟩
      obtain rfl := Option.some.inj h
      rfl
    | out t' e ret =>
      simp only [handle]
      cases hco : checkOutput c ret with
      | none =>
        refine ⟨⟨fun _ => rfl, fun _ => ⟨_, rfl⟩⟩, fun s' h => ?_⟩
        obtain rfl := Option.some.inj h
        rfl
      | some outs =>
        simp only [all_whole, whole]
        by_cases hq : (queuedAll keyOk outs (setTask s.tasks i c (some t'))).2 = true
        · simp [hq, hr]
        · simp only [hq]
          refine ⟨⟨fun _ => rfl, fun _ => ⟨_, rfl⟩⟩, fun s' h => ?_⟩
          obtain rfl := Option.some.inj h
          rfl

/-- **C128.** If `setup` or `finish` raises, every new run that comes to its end without another exception
calls it again, with the same arguments, before any other hook of that task. Missing: `next`
(`C128_lost_violated`), outputs of a wrong number (`C128_outputs_violated`) and outputs that a task refuses
(`C128_refused_violated`). -/
theorem C128_again_partial (keyOk : Key → Bool) (s s' : State α) (r : Ret α) (e : Event α)
    (h : crash keyOk s r = some s') (he : s'.log = s.log ++ [e]) (her : e.ret = .error)
    (hh : e.hook ≠ .next) (ρ : Nat → Ret α) (n : Nat)
    (hd : (runFrom keyOk (restart s') ρ n).status = .done) :
    ∃ pre ret post, (runFrom keyOk (restart s') ρ n).log =
        s'.log ++ pre ++ ⟨e.task, e.hook, e.args, ret⟩ :: post ∧ ∀ x ∈ pre, x.task ≠ e.task := by
  obtain ⟨c, t, -, hct, hp, hs'⟩ := crash_failed h he her
  rcases failed_cases hp with ⟨ha, hc⟩ | ⟨q, args, q', -, -, hw, -⟩
  · have hw : Waits e.task (e.hook, e.args) (restart s').tasks := by
      subst hs'
      refine ⟨c, { t with stage := t.stage.crashed }, setTask_self hct, ?_⟩
      simp only [hc]
      exact ha
    rcases waits_run (keyOk := keyOk) (s := restart s') rfl hw ρ n with h1 | ⟨_, _, _, h1 | ⟨h1, _⟩⟩
    · exact h1
    · rw [hd] at h1; simp at h1
    · rw [hd] at h1; simp at h1
  · simp only [Prod.mk.injEq] at hw
    exact absurd hw.1 hh

/-- The source raises in `setup`; the new run calls it again and comes to its end. -/
example : ∃ s', crash (fun _ => true) (State.init exCfgs : State Nat) .error = some s' ∧
    s'.log = [⟨0, .setup, [], .error⟩] ∧
    (runFrom (fun _ => true) (restart s') exHooks 13).status = .done ∧
    hooksOf 0 (runFrom (fun _ => true) (restart s') exHooks 13).log =
      [.setup, .setup, .next, .next, .next, .finish] :=
  ⟨_, rfl, by decide +kernel, by decide +kernel, by decide +kernel⟩

/-- **C128.** If `next` raises, the new run is the one that follows a call of `next` that returned `None`: round
by round the same tasks, the same calls, the same end. -/
theorem C128_as_none (keyOk : Key → Bool) (s s' : State α) (r : Ret α) (e : Event α)
    (hr : s.status = .running) (h : crash keyOk s r = some s') (he : s'.log = s.log ++ [e])
    (her : e.ret = .error) (hh : e.hook = .next) :
    (step keyOk s .none).log = s.log ++ [⟨e.task, e.hook, e.args, .none⟩] ∧
    ∀ ρ n, ∃ new : List (Event α),
      (runFrom keyOk (restart s') ρ n).log = s'.log ++ new ∧
      (runFrom keyOk (restart (step keyOk s .none)) ρ n).log = (step keyOk s .none).log ++ new ∧
      (runFrom keyOk (restart s') ρ n).tasks =
        (runFrom keyOk (restart (step keyOk s .none)) ρ n).tasks ∧
      (runFrom keyOk (restart s') ρ n).status =
        (runFrom keyOk (restart (step keyOk s .none)) ρ n).status := by
  obtain ⟨c, t, hn, hct, hp, hs'⟩ := crash_failed h he her
  rcases failed_cases hp with ⟨ha, -⟩ | ⟨q, args, q', hs, hpop, hw, -, hc⟩
  · rw [hh] at ha
    cases hg : t.stage with
    | setup req q =>
      rw [hg] at ha
      simp only [asks] at ha
      split at ha <;> simp at ha
    | next q => rw [hg] at ha; simp [asks] at ha
    | raised q => rw [hg] at ha; simp [asks] at ha
    | finish q => rw [hg] at ha; simp [asks] at ha
  · simp only [Prod.mk.injEq] at hw
    have hstep := step_next_none (keyOk := keyOk) hr hn hct hs hpop
    refine ⟨by rw [hstep, hw.1, hw.2], fun ρ n => ?_⟩
    obtain ⟨new, h1, h2⟩ := runFrom_log_free keyOk (restart (step keyOk s .none)) ρ n
    have hre : restart s' = { restart (step keyOk s .none) with log := s'.log } := by
      rw [hstep, hs', hc]
      rfl
    refine ⟨new, ?_, h1, ?_, ?_⟩ <;> rw [hre, h2]

/-- The consumer raises in `next` for the product 7. -/
example : ∃ s', crash (fun _ => true) (run (fun _ => true) exCfgs exHooks 3) .error = some s' ∧
    s'.log = (run (fun _ => true) exCfgs exHooks 3).log ++ [⟨1, .next, [some 7], .error⟩] :=
  ⟨_, rfl, by decide +kernel⟩

/-! ## The account of products -/

/-- The states of a manager that is run again after exceptions of its hooks. Any number of rounds are carried
out; a new runner is made, also after exceptions of hooks, only before the first task has finished or after
all have. -/
inductive Runs (keyOk : Key → Bool) (cfgs : List Cfg) : State α → Prop where
  | start : Runs keyOk cfgs (State.init cfgs)
  | round (s : State α) (r : Ret α) : Runs keyOk cfgs s → Runs keyOk cfgs (step keyOk s r)
  | anew (s : State α) : Runs keyOk cfgs s → s.status ≠ .failed →
      (live s.tasks 0 = true ∨ ∀ i, live s.tasks i = false) → Runs keyOk cfgs (restart s)
  | again (s s' : State α) (r : Ret α) (e : Event α) : Runs keyOk cfgs s → s.status = .running →
      crash keyOk s r = some s' → s'.log = s.log ++ [e] → e.ret = .error →
      live s'.tasks 0 = true → Runs keyOk cfgs (restart s')

/-- Without the calls of `setup` and `finish` that failed, such a state is one reached without them. -/
theorem Runs.calm {keyOk : Key → Bool} {cfgs : List Cfg} {s : State α} (h : Runs keyOk cfgs s) :
    ∃ s0, Goes keyOk cfgs s0 ∧ s = { s0 with log := s.log } ∧
      (s.status ≠ .failed → s.log.filter (fun e => !failedOther e) = s0.log) := by
  induction h with
  | start => exact ⟨_, .start, rfl, fun _ => rfl⟩
  | round s r _ ih =>
    obtain ⟨s0, hg, hs, hc⟩ := ih
    obtain ⟨new, h1, h2⟩ := step_log_free keyOk s0 r
    have h3 : step keyOk s r = { step keyOk s0 r with log := s.log ++ new } := by
      rw [← h2, ← hs]
    refine ⟨_, .round _ r hg, by rw [h3], fun hok => ?_⟩
    by_cases hr : s.status = .running
    · have hok0 : (step keyOk s0 r).status ≠ .failed := by rw [h3] at hok; exact hok
      have hnew := step_ok_log hok0 h1
      rw [h3, h1]
      simp only [List.filter_append]
      rw [hc (by rw [hr]; simp), List.filter_eq_self.2 fun e he => by simp [hnew e he]]
    · have hr0 : s0.status ≠ .running := by rw [hs] at hr; exact hr
      rw [step_stopped hr] at hok ⊢
      rw [step_stopped hr0]
      exact hc hok
  | anew s _ hf hl ih =>
    obtain ⟨s0, hg, hs, hc⟩ := ih
    refine ⟨restart s0, .anew s0 hg (by rw [hs] at hf; exact hf) (by rw [hs] at hl; exact hl), ?_, ?_⟩
    · rw [hs]; rfl
    · intro _; exact hc hf
  | again s s' r e _ hr h he her hl ih =>
    obtain ⟨s0, hg, hs, hc⟩ := ih
    have hr0 : s0.status = .running := by rw [hs] at hr; exact hr
    obtain ⟨c, t, hn, hct, hp, hs'⟩ := crash_failed h he her
    have hc := hc (by rw [hr]; simp)
    have hn0 : nextTask s0 = some e.task := by rw [hs] at hn; exact hn
    have hct0 : s0.tasks[e.task]? = some ⟨c, some t⟩ := by rw [hs] at hct; exact hct
    rcases failed_cases hp with ⟨ha, hcr⟩ | ⟨q, args, q', hst, hpop, hw, -, hcr⟩
    · have htasks : s'.tasks = s0.tasks := by
        rw [hs', hcr]
        simp only [setTask]
        rw [hs]
        obtain ⟨hlt, hget⟩ := List.getElem?_eq_some_iff.1 hct0
        have := List.set_getElem_self hlt
        rw [hget] at this
        exact this
      have hfo : failedOther e = true := by
        obtain ⟨et, eh, ea, er⟩ := e
        simp only at her ha ⊢
        subst her
        cases eh with
        | next =>
          cases hg : t.stage with
          | setup req q => rw [hg] at ha; simp only [asks] at ha; split at ha <;> simp at ha
          | next q => rw [hg] at ha; simp [asks] at ha
          | raised q => rw [hg] at ha; simp [asks] at ha
          | finish q => rw [hg] at ha; simp [asks] at ha
        | setup => rfl
        | finish => rfl
      refine ⟨restart s0, .anew s0 hg (by rw [hr0]; simp) (Or.inl (by rw [← htasks]; exact hl)), ?_, ?_⟩
      · simp only [restart, htasks]
      · intro _
        simp only [restart, he, List.filter_append, hc]
        simp [hfo]
    · simp only [Prod.mk.injEq] at hw
      have hcr0 : crash keyOk s0 r = some { s0 with
          idx := e.task, status := .failed, log := s0.log ++ [e],
          tasks := setTask s0.tasks e.task c (some { t with stage := t.stage.crashed }) } := by
        unfold crash
        rw [hn0]
        simp only
        rw [hct0]
        simp only
        rw [hp]
        simp only
        rw [← her]
      have htasks : s'.tasks = setTask s0.tasks e.task c (some { t with stage := t.stage.crashed }) := by
        rw [hs', hs]
      refine ⟨_, .again s0 _ r e hg hr0 hcr0 rfl her hw.1 (by rw [← htasks]; exact hl), ?_, ?_⟩
      · simp only [restart, htasks]
      · intro _
        have hfo : failedOther e = false := by
          unfold failedOther
          rw [hw.1]
        simp only [restart, he, List.filter_append, hc]
        simp [hfo]

/-- Did the hook raise? -/
def isError : Ret α → Bool
  | .error => true
  | _ => false

/-- The hooks called on a task, in order, without the calls of `setup` and `finish` that raised. -/
def keptHooks (i : Nat) (log : List (Event α)) : List Hook :=
  hooksOf i (log.filter fun e => !decide (e.hook ≠ .next ∧ isError e.ret))

theorem kept_eq (i : Nat) (log : List (Event α)) :
    keptHooks i log = hooksOf i (log.filter fun e => !failedOther e) := by
  unfold keptHooks
  congr 1
  apply List.filter_congr
  intro e _
  unfold failedOther
  cases e.hook <;> cases e.ret <;> simp [isError]

/-- **C128.** Over any number of runs that go on after exceptions of hooks: every task gets its hooks in
order, counting `setup` and `finish` only when they do not raise, and has received, counting the calls of
`next` that failed, together with what is queued for it exactly what was
emitted under its keys, in order. So nothing is lost but the products of the failed calls, and nothing comes
twice. Missing: those products (`C128_lost_violated`), and new runs when the first task has finished
(`C113_restart_violated`). -/
theorem C128_account_partial (keyOk : Key → Bool) (cfgs : List Cfg) (hwf : WellFormed cfgs) (s : State α)
    (h : Runs keyOk cfgs s) (hok : s.status ≠ .failed) :
    (∀ i, i < cfgs.length → Lifecycle (keptHooks i s.log)) ∧
    ∀ (i j : Nat) (c : Cfg) (t : TState α) (q : List (List (Option α))) (k : Key)
      (l : List (Option α)), s.tasks[i]? = some ⟨c, some t⟩ → t.stage.queues = some q →
      c.inKeys[j]? = some k → q[j]? = some l →
      received i j s.log ++ l = if keyOk k then emitted cfgs k s.log else [] := by
  obtain ⟨s0, hgo, hs, hc⟩ := h.calm
  have hc := hc hok
  have hok0 : s0.status ≠ .failed := by rw [hs] at hok; exact hok
  have hg := hgo.inv hwf hok0
  constructor
  · intro i hi
    obtain ⟨st, hst⟩ := slot_exists hg (List.getElem?_eq_getElem hi)
    rw [kept_eq, hc]
    exact hookInv_lifecycle (hg.slots i _ hst).hooks
  · intro i j c t q k l ht hq hk hl
    rw [hs] at ht
    have h := (hg.slots i _ ht).queues
    simp only [QueueInv, Option.map_some, Option.bind_some, hq] at h
    have := h.2 j k l hk hl
    rw [← hc, received_calm] at this
    rw [this]
    unfold Acc
    rw [emitted_calm]

theorem Runs.runFrom {keyOk : Key → Bool} {cfgs : List Cfg} {s : State α} (h : Runs keyOk cfgs s)
    (ρ : Nat → Ret α) (n : Nat) : Runs keyOk cfgs (runFrom keyOk s ρ n) := by
  induction n with
  | zero => exact h
  | succ n ih => exact .round _ _ ih

theorem Goes.runFrom {keyOk : Key → Bool} {cfgs : List Cfg} {s : State α} (h : Goes keyOk cfgs s)
    (ρ : Nat → Ret α) (n : Nat) : Goes keyOk cfgs (runFrom keyOk s ρ n) := by
  induction n with
  | zero => exact h
  | succ n ih => exact .round _ _ ih

/-- **C128.** Also the last of such runs comes to an end if the tasks emit, and the sources idle, only finitely
often. If it ends without an exception, every task has had `finish` exactly once without raising. -/
theorem C128_ends_partial (keyOk : Key → Bool) (cfgs : List Cfg) (hwf : WellFormed cfgs)
    (s : State α) (h : Runs keyOk cfgs s) (hs : s.status = .running) (ρ : Nat → Ret α) (N : Nat)
    (hem : ∀ n i, emissions i (runFrom keyOk s ρ n).log ≤ N)
    (hidle : ∀ n i, idle i (runFrom keyOk s ρ n).log ≤ N) :
    ∃ n, (runFrom keyOk s ρ n).status ≠ .running ∧ ((runFrom keyOk s ρ n).status = .done →
      ∀ i, i < cfgs.length → keptHooks i (runFrom keyOk s ρ n).log = [.finish] ∨
        ∃ m, keptHooks i (runFrom keyOk s ρ n).log = (.setup :: List.replicate m .next) ++ [.finish]) := by
  obtain ⟨s0, hgo, hs0, hc⟩ := h.calm
  have hc := hc (by rw [hs]; simp)
  have hrun : ∀ n, ∃ new : List (Event α), (Pipe.runFrom keyOk s0 ρ n).log = s0.log ++ new ∧
      Pipe.runFrom keyOk s ρ n = { Pipe.runFrom keyOk s0 ρ n with log := s.log ++ new } := by
    intro n
    obtain ⟨new, h1, h2⟩ := runFrom_log_free keyOk s0 ρ n
    exact ⟨new, h1, by rw [← h2, ← hs0]⟩
  have hsub : ∀ n, (Pipe.runFrom keyOk s0 ρ n).log.Sublist (Pipe.runFrom keyOk s ρ n).log := by
    intro n
    obtain ⟨new, h1, h2⟩ := hrun n
    rw [h1, h2, ← hc]
    exact List.filter_sublist.append (List.Sublist.refl new)
  obtain ⟨n, hn⟩ := ends_of_inv (keyOk := keyOk) (s := s0) (ρ := ρ) (N := N) hwf
    (fun n => (hgo.runFrom ρ n).inv hwf)
    (fun n i => Nat.le_trans ((hsub n).filter _).length_le (hem n i))
    (fun n i => Nat.le_trans ((hsub n).filter _).length_le (hidle n i))
  refine ⟨n, ?_, fun hd i hi => ?_⟩
  · obtain ⟨new, _, h2⟩ := hrun n
    rw [h2]
    exact hn
  · obtain ⟨s1, hgo1, hs1, hc1⟩ := (h.runFrom ρ n).calm
    have hc1 := hc1 (by rw [hd]; simp)
    have hd1 : s1.status = .done := by rw [hs1] at hd; exact hd
    have hg := hgo1.inv hwf (by rw [hd1]; simp)
    obtain ⟨st, hst⟩ := slot_exists hg (List.getElem?_eq_getElem hi)
    have hst' : (Pipe.runFrom keyOk s ρ n).tasks[i]? = some ⟨cfgs[i], st⟩ := by rw [hs1]; exact hst
    cases st with
    | some t =>
      have hl := done_dead (keyOk := keyOk) (ρ := ρ) hs n hd (getElem?_lt hst')
      rw [(live_iff _ _).2 ⟨_, t, hst'⟩] at hl
      simp at hl
    | none =>
      rw [kept_eq, hc1]
      exact (hg.slots i _ hst).hooks

/-- The manager after the exception of the consumer. -/
def exCrashed : State Nat := (crash (fun _ => true) (run (fun _ => true) exCfgs exHooks 3) .error).getD (State.init [])

/-- The state after the exception is one of these, with something left to do. -/
example : Runs (fun _ => true) exCfgs (restart exCrashed) ∧
    received 1 0 (restart exCrashed).log = [some 7] := by
  refine ⟨.again (run (fun _ => true) exCfgs exHooks 3) exCrashed .error ⟨1, .next, [some 7], .error⟩
    ?_ (by decide +kernel) (by decide +kernel) (by decide +kernel) rfl (by decide +kernel),
    by decide +kernel⟩
  exact .round _ _ (.round _ _ (.round _ _ .start))

/-- So is the one after the source has raised in `setup`; the call that failed does not count. -/
example : ∃ s', crash (fun _ => true) (State.init exCfgs : State Nat) .error = some s' ∧
    Runs (fun _ => true) exCfgs (restart s') ∧ hooksOf 0 (restart s').log = [.setup] ∧
    keptHooks 0 (restart s').log = [] :=
  ⟨_, rfl, .again (State.init exCfgs) _ .error ⟨0, .setup, [], .error⟩ .start rfl rfl rfl rfl
    (by decide +kernel), by decide +kernel, by decide +kernel⟩

/-- The hooks in the new run: the source emits 8 and stops. -/
def exLater : Nat → Ret Nat
  | 0 => .obj 8
  | 2 => .stop
  | _ => .none

/-- The new run of the example emits and idles only finitely often. -/
example : (∀ n i, emissions i (runFrom (fun _ => true) (restart exCrashed) exLater n).log ≤ 20) ∧
    ∀ n i, idle i (runFrom (fun _ => true) (restart exCrashed) exLater n).log ≤ 20 := by
  have hstop : (runFrom (fun _ => true) (restart exCrashed) exLater 9).status ≠ .running := by
    decide +kernel
  have hlen : ∀ n, (runFrom (fun _ => true) (restart exCrashed) exLater n).log.length ≤ 20 := by
    intro n
    by_cases hn : n ≤ 9
    · have : ∀ n, n ≤ 9 → (runFrom (fun _ => true) (restart exCrashed) exLater n).log.length ≤ 20 := by
        decide +kernel
      exact this n hn
    · rw [runFrom_stays _ _ _ 9 hstop n (by omega)]
      decide +kernel
  exact ⟨fun n i => Nat.le_trans (List.length_filter_le _ _) (hlen n),
    fun n i => Nat.le_trans (List.length_filter_le _ _) (hlen n)⟩

/-- **C128 is violated** for `next`: the consumer raises for the product 7, which the source has emitted.
The new run comes to its end without another exception, and the consumer is called with 8 only. -/
theorem C128_lost_violated :
    crash (fun _ => true) (run (fun _ => true) exCfgs exHooks 3) .error = some exCrashed ∧
    emitted exCfgs "a" exCrashed.log = [some 7] ∧
    exCrashed.log.getLast? = some ⟨1, .next, [some 7], .error⟩ ∧
    (runFrom (fun _ => true) (restart exCrashed) exLater 9).status = .done ∧
    received 1 0 ((runFrom (fun _ => true) (restart exCrashed) exLater 9).log.drop exCrashed.log.length) =
      [some 8] := by
  decide +kernel

/-- A source with two outputs, and a task that takes the first of them. -/
def exPair : List Cfg := [⟨[], [], ["a", "b"], false, none, 0⟩, ⟨[], ["a"], [], false, none, 0⟩]

/-- The manager after `setup` of the source has returned one product instead of two. -/
def exShort : State Nat := (crash (fun _ => true) (State.init exPair) (.tup [some 7])).getD (State.init [])

/-- **C128 is violated** if a hook returns a wrong number of outputs: the exception comes after the task has
gone on. `setup` of the source is not called again in the new run, and its output is lost. -/
theorem C128_outputs_violated :
    crash (fun _ => true) (State.init exPair) (.tup [some 7]) = some exShort ∧
    exShort.log = [⟨0, .setup, [], .tup [some 7]⟩] ∧
    (runFrom (fun _ => true) (restart exShort) (fun n => if n = 1 then .stop else .none) 12).status = .done ∧
    hooksOf 0 (runFrom (fun _ => true) (restart exShort)
      (fun n => if n = 1 then .stop else .none) 12).log = [.setup, .next, .finish] ∧
    received 1 0 (runFrom (fun _ => true) (restart exShort)
      (fun n => if n = 1 then .stop else .none) 12).log = [] := by
  decide +kernel

/-- **C128.** If a task refuses a product, the tasks before it in the list have got it, those after it are left
as they were, and the queues of the task itself are unchanged. -/
theorem C128_half (keyOk : Key → Bool) (s s' : State α) (r ret : Ret α) (i : Nat) (c : Cfg) (t t' : TState α)
    (w : Hook × List (Option α)) (k : Key) (p : Option α)
    (h : crash keyOk s r = some s') (hn : nextTask s = some i) (ht : s.tasks[i]? = some ⟨c, some t⟩)
    (hp : pipelineNext c t r = .out t' w ret) (ho : checkOutput c ret = some [(k, p)]) :
    ∃ (n : Nat) (x : Slot α), (setTask s.tasks i c (some t'))[n]? = some x ∧ x.queue k p = none ∧
      (∃ y, s'.tasks[n]? = some y ∧
        y.st.map (fun t => t.stage.queues) = x.st.map fun t => t.stage.queues) ∧
      (∀ j, j < n → (setTask s.tasks i c (some t'))[j]?.bind (Slot.queue k p) = s'.tasks[j]?) ∧
      ∀ j, n < j → s'.tasks[j]? = (setTask s.tasks i c (some t'))[j]? := by
  unfold crash at h
  rw [hn] at h
  simp only at h
  rw [ht] at h
  simp only at h
  rw [hp] at h
  simp only at h
  rw [ho] at h
  simp only at h
  split at h
  · simp at h
  · rename_i hq
    obtain rfl := Option.some.inj h
    have hk : keyOk k = true := by
      by_cases hk : keyOk k = true
      · exact hk
      · simp [queuedAll, hk] at hq
    have hq' : (queuedTasks k p (setTask s.tasks i c (some t'))).2 = false := by
      by_cases h2 : (queuedTasks k p (setTask s.tasks i c (some t'))).2 = true
      · simp [queuedAll, hk, h2] at hq
      · simpa using h2
    have he : (queuedAll keyOk [(k, p)] (setTask s.tasks i c (some t'))).1 =
        (queuedTasks k p (setTask s.tasks i c (some t'))).1 := by
      simp [queuedAll, hk, hq']
    simp only [he]
    exact queued_half _ hq'

/-- A source, a task that requires its product, and one that takes it as input. -/
def exTwice : List Cfg := [⟨[], [], ["a"], true, none, 0⟩, ⟨["a"], [], [], false, none, 0⟩,
  ⟨[], ["a"], [], false, none, 0⟩]

/-- The source emits 7, then 8. -/
def exEmit : Nat → Ret Nat
  | 2 => .obj 7
  | _ => .none

/-- The manager after the second product has been refused, as it is required only once. -/
def exRefused : State Nat := (crash (fun _ => true) (run (fun _ => true) exTwice exEmit 5) (.obj 8)).getD
  (State.init [])

/-- The task that refuses is the second; the first, the source itself, has no input. -/
example : (run (fun _ => true) exTwice exEmit 5).tasks[1]?.bind (Slot.queue "a" (some 8)) = none ∧
    nextTask (run (fun _ => true) exTwice exEmit 5) = some 0 := by decide +kernel

/-- The hooks in the new run: the first two tasks stop. -/
def exQuit : Nat → Ret Nat
  | 0 => .stop
  | 3 => .stop
  | _ => .none

/-- **C128 is violated** if a task refuses a product: the tasks after it in the list never get it, also not in
the new run, and no exception is raised there. -/
theorem C128_refused_violated :
    crash (fun _ => true) (run (fun _ => true) exTwice exEmit 5) (.obj 8) = some exRefused ∧
    exRefused.log.getLast? = some ⟨0, .next, [], .obj 8⟩ ∧
    (runFrom (fun _ => true) (restart exRefused) exQuit 14).status = .done ∧
    emitted exTwice "a" (runFrom (fun _ => true) (restart exRefused)
      exQuit 14).log = [some 7, some 8] ∧
    received 2 0 (runFrom (fun _ => true) (restart exRefused)
      exQuit 14).log = [some 7] := by
  decide +kernel

end Verif.Pipe
