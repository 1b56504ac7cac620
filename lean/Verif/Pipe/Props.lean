import Verif.Pipe.Log

/-!
# C20 - C24: the pipeline manager

A run is `run keyOk cfgs ρ n`: the state after `n` rounds of the manager on the tasks `cfgs`, where the
stream `ρ` decides what each hook call does and `keyOk` is the pattern for product keys. All theorems
hold for every stream. `WellFormed` is what setting up the tasks guarantees (`C25_setup_sound`).
-/
namespace Verif.Pipe
variable {α : Type}

/-! ## C20 -/

/-- **C20.** At every point of every run, also one that ends in an error, the hooks called on a task
are a prefix of `setup`, any number of `next`, one `finish`, where `setup` and `next` may be skipped
together. -/
theorem C20_lifecycle (keyOk : Key → Bool) (cfgs : List Cfg) (hwf : WellFormed cfgs) (ρ : Nat → Ret α)
    (n i : Nat) : Lifecycle (hooksOf i (run keyOk cfgs ρ n).log) := by
  induction n with
  | zero => exact .nothing
  | succ n ih =>
    simp only [run]
    by_cases hr : (run keyOk cfgs ρ n).status = .running
    · have hg := run_inv keyOk hwf ρ n (by rw [hr]; simp)
      rcases step_log (keyOk := keyOk) hr hg (ρ n) with
        h | ⟨k, c, t, e, ret, t', ret', r', h1, h2, h3, h4⟩
      · rw [h]; exact ih
      · rw [h2]
        by_cases hki : k = i
        · subst hki
          rw [hooksOf_ret (r' := ret')]
          exact hookInv_lifecycle ((hg.slots k _ h1).called h3).hooks
        · rw [hooksOf_other (e := ⟨k, e.1, e.2, ret⟩) hki]; exact ih
    · rw [step_stopped hr]; exact ih

/-- **C20.** In a run that ends normally every task has had `finish` exactly once, as its last hook,
and nothing happens afterwards. -/
theorem C20_finished_once (keyOk : Key → Bool) (cfgs : List Cfg) (hwf : WellFormed cfgs)
    (ρ : Nat → Ret α) (n : Nat) (hdone : (run keyOk cfgs ρ n).status = .done) :
    (∀ i, i < cfgs.length → hooksOf i (run keyOk cfgs ρ n).log = [.finish] ∨
      ∃ m, hooksOf i (run keyOk cfgs ρ n).log = (.setup :: List.replicate m .next) ++ [.finish]) ∧
    ∀ m, n ≤ m → run keyOk cfgs ρ m = run keyOk cfgs ρ n := by
  have hg := run_inv keyOk hwf ρ n (by rw [hdone]; simp)
  refine ⟨fun i hi => ?_, run_stays keyOk cfgs ρ n (by rw [hdone]; simp)⟩
  obtain ⟨st, hs⟩ := slot_exists hg (List.getElem?_eq_getElem hi)
  have hl := done_not_live keyOk hwf ρ n hdone i
  cases st with
  | some t =>
    rw [(live_iff _ _).2 ⟨_, t, hs⟩] at hl
    simp at hl
  | none => exact (hg.slots i _ hs).hooks

/-- Two tasks for the examples: a source and a task that consumes its product. -/
def exCfgs : List Cfg := [⟨[], [], ["a"], true, none, 0⟩, ⟨[], ["a"], [], false, none, 0⟩]

/-- The source emits 7 and 8 and stops; the rest returns `None`. -/
def exHooks : Nat → Ret Nat
  | 2 => .obj 7
  | 4 => .obj 8
  | 6 => .stop
  | _ => .none

example : WellFormed exCfgs := by decide
example : (run (fun _ => true) exCfgs exHooks 13).status = .done ∧
    hooksOf 0 (run (fun _ => true) exCfgs exHooks 13).log = [.setup, .next, .next, .next, .finish] ∧
    hooksOf 1 (run (fun _ => true) exCfgs exHooks 13).log = [.setup, .next, .next, .finish] := by
  decide +kernel

/-! ## C21 -/

/-- **C21.** As long as a task accepts input, what it has received on an input followed by what is
queued for it is exactly what has been emitted under the key of that input, in order. (A key that does
not match the key pattern is not delivered at all.) -/
theorem C21_exactly_once (keyOk : Key → Bool) (cfgs : List Cfg) (hwf : WellFormed cfgs)
    (ρ : Nat → Ret α) (n : Nat) (hok : (run keyOk cfgs ρ n).status ≠ .failed) (i j : Nat) (c : Cfg)
    (t : TState α) (q : List (List (Option α))) (k : Key) (l : List (Option α))
    (ht : (run keyOk cfgs ρ n).tasks[i]? = some ⟨c, some t⟩) (hq : t.stage.queues = some q)
    (hk : c.inKeys[j]? = some k) (hl : q[j]? = some l) :
    received i j (run keyOk cfgs ρ n).log ++ l =
      if keyOk k then emitted cfgs k (run keyOk cfgs ρ n).log else [] := by
  have hg := run_inv keyOk hwf ρ n hok
  have h := (hg.slots i _ ht).queues
  simp only [QueueInv, Option.map_some, Option.bind_some, hq] at h
  exact h.2 j k l hk hl

theorem acc_prefix (keyOk : Key → Bool) (cfgs : List Cfg) (log : List (Event α)) (e : Event α)
    (k : Key) : Acc keyOk cfgs log k <+: Acc keyOk cfgs (log ++ [e]) k := by
  unfold Acc
  split
  · unfold emitted
    rw [List.flatMap_append]
    exact List.prefix_append _ _
  · exact List.prefix_rfl

/-- **C21.** At every point of every run, also one that ends in an error and after the task has stopped
accepting input, what a task has received on an input is a prefix of what has been emitted under its
key: nothing is duplicated, reordered or invented. -/
theorem C21_in_order (keyOk : Key → Bool) (cfgs : List Cfg) (hwf : WellFormed cfgs) (ρ : Nat → Ret α)
    (n i j : Nat) (c : Cfg) (k : Key) (hc : cfgs[i]? = some c) (hk : c.inKeys[j]? = some k) :
    received i j (run keyOk cfgs ρ n).log <+: emitted cfgs k (run keyOk cfgs ρ n).log := by
  have hacc : ∀ log : List (Event α), Acc keyOk cfgs log k <+: emitted cfgs k log := by
    intro log
    unfold Acc
    split
    · exact List.prefix_rfl
    · exact List.nil_prefix
  refine List.IsPrefix.trans ?_ (hacc _)
  have hpre : ∀ (A : Key → List (Option α)) (log : List (Event α)) (g : Option (Stage α)),
      QueueInv A c i log g → (∀ q, g.bind Stage.queues = some q → ∃ l, q[j]? = some l) →
      received i j log <+: A k := by
    intro A log g h hq
    unfold QueueInv at h
    split at h
    · rename_i q hgq
      obtain ⟨l, hl⟩ := hq q hgq
      rw [← h.2 j k l hk hl]
      exact List.prefix_append _ _
    · exact h j k hk
  have hqs : ∀ (A : Key → List (Option α)) (log : List (Event α)) (g : Option (Stage α)),
      QueueInv A c i log g → ∀ q, g.bind Stage.queues = some q → ∃ l, q[j]? = some l := by
    intro A log g h q hq
    unfold QueueInv at h
    rw [hq] at h
    have hj : j < q.length := by rw [h.1]; exact getElem?_lt hk
    exact ⟨_, List.getElem?_eq_getElem hj⟩
  induction n with
  | zero => simp [run, State.init, received]
  | succ n ih =>
    simp only [run]
    by_cases hr : (run keyOk cfgs ρ n).status = .running
    · have hg := run_inv keyOk hwf ρ n (by rw [hr]; simp)
      rcases step_log (keyOk := keyOk) hr hg (ρ n) with
        h | ⟨m, d, t, e, ret, t', ret', r', h1, h2, h3, h4⟩
      · rw [h]; exact ih
      · rw [h2]
        refine List.IsPrefix.trans ?_ (acc_prefix keyOk cfgs _ _ k)
        by_cases hmi : m = i
        · subst hmi
          obtain ⟨st, hs⟩ := slot_exists hg hc
          rw [hs] at h1
          simp only [Option.some.injEq, Slot.mk.injEq] at h1
          obtain ⟨rfl, rfl⟩ := h1
          rw [received_ret (r' := ret')]
          have hcq := ((hg.slots m _ hs).called h3).queues
          exact hpre _ _ _ hcq (hqs _ _ _ hcq)
        · rw [received_other (e := ⟨m, e.1, e.2, ret⟩) (Or.inl hmi)]; exact ih
    · rw [step_stopped hr]; exact ih

example : received 1 0 (run (fun _ => true) exCfgs exHooks 13).log = [some 7, some 8] ∧
    emitted exCfgs "a" (run (fun _ => true) exCfgs exHooks 13).log = [some 7, some 8] ∧
    emitted exCfgs "a" (run (fun _ => true) exCfgs exHooks 3).log = [some 7] ∧
    received 1 0 (run (fun _ => true) exCfgs exHooks 3).log = [] := by decide +kernel

/-- A single key given without a list takes a returned tuple apart: only the first item is delivered,
the others vanish without an error. -/
theorem C21_tuple_dropped (k : Key) (x : Option α) (l : List (Option α)) (limit : Option Int)
    (base : Int) : checkOutput (⟨[], [], [k], true, limit, base⟩ : Cfg) (.tup (x :: l)) =
      some [(k, x)] := by
  simp [checkOutput]

/-- **C21** what a task returns goes to its keys by position: of a tuple or list with as many items as there are keys (two or more), each item is emitted under the key
at its place; with any other number of items the run is stopped by an exception, and nothing is emitted. -/
theorem C21_by_position (c : Cfg) (h : 2 ≤ c.outKeys.length) (r : Ret α) (l : List (Option α)) (hr : r = .tup l ∨ ∃ w, r = .lst w l) :
    (l.length = c.outKeys.length → ∃ ps, checkOutput c r = some ps ∧ ps.map Prod.fst = c.outKeys ∧ ps.map Prod.snd = l) ∧
    (l.length ≠ c.outKeys.length → checkOutput c r = none) := by
  match hk : c.outKeys, h with
  | k :: k' :: ks, _ =>
    rcases hr with rfl | ⟨w, rfl⟩
    all_goals
      simp only [checkOutput, hk]
      refine ⟨fun hl => ⟨_, if_pos hl.symm, List.map_fst_zip (by omega), List.map_snd_zip (by omega)⟩, fun hl => if_neg (Ne.symm hl)⟩

example : checkOutput (⟨[], [], ["a", "b"], false, none, 0⟩ : Cfg) (.lst 0 [some 7, some 8]) = some [("a", some 7), ("b", some 8)] ∧
    checkOutput (⟨[], [], ["a", "b"], false, none, 0⟩ : Cfg) (.lst 0 [some 7]) = none := by decide +kernel

/-- The queues of a task that still has them. -/
def Stage.kept : Stage α → Option (List (List (Option α)))
  | .setup _ q => some q
  | .next q => some q
  | .finish q => q
  | .raised q => q

/-- **C21** a task that has been set up takes every product that it does not require, as long as it has its queues: the product is put at the end of each queue with its
key, and the other queues stay. A product that it requires comes too late and stops the run. -/
theorem C21_taken (c : Cfg) (key : Key) (p : Option α) (s : Stage α) (q : List (List (Option α))) (hq : s.kept = some q) (hl : q.length = c.inKeys.length)
    (hs : ∀ req q', s ≠ .setup req q') :
    (key ∈ c.reqKeys → s.queue c key p = none) ∧
    (key ∉ c.reqKeys → ∃ s' q', s.queue c key p = some s' ∧ s'.kept = some q' ∧ q'.length = q.length ∧
      ∀ (i : Nat) k x, c.inKeys[i]? = some k → q[i]? = some x → q'[i]? = some (if k = key then x ++ [p] else x)) := by
  have hp : ∀ (ks : List Key) (q : List (List (Option α))), q.length = ks.length → (push key p ks q).length = q.length ∧
      ∀ (i : Nat) k x, ks[i]? = some k → q[i]? = some x → (push key p ks q)[i]? = some (if k = key then x ++ [p] else x) := by
    intro ks
    induction ks with
    | nil => intro q h; cases q <;> simp_all [push]
    | cons k ks ih =>
      intro q h
      cases q with
      | nil => simp at h
      | cons y q =>
        obtain ⟨h1, h2⟩ := ih q (by simpa using h)
        refine ⟨by simp [push, h1], fun i k' x hi hx => ?_⟩
        cases i with
        | zero =>
          simp only [List.getElem?_cons_zero, Option.some.injEq] at hi hx
          subst hi hx
          simp [push]
        | succ i =>
          simp only [List.getElem?_cons_succ] at hi hx
          simpa [push] using h2 i k' x hi hx
  obtain ⟨h1, h2⟩ := hp c.inKeys q hl
  cases s with
  | setup req q' => exact absurd rfl (hs req q')
  | next q0 =>
    simp only [Stage.kept, Option.some.injEq] at hq
    subst hq
    exact ⟨fun h => by simp [Stage.queue, h], fun h => ⟨.next _, _, by simp [Stage.queue, h], rfl, h1, h2⟩⟩
  | finish q0 =>
    simp only [Stage.kept] at hq
    subst hq
    exact ⟨fun h => by simp [Stage.queue, h], fun h => ⟨.finish _, _, by simp [Stage.queue, h], rfl, h1, h2⟩⟩
  | raised q0 =>
    simp only [Stage.kept] at hq
    subst hq
    exact ⟨fun h => by simp [Stage.queue, h], fun h => ⟨.raised _, _, by simp [Stage.queue, h], rfl, h1, h2⟩⟩

example : (Stage.finish (some [[some 1], []]) : Stage Nat).queue ⟨["r"], ["a", "b"], [], false, none, 0⟩ "b" (some 5) = some (.finish (some [[some 1], [some 5]])) := by
  decide +kernel

/-! ## C22 -/

theorem phi_init (W N : Nat) (cfgs : List Cfg) :
    Phi W N cfgs.length (State.init cfgs : State α).tasks ([] : List (Event α)) ≤
      cfgs.length * (W * (N + 4) + N) := by
  unfold Phi
  have hb : ∀ j, mu W N (State.init cfgs : State α).tasks ([] : List (Event α)) j ≤
      W * (N + 4) + N := by
    intro j
    unfold mu
    have h1 : load W (((State.init cfgs : State α).tasks[j]?).bind Slot.st) ≤ 4 * W := by
      cases hj : (State.init cfgs : State α).tasks[j]? with
      | none => simp [load]
      | some s =>
        simp only [State.init, List.getElem?_map] at hj
        obtain ⟨c, _, rfl⟩ := Option.map_eq_some_iff.1 hj
        simp only [Option.bind_some, load, TState.init, Stage.load, Stage.kind, Stage.queues, qtot,
          List.map_replicate, List.length_nil]
        have : (List.replicate c.inKeys.length 0).sum = 0 := by
          rw [List.sum_replicate_nat, Nat.mul_zero]
        omega
    have e1 : W * (N + 4) = W * N + 4 * W := by rw [Nat.mul_add, Nat.mul_comm W 4]
    simp only [emissions, idle, List.filter_nil, List.length_nil, Nat.sub_zero]
    omega
  have : ∀ l : List Nat, (l.map (mu W N (State.init cfgs : State α).tasks
      ([] : List (Event α)))).sum ≤ l.length * (W * (N + 4) + N) := by
    intro l
    induction l with
    | nil => simp
    | cons x l ih =>
      simp only [List.map_cons, List.sum_cons, List.length_cons, Nat.succ_mul]
      have := hb x
      omega
  have h := this (List.range cfgs.length)
  rwa [List.length_range] at h

/-- **C22.** If every task returns something from `next` only finitely often, and every task without
inputs returns `None` from `next` only finitely often (that is, it stops), the run comes to an end,
within a number of rounds that depends only on the wiring and on these numbers. In particular the
manager never goes round without making progress. -/
theorem C22_terminates (keyOk : Key → Bool) (cfgs : List Cfg) (hwf : WellFormed cfgs)
    (ρ : Nat → Ret α) (N : Nat)
    (hem : ∀ n i, emissions i (run keyOk cfgs ρ n).log ≤ N)
    (hidle : ∀ n i, idle i (run keyOk cfgs ρ n).log ≤ N) :
    ∃ n, n ≤ cfgs.length * ((nOut cfgs * nIn cfgs + 1) * (N + 4) + N) + 1 ∧
      (run keyOk cfgs ρ n).status ≠ .running := by
  have key : ∀ n, (run keyOk cfgs ρ n).status = .running →
      Phi (nOut cfgs * nIn cfgs + 1) N cfgs.length (run keyOk cfgs ρ n).tasks
        (run keyOk cfgs ρ n).log + n ≤
      cfgs.length * ((nOut cfgs * nIn cfgs + 1) * (N + 4) + N) := by
    intro n
    induction n with
    | zero =>
      intro _
      exact phi_init _ _ _
    | succ n ih =>
      intro h
      have hr := run_running keyOk cfgs ρ n h
      have h1 := ih hr
      have hg := run_inv keyOk hwf ρ n (by rw [hr]; simp)
      have h2 := step_measure hwf hr hg (ρ n) h (nOut cfgs * nIn cfgs + 1) N (by omega)
        (fun i => ⟨hem (n + 1) i, hidle (n + 1) i⟩)
      simp only [run]
      omega
  refine ⟨_, Nat.le_refl _, fun h => ?_⟩
  have := key _ h
  omega

/-- The hypotheses of `C22_terminates` hold for the example with `N = 2` up to its end (round 13),
after which nothing changes. -/
example : (∀ n i, emissions i (run (fun _ => true) exCfgs exHooks n).log ≤ 2) ∧
    ∀ n i, idle i (run (fun _ => true) exCfgs exHooks n).log ≤ 2 := by
  have hstop : (run (fun _ => true) exCfgs exHooks 13).status ≠ .running := by decide +kernel
  have key : ∀ n, n ≤ 13 → ∀ i, i < 2 → emissions i (run (fun _ => true) exCfgs exHooks n).log ≤ 2 ∧
      idle i (run (fun _ => true) exCfgs exHooks n).log ≤ 2 := by decide +kernel
  have zero : ∀ n i, 2 ≤ i → ∀ p : Event Nat → Bool, ((run (fun _ => true) exCfgs exHooks n).log.filter
      fun e => decide (e.task = i ∧ e.hook = .next) && p e).length ≤ 2 := by
    intro n i hi p
    have hnil : (run (fun _ => true) exCfgs exHooks n).log.filter
        (fun e => decide (e.task = i ∧ e.hook = .next) && p e) = [] := by
      rw [List.filter_eq_nil_iff]
      intro e he
      have : e.task < 2 := hooksOf_outside (fun _ => true) (cfgs := exCfgs) (by decide) exHooks n e he
      have hne : e.task ≠ i := by omega
      simp [hne]
    rw [hnil]; simp
  have small : ∀ n i, i < 2 → emissions i (run (fun _ => true) exCfgs exHooks n).log ≤ 2 ∧
      idle i (run (fun _ => true) exCfgs exHooks n).log ≤ 2 := by
    intro n i hi
    by_cases hn : n ≤ 13
    · exact key n hn i hi
    · rw [run_stays _ _ _ 13 hstop n (by omega)]
      exact key 13 (by omega) i hi
  constructor
  · intro n i
    by_cases hi : i < 2
    · exact (small n i hi).1
    · exact zero n i (by omega) _
  · intro n i
    by_cases hi : i < 2
    · exact (small n i hi).2
    · exact zero n i (by omega) _

/-- The condition on tasks without inputs is needed: a source that returns `None` for ever, without
emitting anything, keeps the manager going for ever. -/
theorem C22_idle_source_runs_forever (n : Nat) :
    (run (fun _ => true) [⟨[], [], ["a"], true, none, 0⟩] (fun _ => (.none : Ret Nat)) n).status =
      .running := by
  have h1 : ∀ n, ∃ log, run (fun _ => true) [⟨[], [], ["a"], true, none, 0⟩]
      (fun _ => (.none : Ret Nat)) (n + 1) =
      ⟨[⟨⟨[], [], ["a"], true, none, 0⟩, some ⟨.next [], 0⟩⟩], 0, 0, .running, log⟩ := by
    intro n
    induction n with
    | zero => exact ⟨_, rfl⟩
    | succ n ih =>
      obtain ⟨log, h⟩ := ih
      rw [run, h]
      exact ⟨_, rfl⟩
  cases n with
  | zero => rfl
  | succ n =>
    obtain ⟨log, h⟩ := h1 n
    rw [h]

/-! ## C23 -/

/-- **C23.** A task with inputs that was set up, that neither asked to stop nor reached its limit, and
whose producers are all listed before it: when the run ends normally, at least one of its inputs has
been used up completely. -/
theorem C23_some_input_used_up (keyOk : Key → Bool) (cfgs : List Cfg) (hwf : WellFormed cfgs)
    (ρ : Nat → Ret α) (n : Nat) (hdone : (run keyOk cfgs ρ n).status = .done) (i : Nat) (c : Cfg)
    (hc : cfgs[i]? = some c) (hset : Hook.setup ∈ hooksOf i (run keyOk cfgs ρ n).log)
    (hstop : ¬ askedToStop i (run keyOk cfgs ρ n).log)
    (hlim : ¬ hitLimit c i (run keyOk cfgs ρ n).log)
    (htop : ∀ k ∈ c.inKeys, ∀ (m : Nat) (d : Cfg), cfgs[m]? = some d → k ∈ d.outKeys → m < i) :
    ∃ (j : Nat) (k : Key), c.inKeys[j]? = some k ∧
      received i j (run keyOk cfgs ρ n).log =
        if keyOk k then emitted cfgs k (run keyOk cfgs ρ n).log else [] := by
  have hg := run_inv keyOk hwf ρ n (by rw [hdone]; simp)
  obtain ⟨st, hs⟩ := slot_exists hg hc
  have hl := done_not_live keyOk hwf ρ n hdone i
  cases st with
  | some t =>
    rw [(live_iff _ _).2 ⟨_, t, hs⟩] at hl
    simp at hl
  | none =>
    rcases (hg.slots i _ hs).why trivial hset with w | w | ⟨-, j, k, w2, w3⟩
    · exact absurd w hstop
    · exact absurd w hlim
    · exact ⟨j, k, w2, w3 (htop k (List.mem_of_getElem? w2))⟩

/-- **C23.** A task with a single input that was set up, that neither asked to stop nor reached its
limit, and whose producers are listed before it has, when the run ends normally, been called with every
product emitted under its key, in order. -/
theorem C23_nothing_lost (keyOk : Key → Bool) (cfgs : List Cfg) (hwf : WellFormed cfgs)
    (ρ : Nat → Ret α) (n : Nat) (hdone : (run keyOk cfgs ρ n).status = .done) (i : Nat) (c : Cfg)
    (k : Key) (hc : cfgs[i]? = some c) (hk : c.inKeys = [k]) (hko : keyOk k = true)
    (hset : Hook.setup ∈ hooksOf i (run keyOk cfgs ρ n).log)
    (hstop : ¬ askedToStop i (run keyOk cfgs ρ n).log)
    (hlim : ¬ hitLimit c i (run keyOk cfgs ρ n).log)
    (htop : ∀ (m : Nat) (d : Cfg), cfgs[m]? = some d → k ∈ d.outKeys → m < i) :
    received i 0 (run keyOk cfgs ρ n).log = emitted cfgs k (run keyOk cfgs ρ n).log := by
  obtain ⟨j, k', h1, h2⟩ := C23_some_input_used_up keyOk cfgs hwf ρ n hdone i c hc hset hstop hlim
    (by rw [hk]; simpa using htop)
  rw [hk] at h1
  have hj : j = 0 := by
    have := getElem?_lt h1
    simpa using this
  subst hj
  simp only [List.getElem?_cons_zero, Option.some.injEq] at h1
  subst h1
  rw [h2, if_pos hko]

example : (run (fun _ => true) exCfgs exHooks 13).status = .done ∧
    Hook.setup ∈ hooksOf 1 (run (fun _ => true) exCfgs exHooks 13).log ∧
    (∀ e ∈ (run (fun _ => true) exCfgs exHooks 13).log, ¬ (e.task = 1 ∧ e.ret = .stop)) ∧
    received 1 0 (run (fun _ => true) exCfgs exHooks 13).log = [some 7, some 8] := by decide +kernel

/-- The order of the list matters: a consumer listed before its producer is finished before anything
has been produced, and loses everything. -/
theorem C23_consumer_first_loses : ∃ (cfgs : List Cfg) (ρ : Nat → Ret Nat) (n : Nat),
    WellFormed cfgs ∧ (run (fun _ => true) cfgs ρ n).status = .done ∧
    hooksOf 0 (run (fun _ => true) cfgs ρ n).log = [.setup, .finish] ∧
    received 0 0 (run (fun _ => true) cfgs ρ n).log = [] ∧
    emitted cfgs "a" (run (fun _ => true) cfgs ρ n).log = [some 7] :=
  ⟨[⟨[], ["a"], [], false, none, 0⟩, ⟨[], [], ["a"], true, none, 0⟩],
    fun n => match n with | 5 => .obj 7 | 6 => .stop | _ => .none, 12, by decide +kernel⟩

/-- With two inputs of different length what is left over of the longer one is lost. -/
theorem C23_leftover_lost : ∃ (cfgs : List Cfg) (ρ : Nat → Ret Nat) (n : Nat),
    WellFormed cfgs ∧ (run (fun _ => true) cfgs ρ n).status = .done ∧
    received 2 0 (run (fun _ => true) cfgs ρ n).log = [some 1] ∧
    emitted cfgs "a" (run (fun _ => true) cfgs ρ n).log = [some 1, some 2] ∧
    received 2 1 (run (fun _ => true) cfgs ρ n).log = [some 3] ∧
    emitted cfgs "b" (run (fun _ => true) cfgs ρ n).log = [some 3] :=
  ⟨[⟨[], [], ["a"], true, none, 0⟩, ⟨[], [], ["b"], true, none, 0⟩,
      ⟨[], ["a", "b"], [], false, none, 0⟩],
    fun n => match n with
      | 3 => .obj 1 | 4 => .obj 2 | 5 => .stop | 8 => .obj 3 | 10 => .stop | _ => .none,
    20, by decide +kernel⟩

/-! ## C24 -/

/-- **C24.** A task with a positive limit on its outputs returns at most that many products from
`next`, at every point of every run. (The limit zero is not respected, see
`C24_zero_limit_violated`.) -/
theorem C24_limit_partial (keyOk : Key → Bool) (cfgs : List Cfg) (hwf : WellFormed cfgs)
    (ρ : Nat → Ret α) (n i : Nat) (c : Cfg) (l : Int) (hc : cfgs[i]? = some c)
    (hl : c.limit = some l) (hpos : 1 ≤ l) : (emissions i (run keyOk cfgs ρ n).log : Int) ≤ l := by
  have fin : ∀ m : Nat, ((m : Int) ≤ l ∨ m ≤ 1) → (m : Int) ≤ l := by
    intro m h
    rcases h with h | h
    · exact h
    · omega
  induction n with
  | zero => simp [run, State.init, emissions]; omega
  | succ n ih =>
    simp only [run]
    by_cases hr : (run keyOk cfgs ρ n).status = .running
    · have hg := run_inv keyOk hwf ρ n (by rw [hr]; simp)
      rcases step_log (keyOk := keyOk) hr hg (ρ n) with
        h | ⟨m, d, t, e, ret, t', ret', r', h1, h2, h3, h4⟩
      · rw [h]; exact ih
      · rw [h2]
        by_cases hmi : m = i
        · subst hmi
          obtain ⟨st, hs⟩ := slot_exists hg hc
          rw [hs] at h1
          simp only [Option.some.injEq, Slot.mk.injEq] at h1
          obtain ⟨rfl, rfl⟩ := h1
          rcases h4 with rfl | rfl
          · exact fin _ (((hg.slots m _ hs).called h3).limit l hl)
          · rw [emissions_error]; exact ih
        · rw [emissions_other (e := ⟨m, e.1, e.2, ret⟩) (Or.inl hmi)]; exact ih
    · rw [step_stopped hr]; exact ih

/-- **C24.** Once a task has returned as many products as its limit says, `next` is never called on it
again: the next hook, if any, is `finish`. -/
theorem C24_then_finish (keyOk : Key → Bool) (cfgs : List Cfg) (hwf : WellFormed cfgs)
    (ρ : Nat → Ret α) (n i : Nat) (c : Cfg) (hc : cfgs[i]? = some c)
    (hit : hitLimit c i (run keyOk cfgs ρ n).log) (m : Nat) (hm : n ≤ m) :
    hooksOf i (run keyOk cfgs ρ m).log = hooksOf i (run keyOk cfgs ρ n).log ∨
      hooksOf i (run keyOk cfgs ρ m).log = hooksOf i (run keyOk cfgs ρ n).log ++ [.finish] := by
  obtain ⟨l, hl, hge, hpos⟩ := hit
  have hne : Hook.next ∈ hooksOf i (run keyOk cfgs ρ n).log := by
    apply Classical.byContradiction
    intro hcon
    rw [emissions_zero hcon] at hpos
    simp at hpos
  -- the number of emissions stays
  have key : ∀ m, n ≤ m →
      emissions i (run keyOk cfgs ρ m).log = emissions i (run keyOk cfgs ρ n).log ∧
      (hooksOf i (run keyOk cfgs ρ m).log = hooksOf i (run keyOk cfgs ρ n).log ∨
      hooksOf i (run keyOk cfgs ρ m).log = hooksOf i (run keyOk cfgs ρ n).log ++ [.finish]) := by
    intro m
    induction m with
    | zero =>
      intro h
      have : n = 0 := by omega
      subst this
      exact ⟨rfl, Or.inl rfl⟩
    | succ m ih =>
      intro h
      by_cases hnm : n = m + 1
      · subst hnm; exact ⟨rfl, Or.inl rfl⟩
      obtain ⟨ih1, ih2⟩ := ih (by omega)
      have hlc := C20_lifecycle keyOk cfgs hwf ρ (m + 1) i
      simp only [run] at hlc ⊢
      by_cases hr : (run keyOk cfgs ρ m).status = .running
      · have hg := run_inv keyOk hwf ρ m (by rw [hr]; simp)
        rcases step_log (keyOk := keyOk) hr hg (ρ m) with
          h | ⟨m', d, t, e, ret, t', ret', r', h1, h2, h3, h4⟩
        · rw [h]; exact ⟨ih1, ih2⟩
        · rw [h2] at hlc ⊢
          by_cases hmi : m' = i
          · subst hmi
            obtain ⟨st, hs⟩ := slot_exists hg hc
            rw [hs] at h1
            simp only [Option.some.injEq, Slot.mk.injEq] at h1
            obtain ⟨rfl, rfl⟩ := h1
            have hsl := hg.slots m' _ hs
            have hnext : Hook.next ∈ hooksOf m' (run keyOk cfgs ρ m).log := by
              rcases ih2 with h | h <;> rw [h] <;> simp [hne]
            -- the task is in its finish stage
            have hfin : e.1 = .finish := by
              unfold pipelineNext at h3
              cases hst : t.stage with
              | setup req q =>
                exfalso
                have := hsl.hooks
                simp only [Option.map_some, hst] at this
                rw [show hooksOf m' (run keyOk cfgs ρ m).log = [] from this] at hnext
                simp at hnext
              | next q =>
                exfalso
                rcases hsl.limitNext t q rfl hst l hl with a | a
                · rw [ih1] at a; omega
                · rw [ih1] at a; omega
              | finish o =>
                rw [hst] at h3
                simp only at h3
                cases r' <;> simp only [afterOther, NextRes.out.injEq, reduceCtorEq] at h3 <;>
                  (obtain ⟨-, rfl, -⟩ := h3; rfl)
              | raised o => rw [hst] at h3; simp at h3
            rw [hooksOf_call, hfin] at hlc ⊢
            refine ⟨?_, ?_⟩
            · rw [emissions_other (e := ⟨m', .finish, e.2, ret⟩) (Or.inr (Or.inl (by simp)))]
              exact ih1
            · rcases ih2 with h | h
              · right; rw [h]
              · exfalso
                rw [h] at hlc
                generalize hooksOf m' (run keyOk cfgs ρ n).log = L at hlc hne
                -- two times finish
                have hcount : ∀ l, Lifecycle l → l.count Hook.finish ≤ 1 := by
                  intro l hl
                  cases hl with
                  | nothing => simp
                  | going n => simp [List.count_cons, List.count_replicate]
                  | skipped => simp
                  | complete n => simp [List.count_cons, List.count_replicate]
                have := hcount _ hlc
                simp [List.count_append] at this
          · rw [emissions_other (e := ⟨m', e.1, e.2, ret⟩) (Or.inl hmi),
              hooksOf_other (e := ⟨m', e.1, e.2, ret⟩) hmi]
            exact ⟨ih1, ih2⟩
      · rw [step_stopped hr]; exact ⟨ih1, ih2⟩
  exact (key m hm).2

example : emissions 0 (run (fun _ => true) [⟨[], [], ["a"], true, some 2, 0⟩]
    (fun n => (.obj n : Ret Nat)) 20).log = 2 ∧
    hooksOf 0 (run (fun _ => true) [⟨[], [], ["a"], true, some 2, 0⟩]
    (fun n => (.obj n : Ret Nat)) 20).log = [.setup, .next, .next, .finish] := by decide +kernel

/-- The limit is looked at only after `next` has returned something: with a limit of zero one product
is emitted all the same. -/
theorem C24_zero_limit_violated : ∃ (ρ : Nat → Ret Nat) (n : Nat),
    (run (fun _ => true) [⟨[], [], ["a"], true, some 0, 0⟩] ρ n).status = .done ∧
    emissions 0 (run (fun _ => true) [⟨[], [], ["a"], true, some 0, 0⟩] ρ n).log = 1 :=
  ⟨fun _ => .obj 5, 5, by decide +kernel⟩

end Verif.Pipe
