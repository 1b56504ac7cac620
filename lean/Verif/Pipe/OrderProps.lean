import Verif.Pipe.Order

/-!
# C114: the order in which a pipeline runs its tasks

A run is as in `Verif.Pipe.Props`. That a round calls a hook is seen from the log: one entry `e` is added.
-/
namespace Verif.Pipe
variable {α : Type}

/-- C114. While any task can do something with what it has, a hook is only called on a task that can, and on one of the
highest priority; among equals on one of the highest base priority, and then on the next one in the order of the
configuration, counted from where the manager is. Where it is then is at the task whose hook was called. -/
theorem C114_highest_partial (keyOk : Key → Bool) (cfgs : List Cfg) (hwf : WellFormed cfgs) (ρ : Nat → Ret α) (n : Nat)
    (hr : (run keyOk cfgs ρ n).status = .running) (e : Event α)
    (he : (run keyOk cfgs ρ (n + 1)).log = (run keyOk cfgs ρ n).log ++ [e]) :
    (run keyOk cfgs ρ (n + 1)).idx = e.task ∧ ∃ (c : Cfg) (t : TState α),
      (run keyOk cfgs ρ n).tasks[e.task]? = some ⟨c, some t⟩ ∧
      ∀ (j : Nat) (c' : Cfg) (t' : TState α), (run keyOk cfgs ρ n).tasks[j]? = some ⟨c', some t'⟩ → Ready t'.stage →
        Ready t.stage ∧ ∀ w w', Worth c t.stage w → Worth c' t'.stage w' →
          w' < w ∨ (w' = w ∧ (c'.base < c.base ∨ (c'.base = c.base ∧
            placesAfter cfgs.length (run keyOk cfgs ρ n).idx e.task ≤
              placesAfter cfgs.length (run keyOk cfgs ρ n).idx j))) := by
  have hg := run_inv keyOk hwf ρ n (by rw [hr]; simp)
  obtain ⟨hn, c, t, hct, _⟩ := step_calls hr hg (ρ n) e he
  refine ⟨step_idx_call hr (ρ n) e he, c, t, hct, ?_⟩
  intro j c' t' hj hready
  have hlen : (run keyOk cfgs ρ n).tasks.length = cfgs.length := by simpa using congrArg List.length hg.same
  have hne : cfgs ≠ [] := by
    intro h0
    have := getElem?_lt hct
    rw [hlen, h0] at this
    simp at this
  have hidx := run_idx keyOk hwf ρ hne n hr
  rw [← hlen] at hidx
  have hav : avail (run keyOk cfgs ρ n).tasks j = true := by
    unfold avail; rw [hj]; exact (ready_iff _).2 hready
  obtain ⟨h1, h2⟩ := nextTask_best hidx hn hav
  have hrt : Ready t.stage := by
    unfold avail at h1; rw [hct] at h1; exact (ready_iff _).1 h1
  refine ⟨hrt, ?_⟩
  intro w w' hw hw'
  have e1 : rank (run keyOk cfgs ρ n).tasks e.task = (w, c.base) := by
    unfold rank; rw [hct]; simp only; rw [worth_eq hw hrt]
  have e2 : rank (run keyOk cfgs ρ n).tasks j = (w', c'.base) := by
    unfold rank; rw [hj]; simp only; rw [worth_eq hw' hready]
  rw [e1, e2, hlen] at h2
  simp only [ahead, Bool.or_eq_true, Bool.and_eq_true, decide_eq_true_eq, Bool.or_eq_false_iff,
    Bool.and_eq_false_iff, decide_eq_false_iff_not] at h2
  omega

/-- C114. A task without inputs is asked for its next product only when nothing else can be done: every other task that
has been set up and not finished lacks products on one of its inputs, having used up all that was made, and every task
that requires nothing has been set up. -/
theorem C114_products_first (keyOk : Key → Bool) (cfgs : List Cfg) (hwf : WellFormed cfgs) (ρ : Nat → Ret α) (n : Nat)
    (hr : (run keyOk cfgs ρ n).status = .running) (e : Event α)
    (he : (run keyOk cfgs ρ (n + 1)).log = (run keyOk cfgs ρ n).log ++ [e]) (hh : e.hook = .next) (ha : e.args = [])
    (j : Nat) (c : Cfg) (hc : cfgs[j]? = some c) (hf : Hook.finish ∉ hooksOf j (run keyOk cfgs ρ n).log) :
    (c.reqKeys = [] → Hook.setup ∈ hooksOf j (run keyOk cfgs ρ n).log) ∧
    (Hook.setup ∈ hooksOf j (run keyOk cfgs ρ n).log → c.inKeys ≠ [] → ∃ m k, c.inKeys[m]? = some k ∧
      received j m (run keyOk cfgs ρ n).log =
        if keyOk k then emitted cfgs k (run keyOk cfgs ρ n).log else []) := by
  have hg := run_inv keyOk hwf ρ n (by rw [hr]; simp)
  obtain ⟨_, hno⟩ := source_asked hwf ρ n hr e he hh ha
  obtain ⟨st, hs⟩ := slot_exists hg hc
  have hi := hg.slots j _ hs
  cases st with
  | none =>
    rcases hi.hooks with h | ⟨m, h⟩ <;> rw [h] at hf <;> simp at hf
  | some t =>
    have hnr := hno j c t hs
    cases hgst : t.stage with
    | setup req q =>
      have hh0 := hi.hooks
      simp only [Option.map_some, hgst, HookInv] at hh0
      refine ⟨fun hreq => ?_, fun h => ?_⟩
      · exfalso
        apply hnr
        have hl := reqLen_run keyOk cfgs ρ n _ (List.mem_of_getElem? hs) t req q rfl hgst
        rw [hreq] at hl
        have : req = [] := List.length_eq_zero_iff.1 hl
        rw [hgst, this]
        simp [Ready]
      · rw [hh0] at h; simp at h
    | next q =>
      have hh0 := hi.hooks
      simp only [Option.map_some, hgst, HookInv] at hh0
      obtain ⟨m, hm⟩ := hh0
      refine ⟨fun _ => by rw [hm]; simp, fun _ hin => ?_⟩
      have hq := hi.queues
      simp only [QueueInv, Option.map_some, Option.bind_some, hgst, Stage.queues] at hq
      rw [hgst] at hnr
      have hqne : q ≠ [] := by
        intro h0
        rw [h0] at hq
        exact hin (List.length_eq_zero_iff.1 hq.1.symm)
      have : ∃ l ∈ q, l = [] := Classical.byContradiction fun hcon =>
        hnr ⟨hqne, fun l hl h0 => hcon ⟨l, hl, h0⟩⟩
      obtain ⟨l, hl, rfl⟩ := this
      obtain ⟨m, hm⟩ := List.mem_iff_getElem?.1 hl
      have hlt : m < c.inKeys.length := by rw [← hq.1]; exact getElem?_lt hm
      refine ⟨m, c.inKeys[m], List.getElem?_eq_getElem hlt, ?_⟩
      have := hq.2 m _ _ (List.getElem?_eq_getElem hlt) hm
      rw [List.append_nil] at this
      exact this
    | finish q => rw [hgst] at hnr; exact absurd trivial hnr
    | raised q => rw [hgst] at hnr; exact absurd trivial hnr

/-- C114. Tasks without inputs run one after another in the order of the configuration: one of them is asked for its next
product only when all tasks that are listed before it have been finished. -/
theorem C114_one_source_at_a_time (keyOk : Key → Bool) (cfgs : List Cfg) (hwf : WellFormed cfgs) (ρ : Nat → Ret α)
    (n : Nat) (hr : (run keyOk cfgs ρ n).status = .running) (e : Event α)
    (he : (run keyOk cfgs ρ (n + 1)).log = (run keyOk cfgs ρ n).log ++ [e]) (hh : e.hook = .next) (ha : e.args = [])
    (j : Nat) (hj : j < e.task) : Hook.finish ∈ hooksOf j (run keyOk cfgs ρ n).log := by
  have hg := run_inv keyOk hwf ρ n (by rw [hr]; simp)
  obtain ⟨hhead, _⟩ := source_asked hwf ρ n hr e he hh ha
  obtain ⟨_, c, t, hct, _⟩ := step_calls hr hg (ρ n) e he
  have hlt : j < (run keyOk cfgs ρ n).tasks.length := Nat.lt_trans hj (getElem?_lt hct)
  have hl := hg.head.1 j (by rw [← hhead]; exact hj)
  have hs := live_false hl _ (List.getElem?_eq_getElem hlt)
  have hi := (hg.slots j _ (List.getElem?_eq_getElem hlt)).hooks
  rw [hs] at hi
  rcases hi with h | ⟨m, h⟩ <;> rw [h] <;> simp

/-! ## The example of the documentation (`caput/pipeline/__init__.py:97-175`) -/

/-- `PrintEggs`, `GetEggs` and `CookEggs`. -/
def eggs : List Cfg :=
  [⟨[], [], [], false, none, 0⟩, ⟨[], [], ["egg"], true, none, 0⟩, ⟨[], ["egg"], [], false, none, 0⟩]

/-- Three eggs each: `PrintEggs` stops in round 6, `GetEggs` returns eggs in rounds 9, 11 and 13 and stops in round 15. -/
def eggHooks : Nat → Ret Nat
  | 6 | 15 => .stop
  | 9 => .obj 1
  | 11 => .obj 2
  | 13 => .obj 3
  | _ => .none

example : WellFormed eggs ∧ (run (fun _ => true) eggs eggHooks 22).status = .done ∧
    (run (fun _ => true) eggs eggHooks 22).log.map (fun e => (e.task, e.hook)) =
      [(0, .setup), (1, .setup), (2, .setup), (0, .next), (0, .next), (0, .next), (0, .next), (0, .finish), (1, .next),
        (2, .next), (1, .next), (2, .next), (1, .next), (2, .next), (1, .next), (1, .finish), (2, .finish)] := by
  decide +kernel

/-- In round 11 `GetEggs` is asked for its second egg, when `CookEggs` has cooked the first and `PrintEggs` is finished. -/
example : (run (fun _ => true) eggs eggHooks 11).status = .running ∧
    (run (fun _ => true) eggs eggHooks 12).log = (run (fun _ => true) eggs eggHooks 11).log ++ [⟨1, .next, [], .obj 2⟩] ∧
    received 2 0 (run (fun _ => true) eggs eggHooks 11).log = [some 1] ∧
    emitted eggs "egg" (run (fun _ => true) eggs eggHooks 11).log = [some 1] ∧
    Hook.finish ∈ hooksOf 0 (run (fun _ => true) eggs eggHooks 11).log := by decide +kernel

/-- A source, a task that splits its product, and two tasks that use the parts; the last one has the higher base
priority. -/
def split : List Cfg :=
  [⟨[], [], ["a"], true, none, 0⟩, ⟨[], ["a"], ["b", "c"], false, none, 0⟩, ⟨[], ["b"], [], false, none, 0⟩,
    ⟨[], ["c"], [], false, none, 3⟩]

def splitHooks : Nat → Ret Nat
  | 4 => .obj 1
  | 5 => .tup [some 2, some 3]
  | _ => .none

/-- Both can run in round 6; the last task has the higher priority and runs. -/
example : (run (fun _ => true) split splitHooks 6).status = .running ∧
    (run (fun _ => true) split splitHooks 7).log =
      (run (fun _ => true) split splitHooks 6).log ++ [⟨3, .next, [some 3], .none⟩] ∧
    (run (fun _ => true) split splitHooks 6).tasks[2]? =
      some ⟨⟨[], ["b"], [], false, none, 0⟩, some ⟨.next [[some 2]], 0⟩⟩ := by decide +kernel

example : Ready (.next [[some 2]] : Stage Nat) ∧ Worth ⟨[], ["b"], [], false, none, 0⟩ (.next [[some 2]] : Stage Nat) 1 :=
  ⟨by simp [Ready], .next _ 1 (by simp) (by simp)⟩

/-! ## Where it fails -/

/-- C114 fails for the base priority of tasks without inputs: the second task, with base priority 10, is asked for its
first product only after the first one, with base priority 0, has made all its products and was finished. -/
theorem C114_source_base_violated : ∃ (cfgs : List Cfg) (ρ : Nat → Ret Nat) (n : Nat), WellFormed cfgs ∧
    cfgs = [⟨[], [], ["a"], true, none, 0⟩, ⟨[], [], ["b"], true, none, 10⟩] ∧
    (run (fun _ => true) cfgs ρ n).status = .done ∧
    (run (fun _ => true) cfgs ρ n).log.map (fun e => (e.task, e.hook)) =
      [(1, .setup), (0, .setup), (0, .next), (0, .next), (0, .next), (0, .finish), (1, .next), (1, .next),
        (1, .finish)] :=
  ⟨_, fun n => match n with | 2 => .obj 1 | 3 => .obj 2 | 4 => .stop | 7 => .obj 3 | 8 => .stop | _ => .none, 12,
    by decide +kernel, rfl, by decide +kernel, by decide +kernel⟩

/-- Twelve products are made for task 2 before it gets what it requires; its `setup` makes a product for task 3. -/
def pileCfgs : List Cfg :=
  [⟨[], [], ["a", "c"], false, none, 0⟩, ⟨[], [], ["r"], true, none, 0⟩, ⟨["r"], ["a", "c"], ["b"], true, none, 0⟩,
    ⟨[], ["b"], [], false, none, 10⟩]

def pileHooks (n : Nat) : Ret Nat :=
  if n < 3 then .none else if n < 15 then .tup [some 1, some 1] else if n = 15 then .stop
  else if n = 18 then .obj 5 else if n = 19 then .obj 6 else .none

/-- C114 fails for base priorities also of other tasks: a base priority of 10 does not make a task run first, since the
dynamic priority grows with the number of products that wait. In round 20 the last task, with base priority 10, has what
it needs, but `next` of task 2, with base priority 0, is called. -/
theorem C114_pile_violated : WellFormed pileCfgs ∧
    (run (fun _ => true) pileCfgs pileHooks 20).status = .running ∧
    (∃ t, (run (fun _ => true) pileCfgs pileHooks 20).tasks[3]? = some ⟨⟨[], ["b"], [], false, none, 10⟩, some t⟩ ∧
      Ready t.stage) ∧
    (run (fun _ => true) pileCfgs pileHooks 21).log =
      (run (fun _ => true) pileCfgs pileHooks 20).log ++ [⟨2, .next, [some 1, some 1], .none⟩] :=
  ⟨by decide, by decide +kernel, ⟨⟨.next [[some 6]], 0⟩, by decide +kernel, by simp [Ready]⟩, by decide +kernel⟩

/-! Two sources and a task that takes a product of each. -/

def joinCfgs : List Cfg :=
  [⟨[], [], ["a"], true, none, 0⟩, ⟨[], [], ["b"], true, none, 0⟩, ⟨[], ["a", "b"], [], false, none, 0⟩]

def joinHooks (n : Nat) : Ret Nat := if n < 3 then .none else .obj 7

/-- The state in round `n + 3`. -/
def joinTasks (n : Nat) : List (Slot Nat) :=
  [⟨⟨[], [], ["a"], true, none, 0⟩, some ⟨.next [], n⟩⟩, ⟨⟨[], [], ["b"], true, none, 0⟩, some ⟨.next [], 0⟩⟩,
    ⟨⟨[], ["a", "b"], [], false, none, 0⟩, some ⟨.next [List.replicate n (some 7), []], 0⟩⟩]

theorem join_run (n : Nat) : ∃ idx log, (idx = 0 ∨ idx = 2) ∧
    run (fun _ => true) joinCfgs joinHooks (n + 3) = ⟨joinTasks n, idx, 0, .running, log⟩ ∧ hooksOf 1 log = [.setup] ∧
    hooksOf 2 log = [.setup] := by
  induction n with
  | zero => exact ⟨2, _, .inr rfl, rfl, by decide, by decide⟩
  | succ n ih =>
    obtain ⟨idx, log, hidx, hrun, hlog, hlog2⟩ := ih
    have hh : joinHooks (n + 3) = .obj 7 := by unfold joinHooks; rw [if_neg (by omega)]
    refine ⟨0, log ++ [⟨0, .next, [], .obj 7⟩], .inl rfl, ?_, ?_, ?_⟩
    · rw [show n + 1 + 3 = (n + 3) + 1 by omega, run, hrun, hh]
      have hnt : nextTask (⟨joinTasks n, idx, 0, .running, log⟩ : State Nat) = some 0 := by
        have ha : ∀ j, avail (joinTasks n) j = false := by
          intro j
          match j with
          | 0 => rfl
          | 1 => rfl
          | 2 => simp [avail, joinTasks, Stage.available, allFilled]
          | j + 3 => simp [avail, joinTasks]
        have hf : (cyclic (joinTasks n).length idx).filter (avail (joinTasks n)) = [] :=
          List.filter_eq_nil_iff.2 fun j _ => by rw [ha j]; simp
        unfold nextTask
        rw [hf]
        rfl
      unfold step
      simp only [hnt]
      simp [joinTasks, pipelineNext, pop, afterNext, handle, limitReached, checkOutput, queueAll, queueTasks, setTask,
        Slot.queue, Stage.queue, push, List.replicate_succ']
    · rw [hooksOf_other (by simp)]
      exact hlog
    · rw [hooksOf_other (by simp)]
      exact hlog2

/-- C114 fails for the rule that tasks take turns when none has what it needs (`caput/pipeline/__init__.py:190-201`):
however many products the first source has made for a task that takes a product of each of two sources, the second one
has not been asked for one. All of them are kept in memory. -/
theorem C114_turns_violated (N : Nat) : WellFormed joinCfgs ∧ ∃ n,
    (run (fun _ => true) joinCfgs joinHooks n).status = .running ∧
    N ≤ (emitted joinCfgs "a" (run (fun _ => true) joinCfgs joinHooks n).log).length ∧
    received 2 0 (run (fun _ => true) joinCfgs joinHooks n).log = [] ∧
    hooksOf 1 (run (fun _ => true) joinCfgs joinHooks n).log = [.setup] := by
  have hwf : WellFormed joinCfgs := by decide
  obtain ⟨idx, log, hidx, hrun, hlog, hlog2⟩ := join_run N
  have hst : (run (fun _ => true) joinCfgs joinHooks (N + 3)).status = .running := by rw [hrun]
  have hg := run_inv (fun _ => true) hwf joinHooks (N + 3) (by rw [hst]; simp)
  rw [hrun] at hg
  have h2 := hg.slots 2 _ rfl
  have hq := h2.queues.2 0 "a" _ rfl rfl
  have hrec : received 2 0 log = [] := received_nil (by rw [hlog2]; simp) 0
  rw [hrec, List.nil_append] at hq
  refine ⟨hwf, N + 3, hst, ?_, by rw [hrun]; exact hrec, by rw [hrun]; exact hlog⟩
  rw [hrun]
  have : emitted joinCfgs "a" log = List.replicate N (some 7) := hq.symm
  rw [this, List.length_replicate]
  exact Nat.le_refl _

end Verif.Pipe
