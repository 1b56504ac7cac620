import Verif.Pipe.Inter

/-!
# Model of the manager after an exception

An exception of a hook comes out of `_pipeline_next` and out of the runner, which catches neither it nor
the ones of `_check_task_output` and `_pipeline_queue_product` (_pipeline.py:316-372). The list of tasks is kept, and with it the state each
task was in at that moment: `next` has by then taken its arguments off the queues
(_pipeline.py:1127), `setup` and `finish` have not advanced (_pipeline.py:1112-1115, 1169-1172); outputs
are checked when the task has already advanced (_pipeline.py:347); a product that one task refuses has been
queued for the tasks before it, and not for those after it (_pipeline.py:354-364).
-/
namespace Verif.Pipe
variable {α : Type}

/-- The stage a hook that raises leaves its task in. _pipeline.py:1092-1172. -/
def Stage.crashed : Stage α → Stage α
  | .next q => match pop q with
    | none => .next q
    | some (_, q') => .next q'
  | g => g

/-- `stow` with what it leaves: the slots, and whether all went well. _pipeline.py:1195-1213. -/
def stowed (key : Key) (p : Option α) : List Key → List (Option α) → List (Option α) × Bool
  | k :: ks, r :: rs =>
    if k = key then
      if r.isSome then (r :: rs, false) else (p :: (stowed key p ks rs).1, (stowed key p ks rs).2)
    else (r :: (stowed key p ks rs).1, (stowed key p ks rs).2)
  | _, rs => (rs, true)

/-- `_pipeline_queue_product` with what it leaves. The slots come before the queues; all other stages refuse
before anything has changed. _pipeline.py:1179-1229. -/
def Stage.queued (c : Cfg) (key : Key) (p : Option α) : Stage α → Stage α × Bool
  | .setup req q =>
    if (stowed key p c.reqKeys req).2 then
      (.setup (stowed key p c.reqKeys req).1 (push key p c.inKeys q), true)
    else (.setup (stowed key p c.reqKeys req).1 q, false)
  | g => match g.queue c key p with
    | none => (g, false)
    | some g' => (g', true)

/-- The same for an entry of the task list. _pipeline.py:360-364. -/
def Slot.queued (key : Key) (p : Option α) (s : Slot α) : Slot α × Bool :=
  match s.st with
  | none => (s, true)
  | some t => ({ s with st := some { t with stage := (t.stage.queued s.cfg key p).1 } },
      (t.stage.queued s.cfg key p).2)

/-- The same for all tasks; the first that refuses ends the loop. _pipeline.py:360-364. -/
def queuedTasks (key : Key) (p : Option α) : List (Slot α) → List (Slot α) × Bool
  | [] => ([], true)
  | s :: ss =>
    if (s.queued key p).2 then
      ((s.queued key p).1 :: (queuedTasks key p ss).1, (queuedTasks key p ss).2)
    else ((s.queued key p).1 :: ss, false)

/-- The same for all outputs. _pipeline.py:354-372. -/
def queuedAll (keyOk : Key → Bool) : List (Key × Option α) → List (Slot α) → List (Slot α) × Bool
  | [], ts => (ts, true)
  | (k, p) :: rest, ts =>
    if keyOk k then
      if (queuedTasks k p ts).2 then queuedAll keyOk rest (queuedTasks k p ts).1
      else queuedTasks k p ts
    else queuedAll keyOk rest ts

/-- The manager after a round from which an exception comes out, `none` if there is no such
exception. _pipeline.py:300-372. -/
def crash (keyOk : Key → Bool) (s : State α) (r : Ret α) : Option (State α) :=
  match nextTask s with
  | none => none
  | some i => match s.tasks[i]? with
    | some ⟨c, some t⟩ => match pipelineNext c t r with
      | .failed e => some { s with
          idx := i, status := .failed, log := s.log ++ [⟨i, e.1, e.2, .error⟩],
          tasks := setTask s.tasks i c (some { t with stage := t.stage.crashed }) }
      | .out t' e ret => match checkOutput c ret with
        | none => some { s with
            idx := i, status := .failed, log := s.log ++ [⟨i, e.1, e.2, ret⟩],
            tasks := setTask s.tasks i c (some t') }
        | some outs =>
          if (queuedAll keyOk outs (setTask s.tasks i c (some t'))).2 then none
          else some { s with
            idx := i, status := .failed, log := s.log ++ [⟨i, e.1, e.2, ret⟩],
            tasks := (queuedAll keyOk outs (setTask s.tasks i c (some t'))).1 }
      | _ => none
    | _ => none

end Verif.Pipe
