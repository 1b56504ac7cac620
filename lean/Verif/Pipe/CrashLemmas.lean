import Verif.Pipe.Crash
import Verif.Pipe.InterProps

/-! # Helper lemmas for C128 -/
namespace Verif.Pipe
variable {α : Type}

/-- The rounds do not depend on the log, they only add to it. -/
theorem step_log_free (keyOk : Key → Bool) (s : State α) (r : Ret α) : ∃ new : List (Event α),
    (step keyOk s r).log = s.log ++ new ∧
    ∀ l, step keyOk { s with log := l } r = { step keyOk s r with log := l ++ new } := by
  obtain ⟨tasks, idx, head, status, log⟩ := s
  unfold step
  cases status with
  | done => exact ⟨[], by simp, fun l => by simp⟩
  | failed => exact ⟨[], by simp, fun l => by simp⟩
  | running =>
    have hn : ∀ l, nextTask ⟨tasks, idx, head, .running, l⟩ =
        nextTask ⟨tasks, idx, head, .running, log⟩ := fun _ => rfl
    simp only [hn]
    cases nextTask ⟨tasks, idx, head, .running, log⟩ with
    | none => exact ⟨[], by simp, fun l => by simp⟩
    | some i =>
      simp only
      cases tasks[i]? with
      | none => exact ⟨[], by simp, fun l => by simp⟩
      | some x =>
        obtain ⟨c, st⟩ := x
        cases st with
        | none => exact ⟨[], by simp, fun l => by simp⟩
        | some t =>
          simp only
          cases pipelineNext c t r with
          | missing =>
            simp only [handle]
            by_cases h : i = head
            · simp only [h, if_true]; exact ⟨[], by simp, fun l => by simp⟩
            · simp only [h, if_false]; exact ⟨[], by simp, fun l => by simp⟩
          | finished => exact ⟨[], by simp [handle], fun l => by simp [handle]⟩
          | failed e => exact ⟨[⟨i, e.1, e.2, .error⟩], by simp [handle], fun l => by simp [handle]⟩
          | out t' e ret =>
            simp only [handle]
            cases checkOutput c ret with
            | none => exact ⟨_, rfl, fun l => rfl⟩
            | some outs =>
              simp only
              cases queueAll keyOk outs (setTask tasks i c (some t')) with
              | none => exact ⟨_, rfl, fun l => rfl⟩
              | some ts => exact ⟨_, rfl, fun l => rfl⟩

theorem runFrom_log_free (keyOk : Key → Bool) (s : State α) (ρ : Nat → Ret α) (n : Nat) :
    ∃ new : List (Event α), (runFrom keyOk s ρ n).log = s.log ++ new ∧
    ∀ l, runFrom keyOk { s with log := l } ρ n = { runFrom keyOk s ρ n with log := l ++ new } := by
  induction n with
  | zero => exact ⟨[], by simp [runFrom], fun l => by simp [runFrom]⟩
  | succ n ih =>
    obtain ⟨a, h1, h2⟩ := ih
    obtain ⟨b, h3, h4⟩ := step_log_free keyOk (runFrom keyOk s ρ n) (ρ n)
    refine ⟨a ++ b, by rw [runFrom, h3, h1, List.append_assoc], fun l => ?_⟩
    rw [runFrom, h2 l, h4 (l ++ a), runFrom, List.append_assoc]

/-! ## A task that is about to call `setup` or `finish` -/

/-- The call that a task is about to make, if it is one of `setup` or `finish`. -/
def asks : Stage α → Option (Hook × List (Option α))
  | .setup req _ => if req.all Option.isSome then some (.setup, req) else none
  | .finish _ => some (.finish, [])
  | _ => none

theorem stow_filled {key : Key} {p : Option α} : ∀ (ks : List Key) (rs rs' : List (Option α)),
    rs.all Option.isSome = true → stow key p ks rs = some rs' → rs' = rs := by
  intro ks
  induction ks with
  | nil => intro rs rs' _ h; cases rs <;> simpa [stow, eq_comm] using h
  | cons k ks ih =>
    intro rs rs' ha h
    cases rs with
    | nil => simpa [stow, eq_comm] using h
    | cons x rs =>
      simp only [List.all_cons, Bool.and_eq_true] at ha
      unfold stow at h
      split at h
      · rw [if_pos ha.1] at h; simp at h
      · rw [Option.map_eq_some_iff] at h
        obtain ⟨y, hy, rfl⟩ := h
        rw [ih rs y ha.2 hy]

theorem asks_queue {c : Cfg} {key : Key} {p : Option α} {g g' : Stage α}
    {w : Hook × List (Option α)} (ha : asks g = some w) (h : g.queue c key p = some g') :
    asks g' = some w := by
  cases g with
  | setup req q =>
    simp only [Stage.queue, Option.map_eq_some_iff] at h
    obtain ⟨req', hr, rfl⟩ := h
    unfold asks at ha ⊢
    by_cases hall : req.all Option.isSome = true
    · rw [stow_filled _ _ _ hall hr]; exact ha
    · simp only [hall] at ha; simp at ha
  | next q => simp [asks] at ha
  | raised q => simp [asks] at ha
  | finish q =>
    cases q with
    | none =>
      simp only [Stage.queue] at h
      split at h
      · simp at h
      · obtain rfl := Option.some.inj h; exact ha
    | some q =>
      simp only [Stage.queue] at h
      split at h
      · simp at h
      · obtain rfl := Option.some.inj h; exact ha

/-- Task `i` is about to make the call `w`. -/
def Waits (i : Nat) (w : Hook × List (Option α)) (ts : List (Slot α)) : Prop :=
  ∃ c t, ts[i]? = some ⟨c, some t⟩ ∧ asks t.stage = some w

theorem waits_queueTasks {key : Key} {p : Option α} {w : Hook × List (Option α)} :
    ∀ (ts ts' : List (Slot α)) (i : Nat), Waits i w ts → queueTasks key p ts = some ts' →
      Waits i w ts' := by
  intro ts
  induction ts with
  | nil => intro ts' i h _; obtain ⟨c, t, h, _⟩ := h; simp at h
  | cons x ts ih =>
    intro ts' i hw h
    unfold queueTasks at h
    cases hx : x.queue key p with
    | none => rw [hx] at h; simp at h
    | some y =>
      rw [hx] at h
      simp only [Option.map_eq_some_iff] at h
      obtain ⟨zs, hz, rfl⟩ := h
      cases i with
      | zero =>
        obtain ⟨c, t, ht, ha⟩ := hw
        simp only [List.getElem?_cons_zero, Option.some.injEq] at ht
        subst ht
        simp only [Slot.queue, Option.map_eq_some_iff] at hx
        obtain ⟨g, hg, rfl⟩ := hx
        exact ⟨c, { t with stage := g }, by simp, asks_queue ha hg⟩
      | succ i =>
        obtain ⟨c, t, ht, ha⟩ := hw
        simp only [List.getElem?_cons_succ] at ht
        obtain ⟨c', t', ht', ha'⟩ := ih zs i ⟨c, t, ht, ha⟩ hz
        exact ⟨c', t', by simpa using ht', ha'⟩

theorem waits_queueAll {keyOk : Key → Bool} {w : Hook × List (Option α)} {i : Nat} :
    ∀ (outs : List (Key × Option α)) (ts ts' : List (Slot α)), Waits i w ts →
      queueAll keyOk outs ts = some ts' → Waits i w ts' := by
  intro outs
  induction outs with
  | nil => intro ts ts' hw h; simp only [queueAll, Option.some.injEq] at h; exact h ▸ hw
  | cons o outs ih =>
    intro ts ts' hw h
    obtain ⟨k, p⟩ := o
    unfold queueAll at h
    split at h
    · cases hq : queueTasks k p ts with
      | none => rw [hq] at h; simp at h
      | some us => rw [hq] at h; exact ih us ts' (waits_queueTasks ts us i hw hq) h
    · exact ih ts ts' hw h

theorem waits_set {w : Hook × List (Option α)} {i j : Nat} {ts : List (Slot α)} {c : Cfg}
    {t : Option (TState α)} (h : Waits i w ts) (hij : j ≠ i) : Waits i w (setTask ts j c t) := by
  obtain ⟨c', t', ht, ha⟩ := h
  exact ⟨c', t', by rw [setTask, List.getElem?_set_ne hij]; exact ht, ha⟩

/-- The call such a task makes. -/
theorem asks_next {c : Cfg} {t : TState α} {w : Hook × List (Option α)} (h : asks t.stage = some w)
    (r : Ret α) : pipelineNext c t r = afterOther w.1 w.2 t r := by
  unfold pipelineNext
  cases hs : t.stage with
  | setup req q =>
    rw [hs] at h
    simp only [asks] at h
    split at h
    · rename_i hall; obtain rfl := Option.some.inj h; simp only [hall, if_true]
    · simp at h
  | next q => rw [hs] at h; simp [asks] at h
  | raised q => rw [hs] at h; simp [asks] at h
  | finish q => rw [hs] at h; obtain rfl := Option.some.inj h; rfl

/-- A round of such a state: the call is made, or another task acts and the state is kept, or
the run fails. -/
theorem waits_step {keyOk : Key → Bool} {s : State α} {i : Nat} {w : Hook × List (Option α)}
    (hr : s.status = .running) (hw : Waits i w s.tasks) (r : Ret α) :
    (∃ ret, (step keyOk s r).log = s.log ++ [⟨i, w.1, w.2, ret⟩]) ∨
    (∃ new : List (Event α), (step keyOk s r).log = s.log ++ new ∧ (∀ e ∈ new, e.task ≠ i) ∧
      ((step keyOk s r).status = .failed ∨
        (step keyOk s r).status = .running ∧ Waits i w (step keyOk s r).tasks)) := by
  cases hn : nextTask s with
  | none =>
    obtain ⟨c, t, ht, _⟩ := hw
    have := nextTask_none_live hn (getElem?_lt ht)
    rw [(live_iff _ _).2 ⟨c, t, ht⟩] at this
    simp at this
  | some j =>
    obtain ⟨c, t, hct⟩ := (live_iff _ _).1 (nextTask_live hn)
    have hstep : step keyOk s r = handle keyOk s j c t (pipelineNext c t r) := by
      unfold step
      rw [hr, hn]
      simp only
      rw [hct]
    rw [hstep]
    by_cases hji : j = i
    · left
      subst hji
      obtain ⟨c', t', ht, ha⟩ := hw
      rw [hct] at ht
      simp only [Option.some.injEq, Slot.mk.injEq] at ht
      obtain ⟨rfl, rfl⟩ := ht
      rw [asks_next ha]
      have hout : ∀ t' ret, ∃ ret', (handle keyOk s j c t (.out t' (w.1, w.2) ret)).log =
          s.log ++ [⟨j, w.1, w.2, ret'⟩] := by
        intro t' ret
        simp only [handle]
        cases checkOutput c ret with
        | none => exact ⟨_, rfl⟩
        | some outs =>
          simp only
          cases queueAll keyOk outs (setTask s.tasks j c (some t')) with
          | none => exact ⟨_, rfl⟩
          | some ts => exact ⟨_, rfl⟩
      cases r with
      | error => exact ⟨_, rfl⟩
      | stop => exact ⟨_, rfl⟩
      | none => exact hout _ _
      | obj p => exact hout _ _
      | tup l => exact hout _ _
      | lst o l => exact hout _ _
    · right
      cases pipelineNext c t r with
      | missing =>
        simp only [handle]
        split
        · exact ⟨[], by simp, by simp, Or.inr ⟨hr, waits_set hw hji⟩⟩
        · exact ⟨[], by simp, by simp, Or.inr ⟨hr, hw⟩⟩
      | finished => exact ⟨[], by simp [handle], by simp, Or.inr ⟨hr, waits_set hw hji⟩⟩
      | failed e => exact ⟨[⟨j, e.1, e.2, .error⟩], rfl, by simpa using hji, Or.inl rfl⟩
      | out t' e ret =>
        simp only [handle]
        cases checkOutput c ret with
        | none => exact ⟨[⟨j, e.1, e.2, ret⟩], rfl, by simpa using hji, Or.inl rfl⟩
        | some outs =>
          simp only
          cases hq : queueAll keyOk outs (setTask s.tasks j c (some t')) with
          | none => exact ⟨[⟨j, e.1, e.2, ret⟩], rfl, by simpa using hji, Or.inl rfl⟩
          | some ts => exact ⟨[⟨j, e.1, e.2, ret⟩], rfl, by simpa using hji,
              Or.inr ⟨hr, waits_queueAll outs _ ts (waits_set hw hji) hq⟩⟩

/-- All rounds of such a state. -/
theorem waits_run {keyOk : Key → Bool} {s : State α} {i : Nat} {w : Hook × List (Option α)}
    (hr : s.status = .running) (hw : Waits i w s.tasks) (ρ : Nat → Ret α) (n : Nat) :
    (∃ pre ret post, (runFrom keyOk s ρ n).log = s.log ++ pre ++ ⟨i, w.1, w.2, ret⟩ :: post ∧
      ∀ e ∈ pre, e.task ≠ i) ∨
    (∃ new : List (Event α), (runFrom keyOk s ρ n).log = s.log ++ new ∧ (∀ e ∈ new, e.task ≠ i) ∧
      ((runFrom keyOk s ρ n).status = .failed ∨
        (runFrom keyOk s ρ n).status = .running ∧ Waits i w (runFrom keyOk s ρ n).tasks)) := by
  induction n with
  | zero => exact Or.inr ⟨[], by simp [runFrom], by simp, Or.inr ⟨hr, hw⟩⟩
  | succ n ih =>
    rcases ih with ⟨pre, ret, post, h1, h2⟩ | ⟨new, h1, h2, h3⟩
    · left
      obtain ⟨b, hb, _⟩ := step_log_free keyOk (runFrom keyOk s ρ n) (ρ n)
      exact ⟨pre, ret, post ++ b, by rw [runFrom, hb, h1]; simp, h2⟩
    · rcases h3 with h3 | ⟨h3, h4⟩
      · right
        have : runFrom keyOk s ρ (n + 1) = runFrom keyOk s ρ n := by
          rw [runFrom, step_stopped (by rw [h3]; simp)]
        rw [this]
        exact ⟨new, h1, h2, Or.inl h3⟩
      · rcases waits_step (keyOk := keyOk) h3 h4 (ρ n) with ⟨ret, h5⟩ | ⟨b, h5, h6, h7⟩
        · left
          exact ⟨new, ret, [], by rw [runFrom, h5, h1], h2⟩
        · right
          refine ⟨new ++ b, by rw [runFrom, h5, h1, List.append_assoc], ?_, h7⟩
          intro e he
          rcases List.mem_append.1 he with h | h
          · exact h2 e h
          · exact h6 e h

/-! ## Queueing that is broken off -/

/-- The result of queueing, if all went well. -/
def whole {β : Type} (x : β × Bool) : Option β := if x.2 then some x.1 else none

theorem stowed_whole (key : Key) (p : Option α) : ∀ (ks : List Key) (rs : List (Option α)),
    stow key p ks rs = whole (stowed key p ks rs) := by
  intro ks
  induction ks with
  | nil => intro rs; cases rs <;> rfl
  | cons k ks ih =>
    intro rs
    cases rs with
    | nil => rfl
    | cons x rs =>
      unfold stow stowed
      rw [ih rs]
      unfold whole
      by_cases hk : k = key
      · by_cases hx : x.isSome = true
        · simp [hk, hx]
        · by_cases h2 : (stowed key p ks rs).2 = true <;> simp [hk, hx, h2]
          all_goals (subst hk; simp [h2])
      · by_cases h2 : (stowed key p ks rs).2 = true <;> simp [hk, h2]

theorem stage_whole (c : Cfg) (key : Key) (p : Option α) (g : Stage α) :
    g.queue c key p = whole (g.queued c key p) := by
  cases g with
  | setup req q =>
    simp only [Stage.queue, Stage.queued, stowed_whole]
    unfold whole
    by_cases h : (stowed key p c.reqKeys req).2 = true <;> simp [h]
  | next q =>
    simp only [Stage.queued]
    cases (Stage.next q).queue c key p <;> rfl
  | finish q =>
    simp only [Stage.queued]
    cases (Stage.finish q).queue c key p <;> rfl
  | raised q =>
    simp only [Stage.queued]
    cases (Stage.raised q).queue c key p <;> rfl

theorem slot_whole (key : Key) (p : Option α) (s : Slot α) :
    s.queue key p = whole (s.queued key p) := by
  obtain ⟨c, st⟩ := s
  cases st with
  | none => rfl
  | some t =>
    simp only [Slot.queue, Slot.queued, stage_whole]
    unfold whole
    by_cases h : (t.stage.queued c key p).2 = true <;> simp [h]

theorem tasks_whole (key : Key) (p : Option α) (ts : List (Slot α)) :
    queueTasks key p ts = whole (queuedTasks key p ts) := by
  induction ts with
  | nil => rfl
  | cons s ss ih =>
    unfold queueTasks queuedTasks
    rw [slot_whole, ih]
    unfold whole
    by_cases h : (s.queued key p).2 = true
    · by_cases h2 : (queuedTasks key p ss).2 = true <;> simp [h, h2]
    · simp [h]

theorem all_whole (keyOk : Key → Bool) (outs : List (Key × Option α)) : ∀ ts : List (Slot α),
    queueAll keyOk outs ts = whole (queuedAll keyOk outs ts) := by
  induction outs with
  | nil => intro ts; rfl
  | cons o outs ih =>
    intro ts
    obtain ⟨k, p⟩ := o
    unfold queueAll queuedAll
    rw [tasks_whole]
    by_cases hk : keyOk k = true
    · by_cases h : (queuedTasks k p ts).2 = true
      · simp only [hk, if_true, whole, h]
        rw [ih]; rfl
      · simp [hk, whole, h]
    · simp only [hk]
      exact ih ts

/-- A task that refuses a product has it in none of its queues. -/
theorem refused_queues {key : Key} {p : Option α} (s : Slot α) (h : (s.queued key p).2 = false) :
    (s.queued key p).1.st.map (fun t => t.stage.queues) = s.st.map fun t => t.stage.queues := by
  obtain ⟨c, st⟩ := s
  cases st with
  | none => simp [Slot.queued] at h
  | some t =>
    simp only [Slot.queued] at h ⊢
    simp only [Option.map_some, Option.some.injEq]
    cases hg : t.stage with
    | setup req q =>
      rw [hg] at h
      simp only [Stage.queued] at h ⊢
      by_cases hs : (stowed key p c.reqKeys req).2 = true
      · simp [hs] at h
      · simp [hs, Stage.queues]
    | next q =>
      rw [hg] at h
      simp only [Stage.queued] at h ⊢
      cases hq : (Stage.next q).queue c key p with
      | none => rfl
      | some g => rw [hq] at h; simp at h
    | finish q =>
      rw [hg] at h
      simp only [Stage.queued] at h ⊢
      cases hq : (Stage.finish q).queue c key p with
      | none => rfl
      | some g => rw [hq] at h; simp at h
    | raised q =>
      rw [hg] at h
      simp only [Stage.queued] at h ⊢
      cases hq : (Stage.raised q).queue c key p with
      | none => rfl
      | some g => rw [hq] at h; simp at h

theorem queued_half {key : Key} {p : Option α} : ∀ ts : List (Slot α),
    (queuedTasks key p ts).2 = false → ∃ (n : Nat) (x : Slot α), ts[n]? = some x ∧
      x.queue key p = none ∧
      (∃ y, (queuedTasks key p ts).1[n]? = some y ∧
        y.st.map (fun t => t.stage.queues) = x.st.map fun t => t.stage.queues) ∧
      (∀ j, j < n → ts[j]?.bind (Slot.queue key p) = (queuedTasks key p ts).1[j]?) ∧
      ∀ j, n < j → (queuedTasks key p ts).1[j]? = ts[j]? := by
  intro ts
  induction ts with
  | nil => intro h; simp [queuedTasks] at h
  | cons s ss ih =>
    intro h
    unfold queuedTasks at h ⊢
    by_cases h1 : (s.queued key p).2 = true
    · simp only [h1, if_true] at h ⊢
      obtain ⟨n, x, hx, hr, hy, hb, ha⟩ := ih h
      refine ⟨n + 1, x, by simpa using hx, hr, by simpa using hy, ?_, ?_⟩
      · intro j hj
        cases j with
        | zero => simp [slot_whole, whole, h1]
        | succ j => simpa using hb j (by omega)
      · intro j hj
        cases j with
        | zero => omega
        | succ j => simpa using ha j (by omega)
    · simp only [h1]
      refine ⟨0, s, rfl, by simp [slot_whole, whole, h1],
        ⟨(s.queued key p).1, by simp, refused_queues s (by simpa using h1)⟩, fun j hj => by omega, ?_⟩
      intro j hj
      cases j with
      | zero => omega
      | succ j => simp

/-! ## What the crash leaves -/

theorem failed_cases {c : Cfg} {t : TState α} {r : Ret α} {e : Hook × List (Option α)}
    (h : pipelineNext c t r = .failed e) :
    (asks t.stage = some e ∧ t.stage.crashed = t.stage) ∨
    (∃ q args q', t.stage = .next q ∧ pop q = some (args, q') ∧ e = (.next, args) ∧ r = .error ∧
      t.stage.crashed = .next q') := by
  unfold pipelineNext at h
  cases hs : t.stage with
  | setup req q =>
    rw [hs] at h
    simp only at h
    split at h
    · rename_i hall
      left
      have he : e = (.setup, req) := by
        cases r <;> simp only [afterOther, NextRes.failed.injEq, reduceCtorEq] at h
        · exact h.symm
        · exact h.symm
      exact ⟨by rw [he, asks, if_pos hall], rfl⟩
    · simp at h
  | next q =>
    rw [hs] at h
    simp only at h
    cases hp : pop q with
    | none => rw [hp] at h; simp at h
    | some x =>
      obtain ⟨args, q'⟩ := x
      rw [hp] at h
      right
      cases r <;> simp only [afterNext, NextRes.failed.injEq, reduceCtorEq] at h
      exact ⟨q, args, q', rfl, hp, h.symm, rfl, by simp [Stage.crashed, hp]⟩
  | raised q => rw [hs] at h; simp at h
  | finish q =>
    rw [hs] at h
    left
    have he : e = (.finish, []) := by
      cases r <;> simp only [afterOther, NextRes.failed.injEq, reduceCtorEq] at h
      · exact h.symm
      · exact h.symm
    exact ⟨by rw [he]; rfl, rfl⟩

theorem out_ne_error {c : Cfg} {t t' : TState α} {r ret : Ret α} {w : Hook × List (Option α)}
    (hp : pipelineNext c t r = .out t' w ret) : ret ≠ .error := by
  rintro rfl
  unfold pipelineNext at hp
  split at hp
  · split at hp
    · cases r <;> simp [afterOther] at hp
    · simp at hp
  · split at hp
    · simp at hp
    · cases r <;> simp [afterNext] at hp
  · cases r <;> simp [afterOther] at hp
  · simp at hp

/-- The last entry of the log tells which case it was. -/
theorem crash_failed {keyOk : Key → Bool} {s s' : State α} {r : Ret α} (h : crash keyOk s r = some s') {e : Event α}
    (he : s'.log = s.log ++ [e]) (her : e.ret = .error) :
    ∃ c t, nextTask s = some e.task ∧ s.tasks[e.task]? = some ⟨c, some t⟩ ∧
      pipelineNext c t r = .failed (e.hook, e.args) ∧
      s' = { s with
        idx := e.task, status := .failed, log := s.log ++ [e],
        tasks := setTask s.tasks e.task c (some { t with stage := t.stage.crashed }) } := by
  unfold crash at h
  cases hn : nextTask s with
  | none => rw [hn] at h; simp at h
  | some i =>
    rw [hn] at h
    simp only at h
    cases hx : s.tasks[i]? with
    | none => rw [hx] at h; simp at h
    | some x =>
      obtain ⟨c, st⟩ := x
      cases st with
      | none => rw [hx] at h; simp at h
      | some t =>
        rw [hx] at h
        simp only at h
        cases hp : pipelineNext c t r with
        | missing => rw [hp] at h; simp at h
        | finished => rw [hp] at h; simp at h
        | failed w =>
          rw [hp] at h
          simp only [Option.some.injEq] at h
          subst h
          simp only [List.append_cancel_left_eq, List.cons.injEq, and_true] at he
          subst he
          exact ⟨c, t, rfl, hx, hp, rfl⟩
        | out t' w ret =>
          rw [hp] at h
          simp only at h
          have hne := out_ne_error hp
          split at h
          · simp only [Option.some.injEq] at h
            subst h
            simp only [List.append_cancel_left_eq, List.cons.injEq, and_true] at he
            subst he
            exact absurd her hne
          · split at h
            · simp at h
            · simp only [Option.some.injEq] at h
              subst h
              simp only [List.append_cancel_left_eq, List.cons.injEq, and_true] at he
              subst he
              exact absurd her hne

/-- If `next` returns `None` nothing else happens in that round. -/
theorem step_next_none {keyOk : Key → Bool} {s : State α} {i : Nat} {c : Cfg} {t : TState α}
    {q q' : List (List (Option α))} {args : List (Option α)} (hr : s.status = .running)
    (hn : nextTask s = some i) (ht : s.tasks[i]? = some ⟨c, some t⟩) (hs : t.stage = .next q)
    (hp : pop q = some (args, q')) :
    step keyOk s .none = { s with
      idx := i, log := s.log ++ [⟨i, .next, args, .none⟩],
      tasks := setTask s.tasks i c (some { t with stage := .next q' }) } := by
  have hpn : pipelineNext c t .none = .out ⟨.next q', t.iters⟩ (.next, args) .none := by
    unfold pipelineNext
    rw [hs]
    simp only
    rw [hp]
    rfl
  have hco : checkOutput c (.none : Ret α) = some [] := by
    unfold checkOutput
    cases c.outKeys <;> rfl
  unfold step
  rw [hr, hn]
  simp only
  rw [ht]
  simp only
  rw [hpn]
  simp only [handle]
  rw [hco]
  simp only [queueAll, hr]

/-- A call of `next` that raises changes the account as one that returns `None` does. -/
theorem sinv_error {cfgs : List Cfg} {A : Key → List (Option α)} {lv : Nat → Bool} {i j : Nat}
    {x : Slot α} {a : List (Option α)} {log : List (Event α)}
    (h : SInv cfgs A lv i x (log ++ [⟨j, .next, a, .none⟩])) :
    SInv cfgs A lv i x (log ++ [⟨j, .next, a, .error⟩]) := by
  have h1 : hooksOf i (log ++ [⟨j, .next, a, (.error : Ret α)⟩]) =
      hooksOf i (log ++ [⟨j, .next, a, .none⟩]) := hooksOf_ret
  have h2 : ∀ k, received i k (log ++ [⟨j, .next, a, (.error : Ret α)⟩]) =
      received i k (log ++ [⟨j, .next, a, .none⟩]) := fun _ => received_ret
  have h3 : emissions i (log ++ [⟨j, .next, a, (.error : Ret α)⟩]) =
      emissions i (log ++ [⟨j, .next, a, .none⟩]) := by
    rw [emissions_error, emissions_other (Or.inr (Or.inr rfl))]
  refine ⟨by rw [h1]; exact h.hooks, queueInv_congr h.queues h2, ?_, ?_, ?_, ?_⟩
  · intro t ht; rw [h3]; exact h.iters t ht
  · rw [h3]; exact h.limit
  · rw [h3]; exact h.limitNext
  · intro b c
    rw [h1] at c
    rcases h.why b c with w | w | ⟨w1, m, k, w2, w3⟩
    · obtain ⟨e, he, w1, w2, w3⟩ := w
      rcases List.mem_append.1 he with he | he
      · exact Or.inl ⟨e, by simp [he], w1, w2, w3⟩
      · rw [List.mem_singleton] at he; subst he; simp at w3
    · refine Or.inr (Or.inl ?_)
      obtain ⟨l, a1, a2, a3⟩ := w
      exact ⟨l, a1, by rw [h3]; exact a2, by rw [h3]; exact a3⟩
    · exact Or.inr (Or.inr ⟨w1, m, k, w2, fun hm => by rw [h2]; exact w3 hm⟩)

theorem acc_error (keyOk : Key → Bool) (cfgs : List Cfg) (log : List (Event α)) (j : Nat) (a : List (Option α)) :
    Acc keyOk cfgs (log ++ [⟨j, .next, a, .error⟩]) = Acc keyOk cfgs (log ++ [⟨j, .next, a, .none⟩]) := by
  funext k
  unfold Acc emitted
  have : emittedBy cfgs k (⟨j, .next, a, .error⟩ : Event α) = emittedBy cfgs k ⟨j, .next, a, .none⟩ := by
    unfold emittedBy
    cases cfgs[j]? <;> rfl
  simp only [List.flatMap_append, List.flatMap_cons, List.flatMap_nil, this]

/-- The states of a manager that is run again after exceptions of `next`. Any number of rounds are carried
out; a new runner is made, also after exceptions of `next`, only before the first task has finished or after
all have. -/
inductive Goes (keyOk : Key → Bool) (cfgs : List Cfg) : State α → Prop where
  | start : Goes keyOk cfgs (State.init cfgs)
  | round (s : State α) (r : Ret α) : Goes keyOk cfgs s → Goes keyOk cfgs (step keyOk s r)
  | anew (s : State α) : Goes keyOk cfgs s → s.status ≠ .failed →
      (live s.tasks 0 = true ∨ ∀ i, live s.tasks i = false) → Goes keyOk cfgs (restart s)
  | again (s s' : State α) (r : Ret α) (e : Event α) : Goes keyOk cfgs s → s.status = .running →
      crash keyOk s r = some s' → s'.log = s.log ++ [e] → e.ret = .error → e.hook = .next →
      live s'.tasks 0 = true → Goes keyOk cfgs (restart s')

theorem Goes.inv {keyOk : Key → Bool} {cfgs : List Cfg} (hwf : WellFormed cfgs) {s : State α}
    (h : Goes keyOk cfgs s) : s.status ≠ .failed →
      GInv cfgs (Acc keyOk cfgs s.log) s.tasks s.head s.log := by
  induction h with
  | start => intro _; exact init_inv keyOk cfgs
  | round s r _ ih =>
    intro hok
    by_cases hr : s.status = .running
    · exact step_inv hwf hr (ih (by rw [hr]; simp)) _ hok
    · rw [step_stopped hr] at hok ⊢
      exact ih hok
  | anew s _ hf hl ih =>
    intro _
    have hg := ih hf
    refine ⟨hg.same, ⟨fun i hi => absurd hi (Nat.not_lt_zero i), fun ⟨i, hi⟩ => ?_⟩, hg.slots⟩
    rcases hl with h | h
    · exact h
    · have := h i
      rw [show live s.tasks i = true from hi] at this
      simp at this
  | again s s' r e _ hr h he her hh hl ih =>
    intro _
    obtain ⟨c, t, hn, hct, hp, hs'⟩ := crash_failed h he her
    rcases failed_cases hp with ⟨ha, -⟩ | ⟨q, args, q', hs, hpop, hw, -, hc⟩
    · rw [hh] at ha
      cases hg : t.stage with
      | setup req q =>
        rw [hg] at ha
        simp only [asks] at ha
        split at ha <;> simp at ha
      | next q => rw [hg] at ha; simp [asks] at ha
      | raised q => rw [hg] at ha; simp [asks] at ha
      | finish q => rw [hg] at ha; simp [asks] at ha
    · simp only [Prod.mk.injEq] at hw
      have hstep := step_next_none (keyOk := keyOk) hr hn hct hs hpop
      have hg := step_inv (keyOk := keyOk) hwf hr (ih (by rw [hr]; simp)) .none
        (by rw [hstep]; simp [hr])
      rw [hstep] at hg
      obtain ⟨et, eh, ea, er⟩ := e
      simp only at her hh hw hs' hg
      obtain rfl := her
      obtain rfl := hh
      obtain rfl := hw.2
      rw [hs', hc] at hl ⊢
      refine ⟨hg.same, ⟨fun i hi => absurd hi (Nat.not_lt_zero i), fun _ => hl⟩, fun i x hx => ?_⟩
      have := hg.slots i x hx
      simp only [restart]
      rw [acc_error]
      exact sinv_error this

/-! ## Calls that failed -/

/-- Is this a call of `setup` or `finish` that raised? -/
def failedOther (e : Event α) : Bool :=
  match e.hook, e.ret with
  | .next, _ => false
  | _, .error => true
  | _, _ => false

/-- A round that does not fail logs no call that failed. -/
theorem step_ok_log {keyOk : Key → Bool} {s : State α} {r : Ret α} {new : List (Event α)}
    (hok : (step keyOk s r).status ≠ .failed) (h : (step keyOk s r).log = s.log ++ new) :
    ∀ e ∈ new, failedOther e = false := by
  have hnil : (step keyOk s r).log = s.log → ∀ e ∈ new, failedOther e = false := by
    intro h'
    rw [h'] at h
    have : new = [] := by simpa using h.symm
    subst this
    simp
  by_cases hr : s.status = .running
  · cases hn : nextTask s with
    | none => exact hnil (by rw [step_none hr hn])
    | some i =>
      obtain ⟨c, t, hct⟩ := (live_iff _ _).1 (nextTask_live hn)
      have hstep : step keyOk s r = handle keyOk s i c t (pipelineNext c t r) := by
        unfold step
        rw [hr, hn]
        simp only
        rw [hct]
      rw [hstep] at hok h hnil
      cases hp : pipelineNext c t r with
      | missing =>
        rw [hp] at hnil
        refine hnil ?_
        simp only [handle]
        split <;> rfl
      | finished => rw [hp] at hnil; exact hnil rfl
      | failed e => rw [hp] at hok; simp [handle] at hok
      | out t' w ret =>
        have hne := out_ne_error hp
        have hl : (handle keyOk s i c t (.out t' w ret)).log = s.log ++ [⟨i, w.1, w.2, ret⟩] := by
          simp only [handle]
          cases checkOutput c ret with
          | none => rfl
          | some outs =>
            simp only
            cases queueAll keyOk outs (setTask s.tasks i c (some t')) with
            | none => rfl
            | some ts => rfl
        rw [hp, hl] at h
        have : new = [⟨i, w.1, w.2, ret⟩] := by simpa using h.symm
        subst this
        intro e he
        rw [List.mem_singleton] at he
        subst he
        unfold failedOther
        cases w.1 <;> cases ret <;> simp_all
  · exact hnil (by rw [step_stopped hr])

theorem received_calm (i j : Nat) (log : List (Event α)) :
    received i j (log.filter fun e => !failedOther e) = received i j log := by
  unfold received
  rw [List.filter_filter]
  congr 1
  apply List.filter_congr
  intro e _
  unfold failedOther
  cases he : e.hook <;> simp

theorem emitted_calm (cfgs : List Cfg) (k : Key) (log : List (Event α)) :
    emitted cfgs k (log.filter fun e => !failedOther e) = emitted cfgs k log := by
  unfold emitted
  induction log with
  | nil => rfl
  | cons e log ih =>
    by_cases h : failedOther e = true
    · have he : emittedBy cfgs k e = [] := by
        obtain ⟨et, eh, ea, er⟩ := e
        cases er <;> cases eh <;> simp only [failedOther, Bool.false_eq_true] at h
        all_goals
          unfold emittedBy
          cases cfgs[et]? <;> rfl
      simp [h, ih, he]
    · simp [h, ih]

end Verif.Pipe
