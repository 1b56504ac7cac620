import Verif.Pipe.Ports
import Verif.Pipe.Props

/-! # Helper lemmas for C124 -/
namespace Verif.Pipe
variable {α : Type}

/-! ## A task without `requires` is never skipped -/

/-- The stage of a task without `requires`: nothing is waited for in `setup`, and `next` is not skipped. -/
def NoWait : Stage α → Prop
  | .setup req _ => req = []
  | .finish (some _) => False
  | .raised (some _) => False
  | _ => True

theorem noWait_queue {c : Cfg} (hr : c.reqKeys = []) {key : Key} {p : Option α} {g g' : Stage α}
    (h : g.queue c key p = some g') (hn : NoWait g) : NoWait g' := by
  cases g with
  | setup req q =>
    simp only [NoWait] at hn
    subst hn
    simp only [Stage.queue, hr, stow, Option.map_some, Option.some.injEq] at h
    subst h
    rfl
  | next q =>
    simp only [Stage.queue, hr] at h
    simp at h
    subst h
    trivial
  | finish o =>
    cases o with
    | some q => exact hn.elim
    | none =>
      simp only [Stage.queue] at h
      split at h
      · simp at h
      · obtain rfl := Option.some.inj h; trivial
  | raised o =>
    cases o with
    | some q => exact hn.elim
    | none =>
      simp only [Stage.queue] at h
      split at h
      · simp at h
      · obtain rfl := Option.some.inj h; trivial

/-- What holds of an entry of the task list without `requires`. -/
def SlotOk (log : List (Event α)) (i : Nat) (s : Slot α) : Prop :=
  s.cfg.reqKeys = [] → match s.st with
    | some t => NoWait t.stage
    | none => Hook.setup ∈ hooksOf i log

theorem slotOk_queue {log : List (Event α)} {i : Nat} {key : Key} {p : Option α} {s s' : Slot α}
    (h : s.queue key p = some s') (hs : SlotOk log i s) : SlotOk log i s' := by
  unfold Slot.queue at h
  cases hst : s.st with
  | none =>
    rw [hst] at h
    obtain rfl := Option.some.inj h
    exact hs
  | some t =>
    rw [hst] at h
    obtain ⟨g, e, rfl⟩ := Option.map_eq_some_iff.1 h
    intro hr
    have := hs hr
    rw [hst] at this
    exact noWait_queue hr e this

theorem slotOk_queueTasks {log : List (Event α)} {key : Key} {p : Option α} (ts : List (Slot α)) :
    ∀ (ts' : List (Slot α)) (b : Nat), queueTasks key p ts = some ts' →
      (∀ (i : Nat) (s : Slot α), ts[i]? = some s → SlotOk log (b + i) s) →
      ∀ (i : Nat) (s : Slot α), ts'[i]? = some s → SlotOk log (b + i) s := by
  induction ts with
  | nil =>
    intro ts' b h hs i s hi
    simp only [queueTasks, Option.some.injEq] at h
    subst h
    simp at hi
  | cons x ts ih =>
    intro ts' b h hs i s hi
    simp only [queueTasks] at h
    cases hx : x.queue key p with
    | none => rw [hx] at h; simp at h
    | some x' =>
      rw [hx] at h
      obtain ⟨r, hr, rfl⟩ := Option.map_eq_some_iff.1 h
      cases i with
      | zero =>
        simp only [List.getElem?_cons_zero, Option.some.injEq] at hi
        subst hi
        exact slotOk_queue hx (hs 0 x rfl)
      | succ i =>
        rw [List.getElem?_cons_succ] at hi
        have := ih r (b + 1) hr (fun k y hk => by
          have := hs (k + 1) y (by simpa using hk)
          rwa [show b + (k + 1) = b + 1 + k by omega] at this) i s hi
        rwa [show b + (i + 1) = b + 1 + i by omega]

theorem slotOk_queueAll {log : List (Event α)} {keyOk : Key → Bool} (outs : List (Key × Option α)) :
    ∀ (ts ts' : List (Slot α)), queueAll keyOk outs ts = some ts' →
      (∀ (i : Nat) (s : Slot α), ts[i]? = some s → SlotOk log i s) →
      ∀ (i : Nat) (s : Slot α), ts'[i]? = some s → SlotOk log i s := by
  induction outs with
  | nil =>
    intro ts ts' h hs
    simp only [queueAll, Option.some.injEq] at h
    subst h
    exact hs
  | cons x outs ih =>
    intro ts ts' h hs
    simp only [queueAll] at h
    split at h
    · cases hq : queueTasks x.1 x.2 ts with
      | none => rw [hq] at h; simp at h
      | some t1 =>
        rw [hq] at h
        refine ih t1 ts' h ?_
        have := slotOk_queueTasks ts t1 0 hq (fun i s hi => by simpa using hs i s hi)
        intro i s hi
        simpa using this i s hi
    · exact ih ts ts' h hs

theorem slotOk_log {log : List (Event α)} {i : Nat} {s : Slot α} (e : Event α) (h : SlotOk log i s) :
    SlotOk (log ++ [e]) i s := by
  intro hr
  have := h hr
  cases hst : s.st with
  | some t => rw [hst] at this; exact this
  | none =>
    rw [hst] at this
    simp only at this ⊢
    unfold hooksOf at *
    rw [List.filter_append, List.map_append]
    exact List.mem_append_left _ this

/-- After a call that came back the task does not wait, if it did not before. -/
theorem noWait_next {c : Cfg} {t t' : TState α} {r ret : Ret α} {e : Hook × List (Option α)}
    (h : pipelineNext c t r = .out t' e ret) (hn : NoWait t.stage) : NoWait t'.stage := by
  unfold pipelineNext at h
  cases hst : t.stage with
  | setup req q =>
    rw [hst] at h hn
    simp only [NoWait] at hn
    subst hn
    cases r <;> simp [afterOther, TState.advance, hst, Stage.advance] at h <;>
      (obtain ⟨rfl, -, -⟩ := h; trivial)
  | next q =>
    rw [hst] at h
    simp only at h
    split at h
    · simp at h
    · cases r <;> simp only [afterNext, NextRes.out.injEq, reduceCtorEq] at h <;>
        obtain ⟨rfl, -, -⟩ := h <;> simp only [NoWait] <;> split <;> simp_all [NoWait] <;> (split at * <;> simp_all)
  | finish o =>
    rw [hst] at h hn
    cases o with
    | some q => exact hn.elim
    | none =>
      cases r <;> simp [afterOther, TState.advance, hst, Stage.advance] at h <;>
        (obtain ⟨rfl, -, -⟩ := h; trivial)
  | raised o => rw [hst] at h; simp at h

theorem noWait_missing {c : Cfg} {t : TState α} {r : Ret α}
    (h : pipelineNext c t r = .missing) (hn : NoWait t.stage) : NoWait t.advance.stage := by
  unfold pipelineNext at h
  cases hst : t.stage with
  | setup req q =>
    rw [hst] at h hn
    simp only [NoWait] at hn
    subst hn
    cases r <;> simp [afterOther] at h
  | next q => simp [TState.advance, hst, Stage.advance, NoWait]
  | finish o =>
    rw [hst] at h
    cases r <;> simp [afterOther] at h
  | raised o => rw [hst] at h; simp at h

theorem run_slotOk (keyOk : Key → Bool) {cfgs : List Cfg} (hwf : WellFormed cfgs) (ρ : Nat → Ret α) (n : Nat)
    (hok : (run keyOk cfgs ρ n).status ≠ .failed) :
    (∀ (i : Nat) (s : Slot α), (run keyOk cfgs ρ n).tasks[i]? = some s → SlotOk (run keyOk cfgs ρ n).log i s) ∧
    ∀ e ∈ (run keyOk cfgs ρ n).log, e.ret ≠ .error := by
  induction n with
  | zero =>
    refine ⟨?_, by simp [run, State.init]⟩
    intro i s hs hr
    simp only [run, State.init, List.getElem?_map] at hs
    obtain ⟨c, _, rfl⟩ := Option.map_eq_some_iff.1 hs
    simp only at hr
    simp [TState.init, NoWait, hr]
  | succ n ih =>
    simp only [run] at hok ⊢
    by_cases hrun : (run keyOk cfgs ρ n).status = .running
    rotate_left
    · rw [step_stopped hrun] at hok ⊢
      exact ih hok
    have hg := run_inv keyOk hwf ρ n (by rw [hrun]; simp)
    obtain ⟨ih1, ih2⟩ := ih (by rw [hrun]; simp)
    generalize run keyOk cfgs ρ n = s at *
    generalize ρ n = r at *
    unfold step at hok ⊢
    rw [hrun] at hok ⊢
    simp only at hok ⊢
    cases hn : nextTask s with
    | none => exact ⟨ih1, ih2⟩
    | some i =>
      rw [hn] at hok
      simp only at hok ⊢
      have hni := nextTask_some hn hg.head
      have hlive : live s.tasks i = true := by
        rcases hni with a | ⟨-, a⟩
        · obtain ⟨c, t, e, _⟩ := avail_live a
          exact (live_iff _ _).2 ⟨c, t, e⟩
        · exact a
      obtain ⟨c, t, hct⟩ := (live_iff _ _).1 hlive
      rw [hct] at hok ⊢
      simp only at hok ⊢
      cases hp : pipelineNext c t r with
      | missing =>
        rw [hp] at hok
        simp only [handle] at hok ⊢
        by_cases hih : i = s.head
        · rw [if_pos hih]
          refine ⟨?_, ih2⟩
          intro k sk hk
          rcases setTask_get hct k sk hk with ⟨rfl, rfl⟩ | ⟨hne, hk'⟩
          · intro hr
            exact noWait_missing hp (ih1 k _ hct hr)
          · exact ih1 k sk hk'
        · rw [if_neg hih]
          exact ⟨ih1, ih2⟩
      | finished =>
        rw [hp] at hok
        simp only [handle] at hok ⊢
        refine ⟨?_, ih2⟩
        intro k sk hk
        rcases setTask_get hct k sk hk with ⟨rfl, rfl⟩ | ⟨hne, hk'⟩
        · intro hr
          have h1 := ih1 k _ hct hr
          simp only at h1 ⊢
          have h2 := (hg.slots k _ hct).hooks
          unfold pipelineNext at hp
          cases hst : t.stage with
          | setup req q =>
            rw [hst] at hp
            simp only at hp
            split at hp
            · cases r <;> simp [afterOther] at hp
            · simp at hp
          | next q =>
            rw [hst] at hp
            simp only at hp
            split at hp
            · simp at hp
            · cases r <;> simp [afterNext] at hp
          | finish o => rw [hst] at hp; cases r <;> simp [afterOther] at hp
          | raised o =>
            rw [hst] at h1
            cases o with
            | some q => exact h1.elim
            | none =>
              simp only [Option.map_some, hst, HookInv] at h2
              obtain ⟨m, h2⟩ := h2
              rw [h2]
              simp
        · exact ih1 k sk hk'
      | failed e =>
        rw [hp] at hok
        simp [handle] at hok
      | out t' e ret =>
        rw [hp] at hok
        simp only [handle] at hok ⊢
        cases hco : checkOutput c ret with
        | none => rw [hco] at hok; simp at hok
        | some outs =>
          rw [hco] at hok
          simp only at hok ⊢
          cases hqa : queueAll keyOk outs (setTask s.tasks i c (some t')) with
          | none => rw [hqa] at hok; simp at hok
          | some ts =>
            simp only
            refine ⟨?_, ?_⟩
            · refine slotOk_queueAll outs _ ts hqa ?_
              intro k sk hk
              rcases setTask_get hct k sk hk with ⟨rfl, rfl⟩ | ⟨hne, hk'⟩
              · intro hr
                exact noWait_next hp (ih1 k _ hct hr)
              · exact slotOk_log _ (ih1 k sk hk')
            · intro x hx
              rcases List.mem_append.1 hx with hx | hx
              · exact ih2 x hx
              · obtain rfl := List.mem_singleton.1 hx
                simp only
                unfold pipelineNext at hp
                cases hst : t.stage with
                | setup req q =>
                  rw [hst] at hp
                  simp only at hp
                  split at hp
                  · cases r <;> simp [afterOther] at hp <;> simp [← hp.2.2]
                  · simp at hp
                | next q =>
                  rw [hst] at hp
                  simp only at hp
                  split at hp
                  · simp at hp
                  · cases r <;> simp [afterNext] at hp <;> simp [← hp.2.2]
                | finish o => rw [hst] at hp; cases r <;> simp [afterOther] at hp <;> simp [← hp.2.2]
                | raised o => rw [hst] at hp; simp at hp

/-- A task without `requires` has been set up in every run that ended. -/
theorem set_up (keyOk : Key → Bool) {cfgs : List Cfg} (hwf : WellFormed cfgs) (ρ : Nat → Ret α) (n : Nat)
    (hdone : (run keyOk cfgs ρ n).status = .done) (i : Nat) (c : Cfg) (hc : cfgs[i]? = some c)
    (hr : c.reqKeys = []) : Hook.setup ∈ hooksOf i (run keyOk cfgs ρ n).log := by
  have hg := run_inv keyOk hwf ρ n (by rw [hdone]; simp)
  obtain ⟨st, hs⟩ := slot_exists hg hc
  have hl := done_not_live keyOk hwf ρ n hdone i
  cases st with
  | some t =>
    rw [(live_iff _ _).2 ⟨_, t, hs⟩] at hl
    simp at hl
  | none => exact (run_slotOk keyOk hwf ρ n (by rw [hdone]; simp)).1 i _ hs hr

/-- A source without a limit has asked to stop in every run that ended. -/
theorem source_stopped (keyOk : Key → Bool) {cfgs : List Cfg} (hwf : WellFormed cfgs) (ρ : Nat → Ret α) (n : Nat)
    (hdone : (run keyOk cfgs ρ n).status = .done) (i : Nat) (c : Cfg) (hc : cfgs[i]? = some c)
    (hr : c.reqKeys = []) (hin : c.inKeys = []) (hlim : c.limit = none) :
    askedToStop i (run keyOk cfgs ρ n).log := by
  have hg := run_inv keyOk hwf ρ n (by rw [hdone]; simp)
  have hset := set_up keyOk hwf ρ n hdone i c hc hr
  obtain ⟨st, hs⟩ := slot_exists hg hc
  have hl := done_not_live keyOk hwf ρ n hdone i
  cases st with
  | some t =>
    rw [(live_iff _ _).2 ⟨_, t, hs⟩] at hl
    simp at hl
  | none =>
    rcases (hg.slots i _ hs).why trivial hset with w | ⟨l, w, -⟩ | ⟨-, j, k, w2, w3⟩
    · exact w
    · simp only at w; rw [hlim] at w; simp at w
    · simp only at w2; rw [hin] at w2; simp at w2

end Verif.Pipe
