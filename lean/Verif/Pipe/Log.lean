import Verif.Pipe.Term

/-! # Helper lemmas for C20 - C24: what one round adds to the log -/
namespace Verif.Pipe
variable {α : Type}

/-- A round adds nothing to the log, or the call of a hook of a task that was able to make it. -/
theorem step_log {keyOk : Key → Bool} {cfgs : List Cfg} {A : Key → List (Option α)} {s : State α}
    (hrun : s.status = .running) (h : GInv cfgs A s.tasks s.head s.log) (r : Ret α) :
    (step keyOk s r).log = s.log ∨ ∃ (i : Nat) (c : Cfg) (t : TState α)
      (e : Hook × List (Option α)) (ret : Ret α) (t' : TState α) (ret' : Ret α) (r' : Ret α),
      s.tasks[i]? = some ⟨c, some t⟩ ∧ (step keyOk s r).log = s.log ++ [⟨i, e.1, e.2, ret⟩] ∧
      pipelineNext c t r' = .out t' e ret' ∧ (ret = ret' ∨ ret = .error) := by
  unfold step
  rw [hrun]
  simp only
  cases hn : nextTask s with
  | none => exact Or.inl rfl
  | some i =>
    simp only
    have hni := nextTask_some hn h.head
    have hlive : live s.tasks i = true := by
      rcases hni with a | ⟨-, a⟩
      · obtain ⟨c, t, e, _⟩ := avail_live a
        exact (live_iff _ _).2 ⟨c, t, e⟩
      · exact a
    obtain ⟨c, t, hct⟩ := (live_iff _ _).1 hlive
    rw [hct]
    simp only
    cases hp : pipelineNext c t r with
    | missing =>
      simp only [handle]
      split <;> exact Or.inl rfl
    | finished => exact Or.inl rfl
    | failed e =>
      right
      have : ∃ t', pipelineNext c t .none = .out t' e .none := by
        unfold pipelineNext at hp ⊢
        split at hp
        · split at hp
          · rename_i hall
            rw [if_pos hall]
            cases r <;> simp only [afterOther, NextRes.failed.injEq, reduceCtorEq] at hp
            · subst hp; exact ⟨_, rfl⟩
            · subst hp; exact ⟨_, rfl⟩
          · simp at hp
        · split at hp
          · simp at hp
          · cases r <;> simp only [afterNext, NextRes.failed.injEq, reduceCtorEq] at hp
            subst hp; exact ⟨_, rfl⟩
        · cases r <;> simp only [afterOther, NextRes.failed.injEq, reduceCtorEq] at hp
          · subst hp; exact ⟨_, rfl⟩
          · subst hp; exact ⟨_, rfl⟩
        · simp at hp
      obtain ⟨t', ht'⟩ := this
      exact ⟨i, c, t, e, .error, t', .none, .none, hct, rfl, ht', Or.inr rfl⟩
    | out t' e ret =>
      right
      refine ⟨i, c, t, e, ret, t', ret, r, hct, ?_, hp, Or.inl rfl⟩
      simp only [handle]
      cases hco : checkOutput c ret with
      | none => rfl
      | some outs =>
        simp only
        cases hqa : queueAll keyOk outs (setTask s.tasks i c (some t')) with
        | none => rfl
        | some ts => rfl

theorem hookInv_lifecycle {g : Option (Stage α)} {l : List Hook} (h : HookInv g l) : Lifecycle l := by
  match g, h with
  | some (.setup _ _), h => exact (show l = [] from h) ▸ .nothing
  | some (.next _), ⟨n, h⟩ => exact h ▸ .going n
  | some (.finish (some _)), h => exact (show l = [] from h) ▸ .nothing
  | some (.finish none), ⟨n, h⟩ => exact h ▸ .going n
  | some (.raised (some _)), h => exact (show l = [.finish] from h) ▸ .skipped
  | some (.raised none), ⟨n, h⟩ => exact h ▸ .complete n
  | none, .inl h => exact h ▸ .skipped
  | none, .inr ⟨n, h⟩ => exact h ▸ .complete n

theorem hooksOf_ret {i j : Nat} {h : Hook} {a : List (Option α)} {r r' : Ret α}
    {log : List (Event α)} : hooksOf i (log ++ [⟨j, h, a, r⟩]) = hooksOf i (log ++ [⟨j, h, a, r'⟩]) := by
  by_cases hij : j = i
  · subst hij; rw [hooksOf_call, hooksOf_call]
  · rw [hooksOf_other (e := ⟨j, h, a, r⟩) hij, hooksOf_other (e := ⟨j, h, a, r'⟩) hij]

theorem received_ret {i j k : Nat} {h : Hook} {a : List (Option α)} {r r' : Ret α}
    {log : List (Event α)} :
    received i k (log ++ [⟨j, h, a, r⟩]) = received i k (log ++ [⟨j, h, a, r'⟩]) := by
  unfold received
  by_cases hij : j = i <;> by_cases hh : h = .next <;> simp [List.filter_append, List.filterMap_cons, hij, hh]

theorem emissions_error {i j : Nat} {h : Hook} {a : List (Option α)} {log : List (Event α)} :
    emissions i (log ++ [⟨j, h, a, .error⟩]) = emissions i log :=
  emissions_other (Or.inr (Or.inr rfl))

/-- Facts about the slot of an index: it exists exactly for the tasks of the list. -/
theorem slot_exists {cfgs : List Cfg} {A : Key → List (Option α)} {ts : List (Slot α)} {head : Nat}
    {log : List (Event α)} (h : GInv cfgs A ts head log) {i : Nat} {c : Cfg}
    (hi : cfgs[i]? = some c) : ∃ st, ts[i]? = some ⟨c, st⟩ := by
  rw [← h.same, List.getElem?_map, Option.map_eq_some_iff] at hi
  obtain ⟨s, hs, rfl⟩ := hi
  exact ⟨s.st, hs⟩

/-- Nothing happens to the log outside of the task list. -/
theorem hooksOf_outside (keyOk : Key → Bool) {cfgs : List Cfg} (hwf : WellFormed cfgs)
    (ρ : Nat → Ret α) (n : Nat) : ∀ e ∈ (run keyOk cfgs ρ n).log, e.task < cfgs.length := by
  induction n with
  | zero => simp [run, State.init]
  | succ n ih =>
    simp only [run]
    by_cases hr : (run keyOk cfgs ρ n).status = .running
    · have hg := run_inv keyOk hwf ρ n (by rw [hr]; simp)
      rcases step_log (keyOk := keyOk) hr hg (ρ n) with h | ⟨i, c, t, e, ret, t', ret', r', h1, h2, -⟩
      · rw [h]; exact ih
      · rw [h2]
        intro x hx
        rcases List.mem_append.1 hx with a | a
        · exact ih x a
        · rw [List.mem_singleton] at a
          subst a
          have := getElem?_lt h1
          rw [← hg.same, List.length_map]
          exact this
    · rw [step_stopped hr]; exact ih

theorem run_stays (keyOk : Key → Bool) (cfgs : List Cfg) (ρ : Nat → Ret α) (n : Nat)
    (h : (run keyOk cfgs ρ n).status ≠ .running) (m : Nat) (hm : n ≤ m) :
    run keyOk cfgs ρ m = run keyOk cfgs ρ n := by
  induction m with
  | zero =>
    have : n = 0 := by omega
    rw [this]
  | succ m ih =>
    by_cases hnm : n = m + 1
    · rw [hnm]
    · simp only [run]
      rw [ih (by omega), step_stopped h]

theorem run_running (keyOk : Key → Bool) (cfgs : List Cfg) (ρ : Nat → Ret α) (n : Nat)
    (h : (run keyOk cfgs ρ (n + 1)).status = .running) : (run keyOk cfgs ρ n).status = .running := by
  by_cases hr : (run keyOk cfgs ρ n).status = .running
  · exact hr
  · rw [run, step_stopped hr] at h
    exact h

/-- At the normal end no task is left. -/
theorem done_not_live (keyOk : Key → Bool) {cfgs : List Cfg} (hwf : WellFormed cfgs)
    (ρ : Nat → Ret α) (n : Nat) (h : (run keyOk cfgs ρ n).status = .done) (i : Nat) :
    live (run keyOk cfgs ρ n).tasks i = false := by
  induction n with
  | zero => simp [run, State.init] at h
  | succ n ih =>
    by_cases hr : (run keyOk cfgs ρ n).status = .running
    · have hg := run_inv keyOk hwf ρ n (by rw [hr]; simp)
      simp only [run] at h ⊢
      unfold step at h ⊢
      rw [hr] at h ⊢
      simp only at h ⊢
      cases hn : nextTask (run keyOk cfgs ρ n) with
      | none =>
        simp only
        unfold nextTask at hn
        split at hn
        · rw [List.find?_eq_none] at hn
          have : live (run keyOk cfgs ρ n).tasks (run keyOk cfgs ρ n).head = false := by
            by_cases hlt : (run keyOk cfgs ρ n).head < (run keyOk cfgs ρ n).tasks.length
            · have hm : (run keyOk cfgs ρ n).head ∈
                  cyclic (run keyOk cfgs ρ n).tasks.length (run keyOk cfgs ρ n).head := by
                unfold cyclic
                rw [List.mem_map]
                exact ⟨0, List.mem_range.2 (by omega), by
                  rw [Nat.zero_add, Nat.mod_eq_of_lt hlt]⟩
              simpa using hn _ hm
            · unfold live
              rw [List.getElem?_eq_none (by omega)]
          cases hl : live (run keyOk cfgs ρ n).tasks i with
          | false => rfl
          | true =>
            have := hg.head.2 ⟨i, hl⟩
            simp_all
        · simp at hn
      | some k =>
        rw [hn] at h
        simp only at h
        exfalso
        split at h
        · rename_i c t hct
          cases hp : pipelineNext c t (ρ n) with
          | missing =>
            rw [hp] at h
            simp only [handle] at h
            split at h <;> simp [hr] at h
          | finished => rw [hp] at h; simp [handle, hr] at h
          | failed e => rw [hp] at h; simp [handle] at h
          | out t' e ret =>
            rw [hp] at h
            simp only [handle] at h
            split at h
            · simp at h
            · split at h
              · simp at h
              · simp [hr] at h
        · simp at h
    · rw [run, step_stopped hr] at h ⊢
      exact ih h

end Verif.Pipe
