import Verif.Pipe.Inter
import Verif.Pipe.Log
import Verif.Pipe.Term

/-! # Lemmas for C113 -/
namespace Verif.Pipe
variable {α : Type}

theorem handle_idx (keyOk : Key → Bool) (s : State α) (i : Nat) (c : Cfg) (t : TState α)
    (x : NextRes α) : handle keyOk { s with idx := i } i c t x = handle keyOk s i c t x := by
  cases x <;> rfl

/-- The task that is selected is in the list. -/
theorem nextTask_live {s : State α} {i : Nat} (h : nextTask s = some i) : live s.tasks i = true := by
  unfold nextTask at h
  split at h
  · exact List.find?_some h
  · rename_i j js he
    have hm := best_mem s.tasks j js
    rw [← he] at hm
    obtain rfl := Option.some.inj h
    obtain ⟨c, t, e, _⟩ := avail_live (List.mem_filter.1 hm).2
    exact (live_iff _ _).2 ⟨c, t, e⟩

/-- At the end nothing in the list is left. -/
theorem nextTask_none_live {s : State α} {i : Nat} (h : nextTask s = none) (hi : i < s.tasks.length) :
    live s.tasks i = false := by
  unfold nextTask at h
  split at h
  · rw [List.find?_eq_none] at h
    have hm : i ∈ cyclic s.tasks.length s.head := by
      unfold cyclic
      rw [List.mem_map]
      refine ⟨(i + (s.tasks.length - s.head % s.tasks.length)) % s.tasks.length,
        List.mem_range.2 (Nat.mod_lt _ (by omega)), ?_⟩
      have hlt := Nat.mod_lt s.head (show s.tasks.length > 0 by omega)
      have e : i + (s.tasks.length - s.head % s.tasks.length) + s.head % s.tasks.length =
          i + s.tasks.length := by omega
      rw [Nat.mod_add_mod, ← Nat.add_mod_mod, e, Nat.add_mod_right, Nat.mod_eq_of_lt hi]
    have := h i hm
    simpa using this
  · simp at h

theorem exec_step {keyOk : Key → Bool} {s : State α} {i : Nat} (hr : s.status = .running)
    (h : nextTask s = some i) (r : Ret α) : exec keyOk { s with idx := i } r = step keyOk s r := by
  obtain ⟨c, t, hct⟩ := (live_iff _ _).1 (nextTask_live h)
  have h1 : exec keyOk { s with idx := i } r =
      handle keyOk { s with idx := i } i c t (pipelineNext c t r) := by
    unfold exec
    simp only
    rw [hct]
  have h2 : step keyOk s r = handle keyOk s i c t (pipelineNext c t r) := by
    unfold step
    rw [hr, h]
    simp only
    rw [hct]
  rw [h1, h2, handle_idx]

/-- What one round does to the log and to the status. -/
theorem handle_log (keyOk : Key → Bool) (s : State α) (i : Nat) (c : Cfg) (t : TState α)
    (x : NextRes α) : ((handle keyOk s i c t x).log = s.log ∨
      ∃ e : Event α, e.task = i ∧ (handle keyOk s i c t x).log = s.log ++ [e]) ∧
    ((handle keyOk s i c t x).status = s.status ∨ (handle keyOk s i c t x).status = .failed) := by
  cases x with
  | missing => unfold handle; simp only; split <;> simp
  | finished => simp [handle]
  | failed e => exact ⟨Or.inr ⟨⟨i, e.1, e.2, .error⟩, rfl, rfl⟩, Or.inr rfl⟩
  | out t' e ret =>
    unfold handle
    simp only
    split
    · exact ⟨Or.inr ⟨⟨i, e.1, e.2, ret⟩, rfl, rfl⟩, Or.inr rfl⟩
    · split
      · exact ⟨Or.inr ⟨⟨i, e.1, e.2, ret⟩, rfl, rfl⟩, Or.inr rfl⟩
      · exact ⟨Or.inr ⟨⟨i, e.1, e.2, ret⟩, rfl, rfl⟩, Or.inl rfl⟩

theorem step_some {keyOk : Key → Bool} {s : State α} {i : Nat} (hr : s.status = .running)
    (h : nextTask s = some i) (r : Ret α) :
    ((step keyOk s r).log = s.log ∨ ∃ e : Event α, e.task = i ∧ (step keyOk s r).log = s.log ++ [e]) ∧
    ((step keyOk s r).status = .running ∨ (step keyOk s r).status = .failed) := by
  unfold step
  rw [hr, h]
  simp only
  split
  · rename_i c t heq
    have := handle_log keyOk s i c t (pipelineNext c t r)
    rwa [hr] at this
  · simp

theorem step_none {keyOk : Key → Bool} {s : State α} (hr : s.status = .running)
    (h : nextTask s = none) (r : Ret α) : step keyOk s r = { s with status := .done } := by
  unfold step
  rw [hr, h]

theorem runFrom_stays (keyOk : Key → Bool) (s : State α) (ρ : Nat → Ret α) (n : Nat)
    (h : (runFrom keyOk s ρ n).status ≠ .running) (m : Nat) (hm : n ≤ m) :
    runFrom keyOk s ρ m = runFrom keyOk s ρ n := by
  induction m with
  | zero =>
    have : n = 0 := by omega
    rw [this]
  | succ m ih =>
    by_cases hmn : n = m + 1
    · rw [hmn]
    · have := ih (by omega)
      rw [runFrom, this, step_stopped h]

theorem runFrom_running (keyOk : Key → Bool) (s : State α) (ρ : Nat → Ret α) (n : Nat)
    (h : (runFrom keyOk s ρ (n + 1)).status = .running) : (runFrom keyOk s ρ n).status = .running := by
  by_cases hr : (runFrom keyOk s ρ n).status = .running
  · exact hr
  · rw [runFrom, step_stopped hr] at h
    exact h

theorem runFrom_init (keyOk : Key → Bool) (cfgs : List Cfg) (ρ : Nat → Ret α) (n : Nat) :
    runFrom keyOk (State.init cfgs) ρ n = run keyOk cfgs ρ n := by
  induction n with
  | zero => rfl
  | succ n ih => rw [runFrom, run, ih]

/-- What a call of `next` that came back tells about the run without interactive mode. -/
structure Back (keyOk : Key → Bool) (s0 : State α) (ρ : Nat → Ret α) (y : Yield) (σ : Sess α) : Prop where
  frozen : y = .frozen → σ.gen = .frozen ∧ (runFrom keyOk s0 ρ σ.round).status = .running ∧
    nextTask (runFrom keyOk s0 ρ σ.round) = some σ.state.idx ∧
    σ.state = { runFrom keyOk s0 ρ σ.round with idx := σ.state.idx }
  stopped : y = .stopped → σ.gen = .closed ∧ (runFrom keyOk s0 ρ σ.round).status = .running ∧
    nextTask (runFrom keyOk s0 ρ σ.round) = none ∧
    σ.state = { runFrom keyOk s0 ρ σ.round with
      idx := (runFrom keyOk s0 ρ σ.round).head, status := .done }
  raised : y = .raised → σ.gen = .closed ∧ (runFrom keyOk s0 ρ σ.round).status = .failed ∧
    σ.state = runFrom keyOk s0 ρ σ.round

theorem goOn_spec {keyOk : Key → Bool} {inter : Nat → Bool} {s0 : State α} {ρ : Nat → Ret α} :
    ∀ (fuel n : Nat) (y : Yield) (σ : Sess α), (runFrom keyOk s0 ρ n).status = .running →
      goOn keyOk inter ρ fuel n (runFrom keyOk s0 ρ n) = some (y, σ) →
      n ≤ σ.round ∧ Back keyOk s0 ρ y σ := by
  intro fuel
  induction fuel with
  | zero => intro n y σ _ h; simp [goOn] at h
  | succ fuel ih =>
    intro n y σ hr h
    rw [goOn] at h
    cases hn : nextTask (runFrom keyOk s0 ρ n) with
    | none =>
      rw [hn] at h
      simp only [Option.some.injEq, Prod.mk.injEq] at h
      obtain ⟨rfl, rfl⟩ := h
      exact ⟨Nat.le_refl _, fun h => (by cases h), fun _ => ⟨rfl, hr, hn, rfl⟩, fun h => (by cases h)⟩
    | some i =>
      rw [hn] at h
      simp only at h
      split at h
      · simp only [Option.some.injEq, Prod.mk.injEq] at h
        obtain ⟨rfl, rfl⟩ := h
        exact ⟨Nat.le_refl _, fun _ => ⟨rfl, hr, hn, rfl⟩, fun h => (by cases h), fun h => (by cases h)⟩
      · rw [exec_step hr hn, ← runFrom] at h
        split at h
        · rename_i hf
          simp only [Option.some.injEq, Prod.mk.injEq] at h
          obtain ⟨rfl, rfl⟩ := h
          exact ⟨Nat.le_succ _, fun h => (by cases h), fun h => (by cases h), fun _ => ⟨rfl, hf, rfl⟩⟩
        · rename_i hf
          have hr' : (runFrom keyOk s0 ρ (n + 1)).status = .running := by
            rcases (step_some hr hn (ρ n) (keyOk := keyOk)).2 with a | a
            · exact a
            · exact absurd a hf
          have := ih (n + 1) y σ hr' h
          exact ⟨by omega, this.2⟩

theorem goOn_total {keyOk : Key → Bool} {inter : Nat → Bool} {s0 : State α} {ρ : Nat → Ret α} {N : Nat}
    (hN : (runFrom keyOk s0 ρ N).status ≠ .running) :
    ∀ (fuel n : Nat), (runFrom keyOk s0 ρ n).status = .running → N < n + fuel →
      (goOn keyOk inter ρ fuel n (runFrom keyOk s0 ρ n)).isSome = true := by
  intro fuel
  induction fuel with
  | zero =>
    intro n hr h
    have := runFrom_stays keyOk s0 ρ N hN n (by omega)
    rw [this] at hr
    exact absurd hr hN
  | succ fuel ih =>
    intro n hr h
    rw [goOn]
    cases hn : nextTask (runFrom keyOk s0 ρ n) with
    | none => rfl
    | some i =>
      simp only
      split
      · rfl
      · rw [exec_step hr hn, ← runFrom]
        split
        · rfl
        · rename_i hf
          have hr' : (runFrom keyOk s0 ρ (n + 1)).status = .running := by
            rcases (step_some hr hn (ρ n) (keyOk := keyOk)).2 with a | a
            · exact a
            · exact absurd a hf
          exact ih (n + 1) hr' (by omega)

/-- A frozen runner goes on. -/
theorem genNext_frozen {keyOk : Key → Bool} {inter : Nat → Bool} {s0 : State α} {ρ : Nat → Ret α}
    {σ : Sess α} (hb : Back keyOk s0 ρ .frozen σ) (fuel : Nat) :
    genNext keyOk inter ρ fuel σ =
      if (runFrom keyOk s0 ρ (σ.round + 1)).status = .failed then
        some (.raised, ⟨runFrom keyOk s0 ρ (σ.round + 1), .closed, σ.round + 1⟩)
      else goOn keyOk inter ρ fuel (σ.round + 1) (runFrom keyOk s0 ρ (σ.round + 1)) := by
  obtain ⟨hg, hr, hn, hs⟩ := hb.frozen rfl
  unfold genNext
  rw [hg]
  simp only
  rw [hs, exec_step hr hn]
  rfl

theorem frozen_next {keyOk : Key → Bool} {s0 : State α} {ρ : Nat → Ret α} {σ : Sess α}
    (hb : Back keyOk s0 ρ .frozen σ) :
    (runFrom keyOk s0 ρ (σ.round + 1)).status = .running ∨
      (runFrom keyOk s0 ρ (σ.round + 1)).status = .failed := by
  obtain ⟨_, hr, hn, _⟩ := hb.frozen rfl
  exact (step_some hr hn (ρ σ.round) (keyOk := keyOk)).2

theorem genNext_spec {keyOk : Key → Bool} {inter : Nat → Bool} {s0 : State α} {ρ : Nat → Ret α}
    {σ σ' : Sess α} {fuel : Nat} {y : Yield} (hb : Back keyOk s0 ρ .frozen σ)
    (h : genNext keyOk inter ρ fuel σ = some (y, σ')) :
    σ.round < σ'.round ∧ Back keyOk s0 ρ y σ' := by
  rw [genNext_frozen hb] at h
  split at h
  · rename_i hf
    simp only [Option.some.injEq, Prod.mk.injEq] at h
    obtain ⟨rfl, rfl⟩ := h
    exact ⟨Nat.lt_succ_self _, fun h => (by cases h), fun h => (by cases h), fun _ => ⟨rfl, hf, rfl⟩⟩
  · rename_i hf
    have hr' := (frozen_next hb).resolve_right hf
    have := goOn_spec fuel _ y σ' hr' h
    exact ⟨by omega, this.2⟩

theorem genNext_total {keyOk : Key → Bool} {inter : Nat → Bool} {s0 : State α} {ρ : Nat → Ret α} {N : Nat}
    (hN : (runFrom keyOk s0 ρ N).status ≠ .running)
    {σ : Sess α} {fuel : Nat} (hb : Back keyOk s0 ρ .frozen σ) (hf : N < σ.round + 1 + fuel) :
    (genNext keyOk inter ρ fuel σ).isSome = true := by
  rw [genNext_frozen hb]
  split
  · rfl
  · rename_i hf'
    exact goOn_total hN fuel _ ((frozen_next hb).resolve_right hf') hf

theorem drain_spec {keyOk : Key → Bool} {inter : Nat → Bool} {s0 : State α} {ρ : Nat → Ret α} {fuel : Nat} :
    ∀ (calls : Nat) (σ σ' : Sess α) (y : Yield), Back keyOk s0 ρ .frozen σ →
      drain keyOk inter ρ fuel calls σ = some (y, σ') → Back keyOk s0 ρ y σ' ∧ y ≠ .frozen := by
  intro calls
  induction calls with
  | zero => intro σ σ' y _ h; simp [drain] at h
  | succ calls ih =>
    intro σ σ' y hb h
    rw [drain] at h
    cases hg : genNext keyOk inter ρ fuel σ with
    | none => rw [hg] at h; simp at h
    | some p =>
      obtain ⟨y1, σ1⟩ := p
      have h1 := (genNext_spec hb hg).2
      rw [hg] at h
      cases y1 with
      | frozen => exact ih σ1 σ' y h1 h
      | stopped =>
        simp only [Option.some.injEq, Prod.mk.injEq] at h
        obtain ⟨rfl, rfl⟩ := h
        exact ⟨h1, fun h => (by cases h)⟩
      | raised =>
        simp only [Option.some.injEq, Prod.mk.injEq] at h
        obtain ⟨rfl, rfl⟩ := h
        exact ⟨h1, fun h => (by cases h)⟩

theorem drain_total {keyOk : Key → Bool} {inter : Nat → Bool} {s0 : State α} {ρ : Nat → Ret α} {N fuel : Nat}
    (hN : (runFrom keyOk s0 ρ N).status ≠ .running) (hf : N ≤ fuel) :
    ∀ (calls : Nat) (σ : Sess α), Back keyOk s0 ρ .frozen σ → N < σ.round + calls →
      (drain keyOk inter ρ fuel calls σ).isSome = true := by
  intro calls
  induction calls with
  | zero =>
    intro σ hb h
    have hr := (hb.frozen rfl).2.1
    rw [runFrom_stays keyOk s0 ρ N hN σ.round (by omega)] at hr
    exact absurd hr hN
  | succ calls ih =>
    intro σ hb h
    rw [drain]
    have ht := genNext_total (inter := inter) hN hb (fuel := fuel) (by omega)
    cases hg : genNext keyOk inter ρ fuel σ with
    | none => rw [hg] at ht; simp at ht
    | some p =>
      obtain ⟨y1, σ1⟩ := p
      have h1 := genNext_spec hb hg
      cases y1 with
      | frozen => exact ih σ1 h1.2 (by omega)
      | stopped => rfl
      | raised => rfl

/-- The first call of `next`, on a new runner. -/
theorem genNext_fresh {keyOk : Key → Bool} {inter : Nat → Bool} {s : State α} {ρ : Nat → Ret α}
    {fuel : Nat} {σ : Sess α} {y : Yield}
    (h : genNext keyOk inter ρ fuel ⟨s, .fresh, 0⟩ = some (y, σ)) : Back keyOk (restart s) ρ y σ :=
  (goOn_spec (s0 := restart s) fuel 0 y σ rfl h).2

theorem runAll_spec {keyOk : Key → Bool} {inter : Nat → Bool} {s : State α} {ρ : Nat → Ret α}
    {fuel : Nat} {σ : Sess α} {y : Yield}
    (h : runAll keyOk inter ρ fuel s = some (y, σ)) : Back keyOk (restart s) ρ y σ ∧ y ≠ .frozen := by
  unfold runAll at h
  cases fuel with
  | zero => simp [drain] at h
  | succ n =>
    rw [drain] at h
    cases hg : genNext keyOk inter ρ (n + 1) ⟨s, .fresh, 0⟩ with
    | none => rw [hg] at h; simp at h
    | some p =>
      obtain ⟨y1, σ1⟩ := p
      have h1 := genNext_fresh hg
      rw [hg] at h
      cases y1 with
      | frozen => exact drain_spec n σ1 σ y h1 h
      | stopped =>
        simp only [Option.some.injEq, Prod.mk.injEq] at h
        obtain ⟨rfl, rfl⟩ := h
        exact ⟨h1, fun h => (by cases h)⟩
      | raised =>
        simp only [Option.some.injEq, Prod.mk.injEq] at h
        obtain ⟨rfl, rfl⟩ := h
        exact ⟨h1, fun h => (by cases h)⟩

theorem runAll_total {keyOk : Key → Bool} {inter : Nat → Bool} {s : State α} {ρ : Nat → Ret α} {N fuel : Nat}
    (hN : (runFrom keyOk (restart s) ρ N).status ≠ .running) (hf : N + 2 ≤ fuel) :
    (runAll keyOk inter ρ fuel s).isSome = true := by
  unfold runAll
  cases fuel with
  | zero => omega
  | succ n =>
    rw [drain]
    have ht : (genNext keyOk inter ρ (n + 1) ⟨s, .fresh, 0⟩).isSome = true :=
      goOn_total (s0 := restart s) hN (n + 1) 0 rfl (by omega)
    cases hg : genNext keyOk inter ρ (n + 1) ⟨s, .fresh, 0⟩ with
    | none => rw [hg] at ht; simp at ht
    | some p =>
      obtain ⟨y1, σ1⟩ := p
      have h1 := genNext_fresh hg
      cases y1 with
      | frozen => exact drain_total hN (by omega) n σ1 h1 (by omega)
      | stopped => rfl
      | raised => rfl

/-- Any number of calls. -/
theorem genNexts_spec {keyOk : Key → Bool} {inter : Nat → Bool} {s0 : State α} {ρ : Nat → Ret α} :
    ∀ (fs : List Nat) (σ σ' : Sess α) (ys : List Yield),
      (Back keyOk s0 ρ .frozen σ ∧ genNexts keyOk inter ρ fs σ = some (ys, σ') →
        (Yield.raised ∉ ys ∧ Yield.stopped ∉ ys ∧ Back keyOk s0 ρ .frozen σ') ∨
        (Yield.raised ∉ ys ∧ Yield.stopped ∈ ys ∧ Back keyOk s0 ρ .stopped σ') ∨
        (Yield.raised ∈ ys ∧ Back keyOk s0 ρ .raised σ')) ∧
      (σ.gen = .closed ∧ genNexts keyOk inter ρ fs σ = some (ys, σ') →
        σ' = σ ∧ Yield.raised ∉ ys) := by
  intro fs
  induction fs with
  | nil =>
    intro σ σ' ys
    simp only [genNexts, Option.some.injEq, Prod.mk.injEq]
    constructor
    · rintro ⟨hb, rfl, rfl⟩
      exact Or.inl ⟨by simp, by simp, hb⟩
    · rintro ⟨_, rfl, rfl⟩
      exact ⟨rfl, by simp⟩
  | cons f fs ih =>
    intro σ σ' ys
    constructor
    · rintro ⟨hb, h⟩
      rw [genNexts] at h
      cases hg : genNext keyOk inter ρ f σ with
      | none => rw [hg] at h; simp at h
      | some p =>
        obtain ⟨y1, σ1⟩ := p
        have h1 := (genNext_spec hb hg).2
        rw [hg] at h
        simp only [Option.map_eq_some_iff] at h
        obtain ⟨⟨ys', σ2⟩, h2, h3⟩ := h
        simp only [Prod.mk.injEq] at h3
        obtain ⟨rfl, rfl⟩ := h3
        cases y1 with
        | frozen =>
          rcases (ih σ1 σ2 ys').1 ⟨h1, h2⟩ with ⟨a, b, c⟩ | ⟨a, b, c⟩ | ⟨a, c⟩
          · exact Or.inl ⟨by simp [a], by simp [b], c⟩
          · exact Or.inr (Or.inl ⟨by simp [a], by simp [b], c⟩)
          · exact Or.inr (Or.inr ⟨by simp [a], c⟩)
        | stopped =>
          obtain ⟨rfl, a⟩ := (ih σ1 σ2 ys').2 ⟨(h1.stopped rfl).1, h2⟩
          exact Or.inr (Or.inl ⟨by simp [a], by simp, h1⟩)
        | raised =>
          obtain ⟨rfl, a⟩ := (ih σ1 σ2 ys').2 ⟨(h1.raised rfl).1, h2⟩
          exact Or.inr (Or.inr ⟨by simp, h1⟩)
    · rintro ⟨hc, h⟩
      rw [genNexts] at h
      have hg : genNext keyOk inter ρ f σ = some (.stopped, σ) := by unfold genNext; rw [hc]
      rw [hg] at h
      simp only [Option.map_eq_some_iff] at h
      obtain ⟨⟨ys', σ2⟩, h2, h3⟩ := h
      simp only [Prod.mk.injEq] at h3
      obtain ⟨rfl, rfl⟩ := h3
      obtain ⟨rfl, a⟩ := (ih σ σ2 ys').2 ⟨hc, h2⟩
      exact ⟨rfl, by simp [a]⟩

end Verif.Pipe
