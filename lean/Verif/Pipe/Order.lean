import Verif.Pipe.Log
import Verif.Pipe.OrderSpec

/-! # Lemmas for C114 -/
namespace Verif.Pipe
variable {α : Type}

theorem ready_iff (g : Stage α) : g.available = true ↔ Ready g := by
  cases g with
  | setup req q =>
    simp only [Stage.available, Ready, List.all_eq_true]
    exact ⟨fun h r hr e => by simpa [e] using h r hr, fun h r hr => Option.isSome_iff_ne_none.2 (h r hr)⟩
  | next q => simp [Stage.available, Ready, allFilled]
  | finish q => simp [Stage.available, Ready]
  | raised q => simp [Stage.available, Ready]

theorem minSize_spec (l : List (Option α)) (ls : List (List (Option α))) :
    (∃ x ∈ l :: ls, x.length = minSize (l :: ls)) ∧ ∀ x ∈ l :: ls, minSize (l :: ls) ≤ x.length := by
  induction ls generalizing l with
  | nil => simp [minSize]
  | cons l' ls ih =>
    obtain ⟨⟨x, hx, hxe⟩, h2⟩ := ih l'
    have e : minSize (l :: l' :: ls) = min l.length (minSize (l' :: ls)) := rfl
    rw [e]
    constructor
    · rcases Nat.le_total l.length (minSize (l' :: ls)) with h | h
      · exact ⟨l, by simp, by omega⟩
      · exact ⟨x, List.mem_cons_of_mem _ hx, by omega⟩
    · intro y hy
      rcases List.mem_cons.1 hy with rfl | hy
      · omega
      · have := h2 y hy
        omega

theorem worth_eq {c : Cfg} {g : Stage α} {w : Int} (h : Worth c g w) (hr : Ready g) : priority c g = w := by
  cases h with
  | setup req q =>
    have h : req.all Option.isSome = true := (ready_iff _).2 hr
    show (if req.all Option.isSome = true then 1 else 0) + c.base = 1 + c.base
    rw [if_pos h]
  | next q times h1 h2 =>
    cases q with
    | nil => obtain ⟨l, hl, _⟩ := h1; simp at hl
    | cons l ls =>
      obtain ⟨⟨x, hx, hxe⟩, hall⟩ := minSize_spec l ls
      obtain ⟨y, hy, hye⟩ := h1
      have e : minSize (l :: ls) = times := by
        have := h2 x hx
        have := hall y hy
        omega
      simp only [priority, e]
  | finish q => rfl
  | raised q => rfl

/-- The chosen one is not behind any, and not later than an equal one. -/
theorem best_spec (ts : List (Slot α)) (cur : Nat) (js : List Nat) :
    ∃ A B, cur :: js = A ++ best ts cur js :: B ∧ (∀ x ∈ A, ahead (rank ts (best ts cur js)) (rank ts x) = true) ∧
      ∀ x ∈ B, ahead (rank ts x) (rank ts (best ts cur js)) = false := by
  have tr : ∀ a b c : Int × Int, ahead a b = true → ahead c b = false → ahead a c = true := by
    intro a b c h1 h2
    simp only [ahead, Bool.or_eq_true, Bool.and_eq_true, decide_eq_true_eq, Bool.or_eq_false_iff,
      Bool.and_eq_false_iff, decide_eq_false_iff_not] at h1 h2 ⊢
    omega
  have tt : ∀ a b c : Int × Int, ahead a b = true → ahead b c = true → ahead a c = true := by
    intro a b c h1 h2
    simp only [ahead, Bool.or_eq_true, Bool.and_eq_true, decide_eq_true_eq] at h1 h2 ⊢
    omega
  induction js generalizing cur with
  | nil => exact ⟨[], [], rfl, by simp, by simp⟩
  | cons j js ih =>
    by_cases h : ahead (rank ts j) (rank ts cur) = true
    · have e : best ts cur (j :: js) = best ts j js := by rw [best, if_pos h]
      rw [e]
      obtain ⟨A, B, h1, h2, h3⟩ := ih j
      refine ⟨cur :: A, B, by rw [h1]; rfl, ?_, h3⟩
      intro x hx
      rcases List.mem_cons.1 hx with rfl | hx
      · cases A with
        | nil =>
          simp only [List.nil_append, List.cons.injEq] at h1
          rw [← h1.1]; exact h
        | cons y A =>
          simp only [List.cons_append, List.cons.injEq] at h1
          have := h2 y (by simp)
          rw [← h1.1] at this
          exact tt _ _ _ this h
      · exact h2 x hx
    · have e : best ts cur (j :: js) = best ts cur js := by rw [best, if_neg h]
      rw [e]
      obtain ⟨A, B, h1, h2, h3⟩ := ih cur
      cases A with
      | nil =>
        simp only [List.nil_append, List.cons.injEq] at h1
        refine ⟨[], j :: B, by rw [← h1.1, ← h1.2]; rfl, by simp, ?_⟩
        intro x hx
        rcases List.mem_cons.1 hx with rfl | hx
        · rw [← h1.1]; exact Bool.eq_false_iff.2 h
        · exact h3 x hx
      | cons y A =>
        simp only [List.cons_append, List.cons.injEq] at h1
        refine ⟨cur :: j :: A, B, congrArg (fun l => cur :: j :: l) h1.2, ?_, h3⟩
        have hc : ahead (rank ts (best ts cur js)) (rank ts cur) = true := by
          have := h2 y (by simp)
          rwa [← h1.1] at this
        intro x hx
        rcases List.mem_cons.1 hx with rfl | hx
        · exact hc
        · rcases List.mem_cons.1 hx with rfl | hx
          · exact tr _ _ _ hc (Bool.eq_false_iff.2 h)
          · exact h2 x (List.mem_cons_of_mem _ hx)

theorem cyclic_sorted (n idx : Nat) (hi : idx < n) :
    (cyclic n idx).Pairwise fun a b => placesAfter n idx a < placesAfter n idx b := by
  unfold cyclic
  rw [List.pairwise_map]
  refine List.Pairwise.imp_of_mem ?_ List.pairwise_lt_range
  intro a b ha hb hab
  rw [List.mem_range] at ha hb
  have key : ∀ x, x < n → placesAfter n idx ((x + idx) % n) = x := by
    intro x hx
    unfold placesAfter
    by_cases h : x + idx < n
    · rw [Nat.mod_eq_of_lt h]
      have : x + idx + n - idx = x + n := by omega
      rw [this, Nat.add_mod_right, Nat.mod_eq_of_lt hx]
    · have : (x + idx) % n = x + idx - n := by
        rw [Nat.mod_eq_sub_mod (by omega), Nat.mod_eq_of_lt (by omega)]
      rw [this]
      have : x + idx - n + n - idx = x := by omega
      rw [this, Nat.mod_eq_of_lt hx]
  rw [key a ha, key b hb]
  exact hab

theorem mem_cyclic (n idx j : Nat) (hi : idx < n) (hj : j < n) : j ∈ cyclic n idx := by
  unfold cyclic
  rw [List.mem_map]
  refine ⟨placesAfter n idx j, List.mem_range.2 (Nat.mod_lt _ (by omega)), ?_⟩
  unfold placesAfter
  by_cases h : idx ≤ j
  · have : j + n - idx = (j - idx) + n := by omega
    rw [this, Nat.add_mod_right, Nat.mod_eq_of_lt (show j - idx < n by omega)]
    have : j - idx + idx = j := by omega
    rw [this, Nat.mod_eq_of_lt hj]
  · rw [Nat.mod_eq_of_lt (show j + n - idx < n by omega)]
    have : j + n - idx + idx = j + n := by omega
    rw [this, Nat.add_mod_right, Nat.mod_eq_of_lt hj]

/-- What is chosen when something is available. -/
theorem nextTask_best {s : State α} {i j : Nat} (hidx : s.idx < s.tasks.length) (h : nextTask s = some i)
    (hj : avail s.tasks j = true) :
    avail s.tasks i = true ∧ (ahead (rank s.tasks i) (rank s.tasks j) = true ∨
      (ahead (rank s.tasks j) (rank s.tasks i) = false ∧
        placesAfter s.tasks.length s.idx i ≤ placesAfter s.tasks.length s.idx j)) := by
  have hjl : j < s.tasks.length := by
    obtain ⟨c, t, e, _⟩ := avail_live hj
    exact getElem?_lt e
  have hmem : j ∈ (cyclic s.tasks.length s.idx).filter (avail s.tasks) :=
    List.mem_filter.2 ⟨mem_cyclic _ _ _ hidx hjl, hj⟩
  have hsort : ((cyclic s.tasks.length s.idx).filter (avail s.tasks)).Pairwise
      fun a b => placesAfter s.tasks.length s.idx a < placesAfter s.tasks.length s.idx b :=
    (cyclic_sorted _ _ hidx).sublist List.filter_sublist
  unfold nextTask at h
  split at h
  · rename_i he
    rw [he] at hmem
    simp at hmem
  · rename_i a as he
    obtain rfl := Option.some.inj h
    obtain ⟨A, B, h1, h2, h3⟩ := best_spec s.tasks a as
    rw [he, h1] at hmem hsort
    have hav : avail s.tasks (best s.tasks a as) = true := by
      have : best s.tasks a as ∈ (cyclic s.tasks.length s.idx).filter (avail s.tasks) := by
        rw [he, h1]; simp
      exact (List.mem_filter.1 this).2
    refine ⟨hav, ?_⟩
    rcases List.mem_append.1 hmem with hm | hm
    · exact .inl (h2 j hm)
    · rcases List.mem_cons.1 hm with rfl | hm
      · right
        exact ⟨by simp [ahead], Nat.le_refl _⟩
      · right
        refine ⟨h3 j hm, ?_⟩
        have := (List.pairwise_append.1 hsort).2.1
        exact Nat.le_of_lt ((List.pairwise_cons.1 this).1 j hm)

theorem nextTask_idle {s : State α} {i : Nat} (h : nextTask s = some i) (hi : avail s.tasks i = false)
    (hidx : s.idx < s.tasks.length) (j : Nat) : avail s.tasks j = false := by
  cases hj : avail s.tasks j with
  | false => rfl
  | true => rw [(nextTask_best hidx h hj).1] at hi; simp at hi

theorem step_idx {keyOk : Key → Bool} {cfgs : List Cfg} {A : Key → List (Option α)} {s : State α}
    (h : GInv cfgs A s.tasks s.head s.log) (r : Ret α) (hidx : s.idx < cfgs.length) :
    (step keyOk s r).idx < cfgs.length := by
  have hlen : s.tasks.length = cfgs.length := by rw [← h.same, List.length_map]
  unfold step
  split
  · cases hn : nextTask s with
    | none => exact hidx
    | some i =>
      simp only
      split
      · rename_i c t hct
        have hi : i < cfgs.length := by rw [← hlen]; exact getElem?_lt hct
        have hh : s.head < cfgs.length := by
          obtain ⟨c', t', hc⟩ := (live_iff _ _).1 (h.head.2 ⟨i, (live_iff _ _).2 ⟨c, t, hct⟩⟩)
          rw [← hlen]; exact getElem?_lt hc
        cases pipelineNext c t r with
        | missing => simp only [handle]; split <;> assumption
        | finished => exact hi
        | failed e => exact hi
        | out t' e ret =>
          simp only [handle]
          cases checkOutput c ret with
          | none => exact hi
          | some outs => simp only; split <;> exact hi
      · exact hidx
  · exact hidx

/-- A round that calls a hook leaves the manager at the task. -/
theorem step_idx_call {keyOk : Key → Bool} {s : State α} (hrun : s.status = .running) (r : Ret α) (e : Event α)
    (he : (step keyOk s r).log = s.log ++ [e]) : (step keyOk s r).idx = e.task := by
  have fin : ∀ (i : Nat) (x : Hook × List (Option α)) (ret : Ret α), s.log ++ [⟨i, x.1, x.2, ret⟩] = s.log ++ [e] →
      i = e.task := by
    intro i x ret hx
    have := List.append_cancel_left hx
    simp only [List.cons.injEq, and_true] at this
    rw [← this]
  unfold step at he ⊢
  rw [hrun] at he ⊢
  simp only at he ⊢
  cases hn : nextTask s with
  | none => rw [hn] at he; simp at he
  | some i =>
    rw [hn] at he
    simp only at he ⊢
    split at he
    · rename_i c t hct
      cases hp : pipelineNext c t r with
      | missing =>
        rw [hp] at he
        simp only [handle] at he
        split at he <;> simp at he
      | finished => rw [hp] at he; simp [handle] at he
      | failed x => rw [hp] at he; exact fin i x _ he
      | out t' x ret =>
        rw [hp] at he
        simp only [handle] at he ⊢
        cases hco : checkOutput c ret with
        | none => rw [hco] at he; exact fin i x _ he
        | some outs =>
          rw [hco] at he
          simp only at he ⊢
          cases hqa : queueAll keyOk outs (setTask s.tasks i c (some t')) with
          | none => rw [hqa] at he; exact fin i x _ he
          | some ts => rw [hqa] at he; exact fin i x _ he
    · simp at he

theorem run_idx (keyOk : Key → Bool) {cfgs : List Cfg} (hwf : WellFormed cfgs) (ρ : Nat → Ret α) (hne : cfgs ≠ [])
    (n : Nat) (hr : (run keyOk cfgs ρ n).status = .running) : (run keyOk cfgs ρ n).idx < cfgs.length := by
  induction n with
  | zero => exact List.length_pos_iff.2 hne
  | succ n ih =>
    by_cases h : (run keyOk cfgs ρ n).status = .running
    · exact step_idx (run_inv keyOk hwf ρ n (by rw [h]; simp)) _ (ih h)
    · simp only [run] at hr
      rw [step_stopped h] at hr
      exact absurd hr h

/-- A round that calls a hook: the task is the chosen one. -/
theorem step_calls {keyOk : Key → Bool} {cfgs : List Cfg} {A : Key → List (Option α)} {s : State α}
    (hrun : s.status = .running) (h : GInv cfgs A s.tasks s.head s.log) (r : Ret α) (e : Event α)
    (he : (step keyOk s r).log = s.log ++ [e]) :
    nextTask s = some e.task ∧ ∃ c t, s.tasks[e.task]? = some ⟨c, some t⟩ ∧
      (match t.stage with
        | .setup _ _ => e.hook = .setup | .next q => e.hook = .next ∧ ∃ q', pop q = some (e.args, q')
        | .finish _ => e.hook = .finish | .raised _ => False) := by
  unfold step at he
  rw [hrun] at he
  simp only at he
  cases hn : nextTask s with
  | none => rw [hn] at he; simp at he
  | some i =>
    rw [hn] at he
    simp only at he
    have hlive : live s.tasks i = true := by
      rcases nextTask_some hn h.head with a | ⟨-, a⟩
      · obtain ⟨c, t, e, _⟩ := avail_live a
        exact (live_iff _ _).2 ⟨c, t, e⟩
      · exact a
    obtain ⟨c, t, hct⟩ := (live_iff _ _).1 hlive
    rw [hct] at he
    simp only at he
    have fin : ∀ (x : Hook × List (Option α)) (ret : Ret α), s.log ++ [⟨i, x.1, x.2, ret⟩] = s.log ++ [e] →
        e.task = i ∧ e.hook = x.1 ∧ e.args = x.2 := by
      intro x ret hx
      have := List.append_cancel_left hx
      simp only [List.cons.injEq, and_true] at this
      rw [← this]
      exact ⟨rfl, rfl, rfl⟩
    have goal : ∀ (x : Hook × List (Option α)) (ret : Ret α), s.log ++ [⟨i, x.1, x.2, ret⟩] = s.log ++ [e] →
        (match t.stage with
          | .setup _ _ => x.1 = .setup | .next q => x.1 = .next ∧ ∃ q', pop q = some (x.2, q')
          | .finish _ => x.1 = .finish | .raised _ => False) →
        some i = some e.task ∧ ∃ c t, s.tasks[e.task]? = some ⟨c, some t⟩ ∧
          (match t.stage with
            | .setup _ _ => e.hook = .setup | .next q => e.hook = .next ∧ ∃ q', pop q = some (e.args, q')
            | .finish _ => e.hook = .finish | .raised _ => False) := by
      intro x ret hx hm
      obtain ⟨h1, h2, h3⟩ := fin x ret hx
      refine ⟨by rw [h1], c, t, by rw [h1]; exact hct, ?_⟩
      rw [h2, h3]
      exact hm
    have shape : ∀ (x : Hook × List (Option α)),
        (pipelineNext c t r = .failed x ∨ ∃ t' ret, pipelineNext c t r = .out t' x ret) →
        (match t.stage with
          | .setup _ _ => x.1 = .setup | .next q => x.1 = .next ∧ ∃ q', pop q = some (x.2, q')
          | .finish _ => x.1 = .finish | .raised _ => False) := by
      intro x hx
      unfold pipelineNext at hx
      cases hg : t.stage with
      | setup req q =>
        rw [hg] at hx
        simp only at hx ⊢
        split at hx
        · cases r <;> simp [afterOther] at hx <;> rw [← hx]
        · simp at hx
      | next q =>
        rw [hg] at hx
        simp only at hx ⊢
        split at hx
        · simp at hx
        · rename_i args q' hp
          cases r <;> simp [afterNext] at hx <;> first
            | (rw [← hx]; exact ⟨rfl, q', hp⟩)
            | (rw [← hx.1]; exact ⟨rfl, q', hp⟩)
            | (rw [← hx.2]; exact ⟨rfl, q', hp⟩)
            | (rw [← hx.2.1]; exact ⟨rfl, q', hp⟩)
      | finish q =>
        rw [hg] at hx
        simp only at hx ⊢
        cases r <;> simp [afterOther] at hx <;> rw [← hx]
      | raised q =>
        rw [hg] at hx
        simp at hx
    cases hp : pipelineNext c t r with
    | missing =>
      rw [hp] at he
      simp only [handle] at he
      split at he <;> simp at he
    | finished => rw [hp] at he; simp [handle] at he
    | failed x =>
      rw [hp] at he
      exact goal x _ he (shape x (.inl hp))
    | out t' x ret =>
      rw [hp] at he
      simp only [handle] at he
      have hx := shape x (.inr ⟨t', ret, hp⟩)
      cases hco : checkOutput c ret with
      | none => rw [hco] at he; exact goal x _ he hx
      | some outs =>
        rw [hco] at he
        simp only at he
        cases hqa : queueAll keyOk outs (setTask s.tasks i c (some t')) with
        | none => rw [hqa] at he; exact goal x _ he hx
        | some ts => rw [hqa] at he; exact goal x _ he hx

/-! ## The number of the requirements -/

def ReqLen (s : Slot α) : Prop :=
  ∀ t req q, s.st = some t → t.stage = .setup req q → req.length = s.cfg.reqKeys.length

theorem reqLen_queue {key : Key} {p : Option α} {s s' : Slot α} (h : s.queue key p = some s') (hs : ReqLen s) :
    ReqLen s' := by
  unfold Slot.queue at h
  cases hst : s.st with
  | none => rw [hst] at h; rw [← Option.some.inj h]; exact hs
  | some t =>
    rw [hst] at h
    obtain ⟨g, hg, rfl⟩ := Option.map_eq_some_iff.1 h
    intro t1 req q h1 h2
    obtain rfl := Option.some.inj h1
    simp only at h2
    subst h2
    cases ht : t.stage with
    | setup req0 q0 =>
      rw [ht] at hg
      obtain ⟨r', hr', hx⟩ := Option.map_eq_some_iff.1 hg
      simp only [Stage.setup.injEq] at hx
      rw [← hx.1, stow_length _ _ _ _ _ hr']
      exact hs t req0 q0 hst ht
    | next q0 => rw [ht] at hg; simp only [Stage.queue] at hg; split at hg <;> simp at hg
    | finish q0 => rw [ht] at hg; cases q0 <;> simp only [Stage.queue] at hg <;> split at hg <;> simp at hg
    | raised q0 => rw [ht] at hg; cases q0 <;> simp only [Stage.queue] at hg <;> split at hg <;> simp at hg

theorem reqLen_queueTasks {key : Key} {p : Option α} {ts ts' : List (Slot α)} (h : queueTasks key p ts = some ts')
    (hs : ∀ s ∈ ts, ReqLen s) : ∀ s ∈ ts', ReqLen s := by
  induction ts generalizing ts' with
  | nil => rw [← Option.some.inj h]; simp
  | cons a ts ih =>
    rw [queueTasks] at h
    cases ha : a.queue key p with
    | none => rw [ha] at h; simp at h
    | some a' =>
      rw [ha] at h
      obtain ⟨ts1, h1, rfl⟩ := Option.map_eq_some_iff.1 h
      intro s hm
      rcases List.mem_cons.1 hm with rfl | hm
      · exact reqLen_queue ha (hs a List.mem_cons_self)
      · exact ih h1 (fun x hx => hs x (List.mem_cons_of_mem _ hx)) s hm

theorem reqLen_queueAll {keyOk : Key → Bool} {outs : List (Key × Option α)} {ts ts' : List (Slot α)}
    (h : queueAll keyOk outs ts = some ts') (hs : ∀ s ∈ ts, ReqLen s) : ∀ s ∈ ts', ReqLen s := by
  induction outs generalizing ts with
  | nil => rw [← Option.some.inj h]; exact hs
  | cons x outs ih =>
    obtain ⟨k, p⟩ := x
    rw [queueAll] at h
    split at h
    · split at h
      · simp at h
      · rename_i ts1 h1
        exact ih h (reqLen_queueTasks h1 hs)
    · exact ih h hs

theorem reqLen_setTask {ts : List (Slot α)} {i : Nat} {c : Cfg} {t : Option (TState α)} (hs : ∀ s ∈ ts, ReqLen s)
    (ht : ReqLen (⟨c, t⟩ : Slot α)) : ∀ s ∈ setTask ts i c t, ReqLen s := by
  intro s hm
  rcases List.mem_or_eq_of_mem_set hm with h | h
  · exact hs s h
  · rw [h]; exact ht

theorem advance_not_setup (t : TState α) (req : List (Option α)) (q : List (List (Option α))) :
    t.advance.stage ≠ .setup req q := by
  unfold TState.advance
  cases t.stage with
  | setup r q' => simp only [Stage.advance]; split <;> simp
  | next q' => simp [Stage.advance]
  | finish q' => simp [Stage.advance]
  | raised q' => simp [Stage.advance]

theorem out_not_setup {c : Cfg} {t t' : TState α} {r ret : Ret α} {e : Hook × List (Option α)}
    (h : pipelineNext c t r = .out t' e ret) (req : List (Option α)) (q : List (List (Option α))) :
    t'.stage ≠ .setup req q := by
  have other : ∀ hk args, afterOther hk args t r = .out t' e ret → t'.stage ≠ .setup req q := by
    intro hk args h
    cases r <;> simp only [afterOther, NextRes.out.injEq, reduceCtorEq] at h <;> rw [← h.1] <;>
      exact advance_not_setup t req q
  unfold pipelineNext at h
  cases hg : t.stage with
  | setup req' q' =>
    rw [hg] at h
    simp only at h
    split at h
    · exact other _ _ h
    · simp at h
  | next q' =>
    rw [hg] at h
    simp only at h
    split at h
    · simp at h
    · cases r <;> simp only [afterNext, NextRes.out.injEq, reduceCtorEq] at h <;> rw [← h.1] <;>
        (try simp) <;> split <;> simp
  | finish q' => rw [hg] at h; exact other _ _ h
  | raised q' => rw [hg] at h; simp at h

theorem reqLen_step {keyOk : Key → Bool} {s : State α} (r : Ret α) (hs : ∀ x ∈ s.tasks, ReqLen x) :
    ∀ x ∈ (step keyOk s r).tasks, ReqLen x := by
  unfold step
  split
  · split
    · exact hs
    · split
      · rename_i i _ c t hct
        cases hp : pipelineNext c t r with
        | missing =>
          simp only [handle]
          split
          · refine reqLen_setTask hs ?_
            intro t1 req q h1 h2
            obtain rfl := Option.some.inj h1
            exact absurd h2 (advance_not_setup t req q)
          · exact hs
        | finished => exact reqLen_setTask hs (fun t1 req q h1 => by simp at h1)
        | failed e => exact hs
        | out t' e ret =>
          simp only [handle]
          split
          · exact hs
          · split
            · exact hs
            · rename_i ts hq
              refine reqLen_queueAll hq (reqLen_setTask hs ?_)
              intro t1 req q h1 h2
              obtain rfl := Option.some.inj h1
              exact absurd h2 (out_not_setup hp req q)
      · exact hs
  · exact hs

theorem reqLen_run (keyOk : Key → Bool) (cfgs : List Cfg) (ρ : Nat → Ret α) (n : Nat) :
    ∀ x ∈ (run keyOk cfgs ρ n).tasks, ReqLen x := by
  induction n with
  | zero =>
    intro x hx
    obtain ⟨c, _, rfl⟩ := List.mem_map.1 hx
    intro t req q h1 h2
    obtain rfl := Option.some.inj h1
    simp only [TState.init, Stage.setup.injEq] at h2
    rw [← h2.1]
    simp
  | succ n ih => exact reqLen_step _ ih

/-- The state of the run when a task without inputs is asked for its next product. -/
theorem source_asked {keyOk : Key → Bool} {cfgs : List Cfg} (hwf : WellFormed cfgs) (ρ : Nat → Ret α) (n : Nat)
    (hr : (run keyOk cfgs ρ n).status = .running) (e : Event α)
    (he : (run keyOk cfgs ρ (n + 1)).log = (run keyOk cfgs ρ n).log ++ [e]) (hh : e.hook = .next) (ha : e.args = []) :
    e.task = (run keyOk cfgs ρ n).head ∧
      ∀ (j : Nat) (c : Cfg) (t : TState α), (run keyOk cfgs ρ n).tasks[j]? = some ⟨c, some t⟩ → ¬ Ready t.stage := by
  have hg := run_inv keyOk hwf ρ n (by rw [hr]; simp)
  obtain ⟨hn, c, t, hct, hm⟩ := step_calls hr hg (ρ n) e he
  have hlen : (run keyOk cfgs ρ n).tasks.length = cfgs.length := by simpa using congrArg List.length hg.same
  have hne : cfgs ≠ [] := by
    intro h0
    have := getElem?_lt hct
    rw [hlen, h0] at this
    simp at this
  have hidx := run_idx keyOk hwf ρ hne n hr
  rw [← hlen] at hidx
  have hav : avail (run keyOk cfgs ρ n).tasks e.task = false := by
    unfold avail
    rw [hct]
    simp only
    cases hg : t.stage with
    | setup req q => rw [hg, hh] at hm; simp at hm
    | finish q => rw [hg, hh] at hm; simp at hm
    | raised q => rw [hg] at hm; simp at hm
    | next q =>
      rw [hg] at hm
      obtain ⟨_, q', hp⟩ := hm
      have := (pop_some hp).2.1
      rw [ha] at this
      have hq : q = [] := List.length_eq_zero_iff.1 (by simpa using this.symm)
      rw [hq]; rfl
  refine ⟨?_, ?_⟩
  · rcases nextTask_some hn hg.head with h | h
    · rw [hav] at h; simp at h
    · exact h.1
  · intro j c' t' hj hready
    have := nextTask_idle hn hav hidx j
    unfold avail at this
    rw [hj] at this
    simp only at this
    rw [(ready_iff _).2 hready] at this
    simp at this

end Verif.Pipe
