import Verif.Pipe.Inv

/-! # Helper lemmas for C22: a measure that decreases -/
namespace Verif.Pipe
variable {α : Type}

theorem idle_other {i : Nat} {log : List (Event α)} {e : Event α}
    (h : e.task ≠ i ∨ e.hook ≠ .next ∨ e.args ≠ [] ∨ returnsNone e.ret = false) :
    idle i (log ++ [e]) = idle i log := by
  unfold idle
  rcases h with h | h | h | h <;> simp [List.filter_append, h]

theorem idle_same {i : Nat} {log : List (Event α)} {e : Event α} (h : e.task = i)
    (h1 : e.hook = .next) (h2 : e.args = []) (h3 : returnsNone e.ret = true) :
    idle i (log ++ [e]) = idle i log + 1 := by
  unfold idle
  simp [List.filter_append, h, h1, h2, h3]

/-- Number of queued products. -/
def qtot (q : List (List (Option α))) : Nat := (q.map List.length).sum

def Stage.load (W : Nat) (g : Stage α) : Nat :=
  (match g.kind with | .setup => 4 * W | .next => 3 * W | .finish => 2 * W | .raised => W) +
    (match g.queues with | some q => qtot q | none => 0)

def load (W : Nat) : Option (TState α) → Nat
  | none => 0
  | some t => t.stage.load W

/-- Measure of the task at an index. -/
def mu (W N : Nat) (ts : List (Slot α)) (log : List (Event α)) (i : Nat) : Nat :=
  load W ((ts[i]?).bind Slot.st) + (W * (N - emissions i log) + (N - idle i log))

def Phi (W N n : Nat) (ts : List (Slot α)) (log : List (Event α)) : Nat :=
  ((List.range n).map (mu W N ts log)).sum

theorem sum_le (f f' a : Nat → Nat) (l : List Nat) (h : ∀ j ∈ l, f' j ≤ f j + a j) :
    (l.map f').sum ≤ (l.map f).sum + (l.map a).sum := by
  induction l with
  | nil => simp
  | cons x l ih =>
    have h1 := h x (by simp)
    have h2 := ih fun j hj => h j (by simp [hj])
    simp only [List.map_cons, List.sum_cons]
    omega

theorem sum_drop (f f' a : Nat → Nat) (w i : Nat) (l : List Nat) (hi : i ∈ l)
    (h : ∀ j ∈ l, j ≠ i → f' j ≤ f j + a j) (hd : f' i + w ≤ f i + a i) :
    (l.map f').sum + w ≤ (l.map f).sum + (l.map a).sum := by
  induction l with
  | nil => simp at hi
  | cons x l ih =>
    simp only [List.map_cons, List.sum_cons]
    by_cases hx : x = i
    · subst hx
      have h2 := sum_le f f' a l fun j hj => by
        by_cases hj' : j = x
        · subst hj'; omega
        · exact h j (by simp [hj]) hj'
      omega
    · have hi' : i ∈ l := by
        rcases List.mem_cons.1 hi with rfl | hi'
        · exact absurd rfl hx
        · exact hi'
      have h1 := h x (by simp) hx
      have h2 := ih hi' fun j hj => h j (by simp [hj])
      omega

theorem qtot_fed (add : Key → List (Option α)) (M : Nat) (ks : List Key)
    (q q' : List (List (Option α))) (hl : q'.length = q.length) (hk : ks.length = q.length)
    (hM : ∀ k, (add k).length ≤ M)
    (h : ∀ (j : Nat) (k : Key) (l' : List (Option α)), ks[j]? = some k → q'[j]? = some l' →
      ∃ l, q[j]? = some l ∧ l' = l ++ add k) : qtot q' ≤ qtot q + M * ks.length := by
  induction ks generalizing q q' with
  | nil =>
    have h1 : q = [] := List.length_eq_zero_iff.1 hk.symm
    have h2 : q' = [] := List.length_eq_zero_iff.1 (by rw [hl, h1]; rfl)
    simp [h1, h2]
  | cons k ks ih =>
    match q, q', hl, hk with
    | l :: q, l' :: q', hl, hk =>
      have h0 := h 0 k l' rfl rfl
      obtain ⟨l1, e1, e2⟩ := h0
      simp only [List.getElem?_cons_zero, Option.some.injEq] at e1
      subst e1
      have hr := ih q q' (by simpa using hl) (by simpa using hk) fun j k' m' a b => by
        have := h (j + 1) k' m' (by simpa using a) (by simpa using b)
        simpa using this
      have hm := hM k
      simp only [qtot, List.map_cons, List.sum_cons, e2, List.length_append, List.length_cons] at hr ⊢
      rw [Nat.mul_succ]
      omega

theorem pop_qtot {q : List (List (Option α))} {args : List (Option α)}
    {q' : List (List (Option α))} (h : pop q = some (args, q')) :
    qtot q = qtot q' + args.length := by
  induction q generalizing args q' with
  | nil =>
    simp only [pop, Option.some.injEq, Prod.mk.injEq] at h
    obtain ⟨rfl, rfl⟩ := h
    simp [qtot]
  | cons l ls ih =>
    cases l with
    | nil => simp [pop] at h
    | cons x l =>
      simp only [pop] at h
      cases hp : pop ls with
      | none => rw [hp] at h; simp at h
      | some v =>
        obtain ⟨xs, qs'⟩ := v
        rw [hp] at h
        simp only [Option.some.injEq, Prod.mk.injEq] at h
        obtain ⟨rfl, rfl⟩ := h
        have := ih hp
        simp only [qtot, List.map_cons, List.sum_cons, List.length_cons] at this ⊢
        omega

theorem outputs_length (c : Cfg) (r : Ret α) : (outputs c r).length ≤ c.outKeys.length := by
  cases r with
  | none => simp [outputs]
  | stop => simp [outputs]
  | error => simp [outputs]
  | obj p =>
    simp only [outputs]
    split
    · simp; omega
    · simp
  | tup l => simp only [outputs, List.length_zip]; omega
  | lst w l =>
    simp only [outputs]
    split
    · simp; omega
    · simp only [List.length_zip]; omega

theorem adds_length (k : Key) (outs : List (Key × Option α)) : (adds k outs).length ≤ outs.length := by
  unfold adds
  rw [List.length_map]
  exact List.length_filter_le _ _

/-- Total numbers of output keys and input keys. -/
def nOut (cfgs : List Cfg) : Nat := (cfgs.map fun c => c.outKeys.length).sum
def nIn (cfgs : List Cfg) : Nat := (cfgs.map fun c => c.inKeys.length).sum

theorem mem_le_sum (l : List Cfg) (f : Cfg → Nat) (c : Cfg) (h : c ∈ l) : f c ≤ (l.map f).sum := by
  induction l with
  | nil => simp at h
  | cons x l ih =>
    simp only [List.map_cons, List.sum_cons]
    rcases List.mem_cons.1 h with rfl | h
    · omega
    · have := ih h; omega

theorem sum_inKeys (cfgs : List Cfg) (M : Nat) :
    ((List.range cfgs.length).map fun j => M * ((cfgs[j]?).elim 0 fun c => c.inKeys.length)).sum =
      M * nIn cfgs := by
  have : ∀ (l : List Cfg), ((List.range l.length).map fun j =>
      M * ((l[j]?).elim 0 fun c => c.inKeys.length)).sum = M * nIn l := by
    intro l
    induction l with
    | nil => simp [nIn]
    | cons c l ih =>
      rw [List.length_cons, List.range_succ_eq_map, List.map_cons, List.map_map, List.sum_cons]
      have e : ((fun j => M * (((c :: l)[j]?).elim 0 fun c => c.inKeys.length)) ∘ Nat.succ) =
          fun j => M * ((l[j]?).elim 0 fun c => c.inKeys.length) := by
        funext j
        simp
      rw [e, ih]
      simp [nIn, Nat.mul_add]
  exact this cfgs

theorem load_fed {c : Cfg} {add : Key → List (Option α)} {g g' : Stage α} (W M : Nat)
    (h : Fed c add g g') (hM : ∀ k, (add k).length ≤ M)
    (hq : ∀ q, g.queues = some q → q.length = c.inKeys.length) :
    g'.load W ≤ g.load W + M * c.inKeys.length := by
  unfold Stage.load
  rw [h.kind]
  cases hg : g.queues with
  | none =>
    rw [(h.none hg).1]
    simp
  | some q =>
    obtain ⟨q', e, l1, g1⟩ := h.some q hg
    rw [e]
    simp only
    have := qtot_fed add M c.inKeys q q' l1 (hq q hg).symm hM g1
    omega

/-- The task itself: what a hook call does to its measure before the delivery. -/
theorem called_load {c : Cfg} {t t' : TState α} {i W N : Nat} {log : List (Event α)} {r ret : Ret α}
    {e : Hook × List (Option α)} (hW : 0 < W) (hp : pipelineNext c t r = .out t' e ret)
    (hem : emissions i (log ++ [⟨i, e.1, e.2, ret⟩]) ≤ N)
    (hid : idle i (log ++ [⟨i, e.1, e.2, ret⟩]) ≤ N) :
    (t'.stage.load W + (W * (N - emissions i (log ++ [⟨i, e.1, e.2, ret⟩])) +
        (N - idle i (log ++ [⟨i, e.1, e.2, ret⟩]))) + W ≤
      t.stage.load W + (W * (N - emissions i log) + (N - idle i log))) ∨
    (outputs c ret = [] ∧
      t'.stage.load W + (W * (N - emissions i (log ++ [⟨i, e.1, e.2, ret⟩])) +
        (N - idle i (log ++ [⟨i, e.1, e.2, ret⟩]))) + 1 ≤
      t.stage.load W + (W * (N - emissions i log) + (N - idle i log))) := by
  unfold pipelineNext at hp
  cases hg : t.stage with
  | setup req q =>
    rw [hg] at hp
    simp only at hp
    split at hp
    · rename_i hall
      have key : afterOther .setup req t r = .out t.advance (.setup, req) r := by
        cases r <;> simp [afterOther] at hp ⊢
      rw [key] at hp
      simp only [NextRes.out.injEq] at hp
      obtain ⟨rfl, rfl, rfl⟩ := hp
      have hst : t.advance.stage = .next q := by
        simp [TState.advance, hg, Stage.advance, hall]
      left
      rw [emissions_other (Or.inr (Or.inl (by simp))), idle_other (Or.inr (Or.inl (by simp))), hst]
      simp only [Stage.load, Stage.kind, Stage.queues]
      omega
    · simp at hp
  | next q =>
    rw [hg] at hp
    simp only at hp
    cases hpop : pop q with
    | none => rw [hpop] at hp; simp at hp
    | some v =>
      obtain ⟨args, q'⟩ := v
      rw [hpop] at hp
      simp only at hp
      have hqt := pop_qtot hpop
      have emit : ∀ ret, isEmission ret = true →
          t' = ⟨if limitReached c (t.iters + 1) then .finish none else .next q', t.iters + 1⟩ →
          emissions i (log ++ [⟨i, .next, args, ret⟩]) ≤ N →
          (t'.stage.load W + (W * (N - emissions i (log ++ [⟨i, .next, args, ret⟩])) +
            (N - idle i (log ++ [⟨i, .next, args, ret⟩]))) + W ≤
            (Stage.next q).load W + (W * (N - emissions i log) + (N - idle i log))) := by
        intro ret hem' ht' hN
        have h3 : emissions i (log ++ [⟨i, .next, args, ret⟩]) = emissions i log + 1 :=
          emissions_same rfl rfl hem'
        have h4 : idle i (log ++ [⟨i, .next, args, ret⟩]) = idle i log :=
          idle_other (Or.inr (Or.inr (Or.inr (by cases ret <;> simp_all [isEmission, returnsNone]))))
        rw [h3] at hN ⊢
        rw [h4]
        have h5 : N - emissions i log = (N - (emissions i log + 1)) + 1 := by omega
        rw [h5, Nat.mul_add, Nat.mul_one]
        have h6 : t'.stage.load W ≤ (Stage.next q).load W := by
          subst ht'
          simp only
          split
          · simp only [Stage.load, Stage.kind, Stage.queues]; omega
          · simp only [Stage.load, Stage.kind, Stage.queues]; omega
        omega
      cases r with
      | error => simp [afterNext] at hp
      | stop =>
        simp only [afterNext, NextRes.out.injEq] at hp
        obtain ⟨rfl, rfl, rfl⟩ := hp
        left
        rw [emissions_other (Or.inr (Or.inr rfl)), idle_other (Or.inr (Or.inr (Or.inr rfl)))]
        simp only [Stage.load, Stage.kind, Stage.queues]
        omega
      | none =>
        simp only [afterNext, NextRes.out.injEq] at hp
        obtain ⟨rfl, rfl, rfl⟩ := hp
        right
        refine ⟨rfl, ?_⟩
        rw [emissions_other (Or.inr (Or.inr rfl))]
        simp only [Stage.load, Stage.kind, Stage.queues]
        by_cases ha : args = []
        · simp only at hid
          have h5 : idle i (log ++ [⟨i, .next, args, .none⟩]) = idle i log + 1 :=
            idle_same rfl rfl ha rfl
          rw [h5] at hid ⊢
          omega
        · rw [idle_other (Or.inr (Or.inr (Or.inl ha)))]
          have := List.length_pos_iff.2 ha
          omega
      | obj p =>
        simp only [afterNext, NextRes.out.injEq] at hp
        obtain ⟨h1, rfl, rfl⟩ := hp
        exact Or.inl (emit _ rfl h1.symm hem)
      | tup l =>
        simp only [afterNext, NextRes.out.injEq] at hp
        obtain ⟨h1, rfl, rfl⟩ := hp
        exact Or.inl (emit _ rfl h1.symm hem)
      | lst w l =>
        simp only [afterNext, NextRes.out.injEq] at hp
        obtain ⟨h1, rfl, rfl⟩ := hp
        exact Or.inl (emit _ rfl h1.symm hem)
  | finish o =>
    rw [hg] at hp
    simp only at hp
    have key : afterOther .finish [] t r = .out t.advance (.finish, []) r := by
      cases r <;> simp [afterOther] at hp ⊢
    rw [key] at hp
    simp only [NextRes.out.injEq] at hp
    obtain ⟨rfl, rfl, rfl⟩ := hp
    have hst : t.advance.stage = .raised o := by simp [TState.advance, hg, Stage.advance]
    left
    rw [emissions_other (Or.inr (Or.inl (by simp))), idle_other (Or.inr (Or.inl (by simp))), hst]
    simp only [Stage.load, Stage.kind, Stage.queues]
    omega
  | raised o => rw [hg] at hp; simp at hp

theorem advance_load {t : TState α} {W : Nat} (hW : 0 < W) {c : Cfg} {r : Ret α}
    (hp : pipelineNext c t r = .missing) : t.advance.stage.load W + 1 ≤ t.stage.load W := by
  unfold pipelineNext at hp
  unfold TState.advance
  cases hg : t.stage with
  | setup req q =>
    rw [hg] at hp
    simp only at hp
    split at hp
    · cases r <;> simp [afterOther] at hp
    · rename_i hall
      simp only [Stage.advance, hall, if_false, Bool.false_eq_true, Stage.load, Stage.kind,
        Stage.queues]
      omega
  | next q =>
    simp only [Stage.advance, Stage.load, Stage.kind, Stage.queues]
    omega
  | finish o =>
    rw [hg] at hp
    simp only at hp
    cases r <;> simp [afterOther] at hp
  | raised o => rw [hg] at hp; simp at hp

theorem mu_other {W N : Nat} {ts : List (Slot α)} {log : List (Event α)} {e : Event α} {j : Nat}
    (h : e.task ≠ j) : mu W N ts (log ++ [e]) j = mu W N ts log j := by
  unfold mu
  rw [emissions_other (Or.inl h), idle_other (Or.inl h)]

theorem mu_tasks {W N : Nat} {ts ts' : List (Slot α)} {log : List (Event α)} {j : Nat}
    (h : ts'[j]? = ts[j]?) : mu W N ts' log j = mu W N ts log j := by
  unfold mu
  rw [h]

theorem zeros (l : List Nat) : (l.map fun _ => 0).sum = 0 := by
  induction l with
  | nil => rfl
  | cons x l ih => simp [ih]

/-- Each round of a running pipeline that goes on lowers the measure. -/
theorem step_measure {keyOk : Key → Bool} {cfgs : List Cfg} (hwf : WellFormed cfgs) {s : State α}
    (hrun : s.status = .running)
    (h : GInv cfgs (Acc keyOk cfgs s.log) s.tasks s.head s.log) (r : Ret α)
    (hok : (step keyOk s r).status = .running) (W N : Nat)
    (hW : nOut cfgs * nIn cfgs < W)
    (hN : ∀ i, emissions i (step keyOk s r).log ≤ N ∧ idle i (step keyOk s r).log ≤ N) :
    Phi W N cfgs.length (step keyOk s r).tasks (step keyOk s r).log <
      Phi W N cfgs.length s.tasks s.log := by
  have hlen : s.tasks.length = cfgs.length := by rw [← h.same, List.length_map]
  unfold step at hok hN ⊢
  rw [hrun] at hok hN ⊢
  simp only at hok hN ⊢
  cases hn : nextTask s with
  | none => rw [hn] at hok; simp at hok
  | some i =>
    rw [hn] at hok hN
    simp only at hok hN ⊢
    have hni := nextTask_some hn h.head
    have hlive : live s.tasks i = true := by
      rcases hni with a | ⟨-, a⟩
      · obtain ⟨c, t, e, _⟩ := avail_live a
        exact (live_iff _ _).2 ⟨c, t, e⟩
      · exact a
    obtain ⟨c, t, hct⟩ := (live_iff _ _).1 hlive
    rw [hct] at hok hN ⊢
    simp only at hok hN ⊢
    have hil : i < cfgs.length := by rw [← hlen]; exact getElem?_lt hct
    have hmem : i ∈ List.range cfgs.length := List.mem_range.2 hil
    have hdc : cfgs[i]? = some c := by
      rw [← h.same, List.getElem?_map, hct]; rfl
    have hmui : mu W N s.tasks s.log i =
        t.stage.load W + (W * (N - emissions i s.log) + (N - idle i s.log)) := by
      unfold mu; rw [hct]; rfl
    cases hp : pipelineNext c t r with
    | missing =>
      rw [hp] at hok hN
      simp only [handle] at hok hN ⊢
      have hih : i = s.head := by
        rcases hni with a | ⟨a, -⟩
        · obtain ⟨c', t', e, ha⟩ := avail_live a
          rw [hct] at e
          simp only [Option.some.injEq, Slot.mk.injEq] at e
          obtain ⟨rfl, rfl⟩ := e
          exact absurd hp (not_missing ha r)
        · exact a
      rw [if_pos hih]
      simp only
      unfold Phi
      have := sum_drop (mu W N s.tasks s.log) (mu W N (setTask s.tasks i c (some t.advance)) s.log)
        (fun _ => 0) 1 i (List.range cfgs.length) hmem
        (fun j _ hj => by rw [mu_tasks (setTask_ne hj)]; omega) (by
          rw [hmui]
          unfold mu
          rw [setTask_self hct]
          simp only [Option.bind_some, load]
          have := advance_load (W := W) (by omega) hp
          omega)
      rw [zeros] at this
      omega
    | finished =>
      rw [hp] at hok hN
      simp only [handle] at hok hN ⊢
      unfold Phi
      have := sum_drop (mu W N s.tasks s.log) (mu W N (setTask s.tasks i c none) s.log)
        (fun _ => 0) 1 i (List.range cfgs.length) hmem
        (fun j _ hj => by rw [mu_tasks (setTask_ne hj)]; omega) (by
          rw [hmui]
          unfold mu
          rw [setTask_self hct]
          simp only [Option.bind_some, load]
          unfold pipelineNext at hp
          cases hg : t.stage with
          | raised o => simp only [Stage.load, Stage.kind]; omega
          | setup req q => simp only [Stage.load, Stage.kind]; omega
          | next q => simp only [Stage.load, Stage.kind]; omega
          | finish o => simp only [Stage.load, Stage.kind]; omega)
      rw [zeros] at this
      omega
    | failed e =>
      rw [hp] at hok
      simp [handle] at hok
    | out t' e ret =>
      rw [hp] at hok hN
      simp only [handle] at hok hN ⊢
      cases hco : checkOutput c ret with
      | none => rw [hco] at hok; simp at hok
      | some outs =>
        rw [hco] at hok hN
        simp only at hok hN ⊢
        cases hqa : queueAll keyOk outs (setTask s.tasks i c (some t')) with
        | none => rw [hqa] at hok; simp at hok
        | some ts =>
          rw [hqa] at hN
          simp only at hN ⊢
          have heach := queueAll_each hqa
          have houts := checkOutput_spec (hwf c (List.mem_of_getElem? hdc)) hco
          have hsame : (setTask s.tasks i c (some t')).map Slot.cfg = cfgs := by
            rw [setTask_cfg hct]; exact h.same
          have hM : ∀ k, (if keyOk k then adds k outs else []).length ≤ outs.length := by
            intro k
            split
            · exact adds_length k outs
            · simp
          -- the delivery adds at most this much
          have hfed : ∀ j, mu W N ts (s.log ++ [⟨i, e.1, e.2, ret⟩]) j ≤
              mu W N (setTask s.tasks i c (some t')) (s.log ++ [⟨i, e.1, e.2, ret⟩]) j +
                outs.length * ((cfgs[j]?).elim 0 fun d => d.inKeys.length) := by
            intro j
            unfold mu
            cases hj : (setTask s.tasks i c (some t'))[j]? with
            | none =>
              have h1 := List.getElem?_eq_none_iff.1 hj
              rw [List.getElem?_eq_none (by rw [heach.1]; exact h1)]
              omega
            | some sj =>
              obtain ⟨sj', e1, f1, f2, f3⟩ := heach.2 j sj hj
              rw [e1]
              simp only [Option.bind_some]
              cases hst : sj.st with
              | none => rw [f2 hst]; omega
              | some u =>
                obtain ⟨u', g1, g2, g3⟩ := f3 u hst
                rw [g1]
                simp only [load]
                have hcj : cfgs[j]? = some sj.cfg := by
                  rw [← hsame, List.getElem?_map, hj]; rfl
                rw [hcj]
                simp only [Option.elim_some]
                have hqlen : ∀ q, u.stage.queues = some q → q.length = sj.cfg.inKeys.length := by
                  intro q hq
                  rcases setTask_get hct j sj hj with ⟨rfl, hx⟩ | ⟨hne, hj'⟩
                  · have hc := (h.slots j _ hct).called hp
                    subst hx
                    simp only [Option.some.injEq] at hst
                    subst hst
                    have := hc.queues
                    simp only [QueueInv, Option.map_some, Option.bind_some, hq] at this
                    exact this.1
                  · have := (h.slots j sj hj').queues
                    rw [hst] at this
                    simp only [QueueInv, Option.map_some, Option.bind_some, hq] at this
                    exact this.1
                have := load_fed W outs.length g3 hM hqlen
                omega
          have hself : mu W N (setTask s.tasks i c (some t')) (s.log ++ [⟨i, e.1, e.2, ret⟩]) i =
              t'.stage.load W + (W * (N - emissions i (s.log ++ [⟨i, e.1, e.2, ret⟩])) +
                (N - idle i (s.log ++ [⟨i, e.1, e.2, ret⟩]))) := by
            unfold mu; rw [setTask_self hct]; rfl
          have hothers : ∀ j ∈ List.range cfgs.length, j ≠ i →
              mu W N ts (s.log ++ [⟨i, e.1, e.2, ret⟩]) j ≤ mu W N s.tasks s.log j +
                outs.length * ((cfgs[j]?).elim 0 fun d => d.inKeys.length) := by
            intro j _ hj
            have h1 := hfed j
            rw [mu_other (fun hc => hj hc.symm), mu_other (fun hc => hj hc.symm),
              mu_tasks (setTask_ne hj)] at h1
            rw [mu_other (fun hc => hj hc.symm)]
            exact h1
          have hcl := called_load (i := i) (W := W) (N := N) (log := s.log) (by omega) hp
            (hN i).1 (hN i).2
          unfold Phi
          have hs := hfed i
          rw [hself] at hs
          rcases hcl with hcl | ⟨hnil, hcl⟩
          · have hd := sum_drop (mu W N s.tasks s.log) (mu W N ts (s.log ++ [⟨i, e.1, e.2, ret⟩]))
              (fun j => outs.length * ((cfgs[j]?).elim 0 fun d => d.inKeys.length)) W i
              (List.range cfgs.length) hmem hothers (by rw [hmui]; omega)
            rw [sum_inKeys] at hd
            have ho : outs.length ≤ nOut cfgs := by
              rw [houts]
              exact Nat.le_trans (outputs_length c ret)
                (mem_le_sum cfgs (fun c => c.outKeys.length) c (List.mem_of_getElem? hdc))
            have := Nat.mul_le_mul_right (nIn cfgs) ho
            omega
          · have ho : outs.length = 0 := by rw [houts, hnil]; rfl
            have hd := sum_drop (mu W N s.tasks s.log) (mu W N ts (s.log ++ [⟨i, e.1, e.2, ret⟩]))
              (fun j => outs.length * ((cfgs[j]?).elim 0 fun d => d.inKeys.length)) 1 i
              (List.range cfgs.length) hmem hothers (by rw [hmui]; omega)
            rw [sum_inKeys, ho] at hd
            omega

end Verif.Pipe
