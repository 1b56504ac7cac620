import Verif.Pipe.Lemmas

/-! # The invariant of the runner -/
namespace Verif.Pipe
variable {α : Type}

/-- Allowed hook sequences by stage (`none`: removed). -/
def HookInv : Option (Stage α) → List Hook → Prop
  | some (.setup _ _), h => h = []
  | some (.next _), h => ∃ n, h = .setup :: List.replicate n .next
  | some (.finish (some _)), h => h = []
  | some (.finish none), h => ∃ n, h = .setup :: List.replicate n .next
  | some (.raised (some _)), h => h = [.finish]
  | some (.raised none), h => ∃ n, h = (.setup :: List.replicate n .next) ++ [.finish]
  | none, h => h = [.finish] ∨ ∃ n, h = (.setup :: List.replicate n .next) ++ [.finish]

/-- Received and queued products by stage. `A` is what has been delivered so far. -/
def QueueInv (A : Key → List (Option α)) (c : Cfg) (i : Nat) (log : List (Event α))
    (g : Option (Stage α)) : Prop :=
  match g.bind Stage.queues with
  | some q => q.length = c.inKeys.length ∧ ∀ (j : Nat) (k : Key) (l : List (Option α)),
      c.inKeys[j]? = some k → q[j]? = some l → received i j log ++ l = A k
  | none => ∀ (j : Nat) (k : Key), c.inKeys[j]? = some k → received i j log <+: A k

/-- The stages after `next`. -/
def Closed : Option (Stage α) → Prop
  | some (.setup _ _) => False
  | some (.next _) => False
  | _ => True

/-- Why a task has left `next`. -/
def Why (cfgs : List Cfg) (A : Key → List (Option α)) (lv : Nat → Bool) (c : Cfg) (i : Nat)
    (log : List (Event α)) : Prop :=
  askedToStop i log ∨ hitLimit c i log ∨ ((∀ m, m < i → lv m = false) ∧
    ∃ (j : Nat) (k : Key), c.inKeys[j]? = some k ∧
      ((∀ (m : Nat) (d : Cfg), cfgs[m]? = some d → k ∈ d.outKeys → m < i) →
        received i j log = A k))

structure SInv (cfgs : List Cfg) (A : Key → List (Option α)) (lv : Nat → Bool) (i : Nat)
    (s : Slot α) (log : List (Event α)) : Prop where
  hooks : HookInv (s.st.map TState.stage) (hooksOf i log)
  queues : QueueInv A s.cfg i log (s.st.map TState.stage)
  iters : ∀ t, s.st = some t → t.iters = emissions i log
  limit : ∀ l, s.cfg.limit = some l → (emissions i log : Int) ≤ l ∨ emissions i log ≤ 1
  limitNext : ∀ t q, s.st = some t → t.stage = .next q → ∀ l, s.cfg.limit = some l →
    (emissions i log : Int) < l ∨ emissions i log = 0
  why : Closed (s.st.map TState.stage) → Hook.setup ∈ hooksOf i log →
    Why cfgs A lv s.cfg i log

structure GInv (cfgs : List Cfg) (A : Key → List (Option α)) (ts : List (Slot α)) (head : Nat)
    (log : List (Event α)) : Prop where
  same : ts.map Slot.cfg = cfgs
  head : HeadInv ts head
  slots : ∀ (i : Nat) (s : Slot α), ts[i]? = some s → SInv cfgs A (live ts) i s log

/-! ## Stability of the invariant of a slot -/

theorem Why.mono {cfgs : List Cfg} {A : Key → List (Option α)} {lv lv' : Nat → Bool} {c : Cfg}
    {i : Nat} {log : List (Event α)} (h : Why cfgs A lv c i log)
    (hl : ∀ m, lv m = false → lv' m = false) : Why cfgs A lv' c i log := by
  rcases h with h | h | ⟨h1, h2⟩
  · exact Or.inl h
  · exact Or.inr (Or.inl h)
  · exact Or.inr (Or.inr ⟨fun m hm => hl m (h1 m hm), h2⟩)

theorem SInv.mono {cfgs : List Cfg} {A : Key → List (Option α)} {lv lv' : Nat → Bool} {i : Nat}
    {s : Slot α} {log : List (Event α)} (h : SInv cfgs A lv i s log)
    (hl : ∀ m, lv m = false → lv' m = false) : SInv cfgs A lv' i s log :=
  ⟨h.hooks, h.queues, h.iters, h.limit, h.limitNext, fun a b => (h.why a b).mono hl⟩

theorem askedToStop_append {i : Nat} {log : List (Event α)} (e : Event α)
    (h : askedToStop i log) : askedToStop i (log ++ [e]) := by
  obtain ⟨x, hx, hh⟩ := h
  exact ⟨x, by simp [hx], hh⟩

theorem queueInv_congr {A : Key → List (Option α)} {c : Cfg} {i : Nat} {log log' : List (Event α)}
    {g : Option (Stage α)} (h : QueueInv A c i log g)
    (hr : ∀ j, received i j log' = received i j log) : QueueInv A c i log' g := by
  unfold QueueInv at *
  split at h
  · refine ⟨h.1, fun j k l hk hl => ?_⟩
    rw [hr]; exact h.2 j k l hk hl
  · intro j k hk
    rw [hr]; exact h j k hk

/-- A call of a hook of another task changes nothing. -/
theorem SInv.other {cfgs : List Cfg} {A : Key → List (Option α)} {lv : Nat → Bool} {i : Nat}
    {s : Slot α} {log : List (Event α)} (h : SInv cfgs A lv i s log) (e : Event α)
    (he : e.task ≠ i) : SInv cfgs A lv i s (log ++ [e]) := by
  have h1 := hooksOf_other (log := log) he
  have h2 : ∀ j, received i j (log ++ [e]) = received i j log := fun j =>
    received_other (Or.inl he)
  have h3 : emissions i (log ++ [e]) = emissions i log := emissions_other (Or.inl he)
  refine ⟨by rw [h1]; exact h.hooks, queueInv_congr h.queues h2, ?_, ?_, ?_, ?_⟩
  · intro t ht; rw [h3]; exact h.iters t ht
  · rw [h3]; exact h.limit
  · rw [h3]; exact h.limitNext
  · intro a b
    rw [h1] at b
    rcases h.why a b with w | w | ⟨w1, j, k, w2, w3⟩
    · exact Or.inl (askedToStop_append e w)
    · refine Or.inr (Or.inl ?_)
      obtain ⟨l, a1, a2, a3⟩ := w
      exact ⟨l, a1, by rw [h3]; exact a2, by rw [h3]; exact a3⟩
    · exact Or.inr (Or.inr ⟨w1, j, k, w2, fun hm => by rw [h2]; exact w3 hm⟩)

/-- Delivery of products: the invariant of each entry holds for the larger deliveries. `m` is the
task that emitted. -/
theorem SInv.fed {cfgs : List Cfg} {A : Key → List (Option α)} {lv : Nat → Bool} {i : Nat}
    {s s' : Slot α} {log : List (Event α)} (h : SInv cfgs A lv i s log)
    {add : Key → List (Option α)} (hf : SFed add s s') (m : Nat) (hm : lv m = true) (d : Cfg)
    (hd : cfgs[m]? = some d) (hadd : ∀ k, add k ≠ [] → k ∈ d.outKeys) :
    SInv cfgs (fun k => A k ++ add k) lv i s' log := by
  obtain ⟨hc, hn, hs⟩ := hf
  have hkind : (s.st = none ∧ s'.st = none) ∨ ∃ t t', s.st = some t ∧ s'.st = some t' ∧
      t'.iters = t.iters ∧ Fed s.cfg add t.stage t'.stage := by
    cases hst : s.st with
    | none => exact Or.inl ⟨rfl, hn hst⟩
    | some t =>
      obtain ⟨t', h1, h2, h3⟩ := hs t hst
      exact Or.inr ⟨t, t', rfl, h1, h2, h3⟩
  have hwhy : Why cfgs A lv s.cfg i log → Why cfgs (fun k => A k ++ add k) lv s.cfg i log := by
    rintro (w | w | ⟨w1, j, k, w2, w3⟩)
    · exact Or.inl w
    · exact Or.inr (Or.inl w)
    · refine Or.inr (Or.inr ⟨w1, j, k, w2, fun hall => ?_⟩)
      have hz : add k = [] := by
        by_cases hz : add k = []
        · exact hz
        · exfalso
          have hlt := hall m d hd (hadd k hz)
          have := w1 m hlt
          rw [hm] at this
          simp at this
      show received i j log = A k ++ add k
      rw [w3 hall, hz, List.append_nil]
  rcases hkind with ⟨h1, h2⟩ | ⟨t, t', h1, h2, h3, h4⟩
  · have hst : s'.st = s.st := by rw [h1, h2]
    refine ⟨by rw [hst]; exact h.hooks, ?_, ?_, ?_, ?_, ?_⟩
    · have hq := h.queues
      rw [h1] at hq
      rw [h2, hc]
      simp only [QueueInv, Option.map_none, Option.bind_none] at hq ⊢
      intro j k hk
      exact List.IsPrefix.trans (hq j k hk) (List.prefix_append _ _)
    · intro t ht; rw [h2] at ht; simp at ht
    · rw [hc]; exact h.limit
    · intro t q ht; rw [h2] at ht; simp at ht
    · rw [hst, hc]; exact fun a b => hwhy (h.why a b)
  · -- the kind of the stage and the presence of queues are the same
    have hqs : (t.stage.queues = none ↔ t'.stage.queues = none) := by
      constructor
      · intro hx; exact (h4.none hx).1
      · intro hx
        cases hq : t.stage.queues with
        | none => rfl
        | some q =>
          obtain ⟨q', e, _⟩ := h4.some q hq
          rw [hx] at e; simp at e
    have hk := h4.kind
    have hhook : ∀ hl, HookInv (some t.stage) hl → HookInv (some t'.stage) hl := by
      intro hl hh
      cases hg : t.stage with
      | setup r q =>
        rw [hg] at hk hh
        cases hg' : t'.stage <;> rw [hg'] at hk <;> simp [Stage.kind] at hk
        exact hh
      | next q =>
        rw [hg] at hk hh
        cases hg' : t'.stage <;> rw [hg'] at hk <;> simp [Stage.kind] at hk
        exact hh
      | finish o =>
        rw [hg] at hk hh hqs
        cases hg' : t'.stage with
        | finish o' =>
          rw [hg'] at hqs
          cases o <;> cases o' <;> simp [Stage.queues] at hqs <;> exact hh
        | _ => rw [hg'] at hk; simp [Stage.kind] at hk
      | raised o =>
        rw [hg] at hk hh hqs
        cases hg' : t'.stage with
        | raised o' =>
          rw [hg'] at hqs
          cases o <;> cases o' <;> simp [Stage.queues] at hqs <;> exact hh
        | _ => rw [hg'] at hk; simp [Stage.kind] at hk
    have hclosed : Closed (some t'.stage) → Closed (some t.stage) := by
      intro hh
      cases hg : t.stage <;> rw [hg] at hk <;> cases hg' : t'.stage <;> rw [hg'] at hk hh <;>
        simp [Stage.kind] at hk <;> simp [Closed] at hh ⊢
    refine ⟨?_, ?_, ?_, ?_, ?_, ?_⟩
    · have := h.hooks
      rw [h1] at this
      rw [h2]
      exact hhook _ this
    · have hq := h.queues
      rw [h1] at hq
      rw [h2, hc]
      simp only [QueueInv, Option.map_some, Option.bind_some] at hq ⊢
      cases hqq : t.stage.queues with
      | none =>
        obtain ⟨e, ha⟩ := h4.none hqq
        rw [hqq] at hq
        rw [e]
        simp only at hq ⊢
        intro j k hk'
        rw [ha k (List.mem_of_getElem? hk'), List.append_nil]
        exact hq j k hk'
      | some q =>
        obtain ⟨q', e, l1, g1⟩ := h4.some q hqq
        rw [hqq] at hq
        rw [e]
        simp only at hq ⊢
        refine ⟨by rw [l1]; exact hq.1, ?_⟩
        intro j k l' hk' hl'
        obtain ⟨l, e1, rfl⟩ := g1 j k l' hk' hl'
        rw [← List.append_assoc, hq.2 j k l hk' e1]
    · intro u hu
      rw [h2] at hu
      obtain rfl := Option.some.inj hu
      rw [h3]; exact h.iters t h1
    · rw [hc]; exact h.limit
    · intro u q hu hgu
      rw [h2] at hu
      obtain rfl := Option.some.inj hu
      rw [hc]
      rw [hgu] at hk
      cases hg : t.stage with
      | next q0 => exact h.limitNext t q0 h1 hg
      | _ => rw [hg] at hk; simp [Stage.kind] at hk
    · intro a b
      rw [h2] at a
      rw [hc]
      exact hwhy (h.why (by rw [h1]; exact hclosed a) b)

theorem hooksOf_call {i : Nat} {h : Hook} {args : List (Option α)} {r : Ret α}
    {log : List (Event α)} : hooksOf i (log ++ [⟨i, h, args, r⟩]) = hooksOf i log ++ [h] :=
  hooksOf_same rfl

theorem received_call {i j : Nat} {args : List (Option α)} {r : Ret α} {log : List (Event α)}
    {x : Option α} (hx : args[j]? = some x) :
    received i j (log ++ [⟨i, .next, args, r⟩]) = received i j log ++ [x] :=
  received_same (e := ⟨i, .next, args, r⟩) rfl rfl hx

/-! ## One round -/

theorem mem_replicate_next (n : Nat) : Hook.setup ∉ List.replicate n Hook.next := by
  intro h
  have := List.eq_of_mem_replicate h
  simp at this

/-- A hook call of the task itself, before its products are delivered. -/
theorem SInv.called {cfgs : List Cfg} {A : Key → List (Option α)} {lv : Nat → Bool} {i : Nat}
    {c : Cfg} {t t' : TState α} {log : List (Event α)} {r ret : Ret α}
    {e : Hook × List (Option α)} (h : SInv cfgs A lv i ⟨c, some t⟩ log)
    (hp : pipelineNext c t r = .out t' e ret) :
    SInv cfgs A lv i ⟨c, some t'⟩ (log ++ [⟨i, e.1, e.2, ret⟩]) := by
  have hq := h.queues
  have hh := h.hooks
  simp only [Option.map_some] at hq hh
  have hit := h.iters t rfl
  unfold pipelineNext at hp
  cases hg : t.stage with
  | setup req q =>
    rw [hg] at hp hq hh
    simp only at hp
    have hnil : hooksOf i log = [] := hh
    have hnx : Hook.next ∉ hooksOf i log := by rw [hnil]; simp
    split at hp
    · rename_i hall
      -- a call of setup
      have key : afterOther .setup req t r = .out t.advance (.setup, req) r := by
        cases r <;> simp [afterOther] at hp ⊢
      rw [key] at hp
      simp only [NextRes.out.injEq] at hp
      obtain ⟨rfl, rfl, rfl⟩ := hp
      have hst : t.advance.stage = .next q := by
        simp [TState.advance, hg, Stage.advance, hall]
      have h3 : emissions i (log ++ [⟨i, .setup, req, r⟩]) = emissions i log :=
        emissions_other (Or.inr (Or.inl (by simp)))
      have h0 := emissions_zero hnx
      refine ⟨?_, ?_, ?_, ?_, ?_, ?_⟩
      · rw [hooksOf_call, hnil]
        simp only [Option.map_some, hst]
        exact ⟨0, rfl⟩
      · simp only [Option.map_some, hst]
        exact queueInv_congr hq fun j => received_other (Or.inr (by simp))
      · intro u hu
        obtain rfl := Option.some.inj hu
        rw [h3]; exact hit
      · rw [h3, h0]; intro l _; right; omega
      · intro u q' _ _ l _; right; rw [h3, h0]
      · simp only [Option.map_some, hst]
        intro hc; exact absurd hc (by simp [Closed])
    · simp at hp
  | next q =>
    rw [hg] at hp hq hh
    simp only at hp
    obtain ⟨n, hn⟩ := hh
    cases hpop : pop q with
    | none => rw [hpop] at hp; simp at hp
    | some v =>
      obtain ⟨args, q'⟩ := v
      rw [hpop] at hp
      simp only at hp
      obtain ⟨p1, p2, p3⟩ := pop_some hpop
      have hqlen : q.length = c.inKeys.length := hq.1
      have hqq := hq.2
      -- what has been received after the call
      have hrec : ∀ (ret : Ret α) (j : Nat) (k : Key), c.inKeys[j]? = some k →
          ∃ l', q'[j]? = some l' ∧
            received i j (log ++ [⟨i, .next, args, ret⟩]) ++ l' = A k := by
        intro ret j k hk
        have hj : j < q.length := by
          rw [hqlen]
          apply Nat.lt_of_not_le
          intro hcon
          rw [List.getElem?_eq_none hcon] at hk
          simp at hk
        obtain ⟨x, l', a1, a2, a3⟩ := p3 j _ (List.getElem?_eq_getElem hj)
        refine ⟨l', a2, ?_⟩
        rw [received_call a1, List.append_assoc]
        have := hqq j k _ hk (List.getElem?_eq_getElem hj)
        rw [a3] at this
        exact this
      have hopen : ∀ ret, QueueInv A c i (log ++ [⟨i, .next, args, ret⟩]) (some (.next q')) := by
        intro ret
        refine ⟨by rw [p1]; exact hqlen, ?_⟩
        intro j k l hk hl
        obtain ⟨l', b1, b2⟩ := hrec ret j k hk
        rw [b1] at hl
        obtain rfl := Option.some.inj hl
        exact b2
      have hclosed : ∀ ret, QueueInv A c i (log ++ [⟨i, .next, args, ret⟩])
          (some (.finish none)) := by
        intro ret j k hk
        obtain ⟨l', b1, b2⟩ := hrec ret j k hk
        rw [← b2]
        exact List.prefix_append _ _
      have hhooks : ∀ ret, ∃ m, hooksOf i (log ++ [⟨i, .next, args, ret⟩]) =
          .setup :: List.replicate m .next := by
        intro ret
        refine ⟨n + 1, ?_⟩
        rw [hooksOf_call, hn, List.replicate_succ', List.cons_append]
      have emit : ∀ ret, isEmission ret = true →
          t' = ⟨if limitReached c (t.iters + 1) then .finish none else .next q', t.iters + 1⟩ →
          SInv cfgs A lv i ⟨c, some t'⟩ (log ++ [⟨i, .next, args, ret⟩]) := by
        intro ret hem ht'
        have h3 : emissions i (log ++ [⟨i, .next, args, ret⟩]) = emissions i log + 1 :=
          emissions_same rfl rfl hem
        have hlim : ∀ l, c.limit = some l → ((emissions i log + 1 : Nat) : Int) ≤ l ∨
            emissions i log + 1 ≤ 1 := by
          intro l hl
          rcases h.limitNext t q rfl hg l hl with b | b
          · left; omega
          · right; omega
        subst ht'
        by_cases hlr : limitReached c (t.iters + 1) = true
        · rw [if_pos hlr]
          refine ⟨hhooks ret, hclosed ret, ?_, ?_, ?_, ?_⟩
          · intro u hu
            obtain rfl := Option.some.inj hu
            simp only
            rw [h3, hit]
          · rw [h3]; exact hlim
          · intro u q1 hu hgu
            obtain rfl := Option.some.inj hu
            simp at hgu
          · intro _ _
            right; left
            unfold limitReached at hlr
            cases hcl : c.limit with
            | none => rw [hcl] at hlr; simp at hlr
            | some l =>
              rw [hcl] at hlr
              simp only [decide_eq_true_eq] at hlr
              refine ⟨l, hcl, ?_, ?_⟩
              · rw [h3, ← hit]; exact hlr
              · rw [h3]; omega
        · rw [if_neg hlr]
          refine ⟨hhooks ret, hopen ret, ?_, ?_, ?_, ?_⟩
          · intro u hu
            obtain rfl := Option.some.inj hu
            simp only
            rw [h3, hit]
          · rw [h3]; exact hlim
          · intro u q1 hu hgu l hl
            left
            unfold limitReached at hlr
            rw [hl] at hlr
            simp only [decide_eq_true_eq] at hlr
            rw [h3, ← hit]
            omega
          · intro hc; exact absurd hc (by simp [Closed])
      cases r with
      | error => simp [afterNext] at hp
      | stop =>
        simp only [afterNext, NextRes.out.injEq] at hp
        obtain ⟨rfl, rfl, rfl⟩ := hp
        have h3 : emissions i (log ++ [⟨i, .next, args, .stop⟩]) = emissions i log :=
          emissions_other (Or.inr (Or.inr rfl))
        refine ⟨hhooks _, hclosed _, ?_, ?_, ?_, ?_⟩
        · intro u hu
          obtain rfl := Option.some.inj hu
          rw [h3]; exact hit
        · rw [h3]; exact h.limit
        · intro u q1 hu hgu
          obtain rfl := Option.some.inj hu
          simp at hgu
        · intro _ _
          left
          exact ⟨_, List.mem_append_right _ (List.mem_singleton.2 rfl), rfl, rfl, rfl⟩
      | none =>
        simp only [afterNext, NextRes.out.injEq] at hp
        obtain ⟨rfl, rfl, rfl⟩ := hp
        have h3 : emissions i (log ++ [⟨i, .next, args, .none⟩]) = emissions i log :=
          emissions_other (Or.inr (Or.inr rfl))
        refine ⟨hhooks _, hopen _, ?_, ?_, ?_, ?_⟩
        · intro u hu
          obtain rfl := Option.some.inj hu
          rw [h3]; exact hit
        · rw [h3]; exact h.limit
        · intro u q1 hu hgu l hl
          rw [h3]
          exact h.limitNext t q rfl hg l hl
        · intro hc; exact absurd hc (by simp [Closed])
      | obj p =>
        simp only [afterNext, NextRes.out.injEq] at hp
        obtain ⟨h1, rfl, rfl⟩ := hp
        exact emit _ rfl h1.symm
      | tup l =>
        simp only [afterNext, NextRes.out.injEq] at hp
        obtain ⟨h1, rfl, rfl⟩ := hp
        exact emit _ rfl h1.symm
      | lst w l =>
        simp only [afterNext, NextRes.out.injEq] at hp
        obtain ⟨h1, rfl, rfl⟩ := hp
        exact emit _ rfl h1.symm
  | finish o =>
    rw [hg] at hp hq hh
    simp only at hp
    have key : afterOther .finish [] t r = .out t.advance (.finish, []) r := by
      cases r <;> simp [afterOther] at hp ⊢
    rw [key] at hp
    simp only [NextRes.out.injEq] at hp
    obtain ⟨rfl, rfl, rfl⟩ := hp
    have hst : t.advance.stage = .raised o := by simp [TState.advance, hg, Stage.advance]
    have h3 : emissions i (log ++ [⟨i, .finish, [], r⟩]) = emissions i log :=
      emissions_other (Or.inr (Or.inl (by simp)))
    have h2 : ∀ j, received i j (log ++ [⟨i, .finish, [], r⟩]) = received i j log :=
      fun j => received_other (Or.inr (by simp))
    refine ⟨?_, ?_, ?_, ?_, ?_, ?_⟩
    · rw [hooksOf_call]
      simp only [Option.map_some, hst]
      cases o with
      | none =>
        obtain ⟨n, hn⟩ := hh
        exact ⟨n, by rw [hn]⟩
      | some q =>
        have : hooksOf i log = [] := hh
        rw [this]; rfl
    · simp only [Option.map_some, hst]
      have := queueInv_congr hq h2
      cases o <;> exact this
    · intro u hu
      obtain rfl := Option.some.inj hu
      rw [h3]; exact hit
    · rw [h3]; exact h.limit
    · intro u q1 hu hgu
      obtain rfl := Option.some.inj hu
      rw [hst] at hgu
      simp at hgu
    · intro _ hs
      rw [hooksOf_call] at hs
      have hs' : Hook.setup ∈ hooksOf i log := by
        rcases List.mem_append.1 hs with a | a
        · exact a
        · simp at a
      have hw := h.why (by simp only [Option.map_some, hg]; simp [Closed]) hs'
      rcases hw with w | w | ⟨w1, j, k, w2, w3⟩
      · exact Or.inl (askedToStop_append _ w)
      · refine Or.inr (Or.inl ?_)
        obtain ⟨l, a1, a2, a3⟩ := w
        exact ⟨l, a1, by rw [h3]; exact a2, by rw [h3]; exact a3⟩
      · exact Or.inr (Or.inr ⟨w1, j, k, w2, fun hm => by rw [h2]; exact w3 hm⟩)
  | raised o =>
    rw [hg] at hp
    simp at hp

/-- The task at the head lacks input and is advanced. -/
theorem SInv.missing {cfgs : List Cfg} {A : Key → List (Option α)} {lv : Nat → Bool} {i : Nat}
    {c : Cfg} {t : TState α} {log : List (Event α)} {r : Ret α}
    (h : SInv cfgs A lv i ⟨c, some t⟩ log) (hp : pipelineNext c t r = .missing)
    (hl : ∀ m, m < i → lv m = false) : SInv cfgs A lv i ⟨c, some t.advance⟩ log := by
  have hq := h.queues
  have hh := h.hooks
  simp only [Option.map_some] at hq hh
  have hit := h.iters t rfl
  have hit' : ∀ u, some t.advance = some u → u.iters = emissions i log := by
    intro u hu
    obtain rfl := Option.some.inj hu
    exact hit
  unfold pipelineNext at hp
  cases hg : t.stage with
  | setup req q =>
    rw [hg] at hp hq hh
    simp only at hp
    split at hp
    · cases r <;> simp [afterOther] at hp
    · rename_i hall
      have hst : t.advance.stage = .finish (some q) := by
        simp [TState.advance, hg, Stage.advance, hall]
      have hnil : hooksOf i log = [] := hh
      refine ⟨?_, ?_, hit', h.limit, ?_, ?_⟩
      · simp only [Option.map_some, hst]; exact hnil
      · simp only [Option.map_some, hst]; exact hq
      · intro u q1 hu hgu
        obtain rfl := Option.some.inj hu
        rw [hst] at hgu; simp at hgu
      · intro _ hs; rw [hnil] at hs; simp at hs
  | next q =>
    rw [hg] at hp hq hh
    simp only at hp
    cases hpop : pop q with
    | some v =>
      obtain ⟨args, q'⟩ := v
      rw [hpop] at hp
      cases r <;> simp [afterNext] at hp
    | none =>
      have hst : t.advance.stage = .finish none := by simp [TState.advance, hg, Stage.advance]
      obtain ⟨hlen, hqq⟩ := hq
      have hget : ∀ (j : Nat) (k : Key), c.inKeys[j]? = some k → ∃ l, q[j]? = some l := by
        intro j k hk
        have hj : j < q.length := by
          have hlen' : q.length = c.inKeys.length := hlen
          rw [hlen']
          apply Nat.lt_of_not_le
          intro hcon
          rw [List.getElem?_eq_none hcon] at hk
          simp at hk
        exact ⟨_, List.getElem?_eq_getElem hj⟩
      refine ⟨?_, ?_, hit', h.limit, ?_, ?_⟩
      · simp only [Option.map_some, hst]; exact hh
      · simp only [Option.map_some, hst]
        intro j k hk
        obtain ⟨l, hl⟩ := hget j k hk
        rw [← hqq j k l hk hl]
        exact List.prefix_append _ _
      · intro u q1 hu hgu
        obtain rfl := Option.some.inj hu
        rw [hst] at hgu; simp at hgu
      · intro _ _
        obtain ⟨j, hj⟩ := pop_none hpop
        have hjl : j < c.inKeys.length := by
          have hlen' : q.length = c.inKeys.length := hlen
          rw [← hlen']
          apply Nat.lt_of_not_le
          intro hcon
          rw [List.getElem?_eq_none hcon] at hj
          simp at hj
        refine Or.inr (Or.inr ⟨hl, j, _, List.getElem?_eq_getElem hjl, fun _ => ?_⟩)
        have := hqq j _ [] (List.getElem?_eq_getElem hjl) hj
        simpa using this
  | finish o =>
    rw [hg] at hp
    simp only at hp
    cases r <;> simp [afterOther] at hp
  | raised o => rw [hg] at hp; simp at hp

theorem SInv.removed {cfgs : List Cfg} {A : Key → List (Option α)} {lv : Nat → Bool} {i : Nat}
    {c : Cfg} {t : TState α} {log : List (Event α)} {r : Ret α}
    (h : SInv cfgs A lv i ⟨c, some t⟩ log) (hp : pipelineNext c t r = .finished) :
    SInv cfgs A lv i ⟨c, none⟩ log := by
  have hq := h.queues
  have hh := h.hooks
  simp only [Option.map_some] at hq hh
  unfold pipelineNext at hp
  cases hg : t.stage with
  | setup req q =>
    rw [hg] at hp
    simp only at hp
    split at hp
    · cases r <;> simp [afterOther] at hp
    · simp at hp
  | next q =>
    rw [hg] at hp
    simp only at hp
    cases hpop : pop q with
    | some v =>
      obtain ⟨args, q'⟩ := v
      rw [hpop] at hp
      cases r <;> simp [afterNext] at hp
    | none => rw [hpop] at hp; simp at hp
  | finish o =>
    rw [hg] at hp
    simp only at hp
    cases r <;> simp [afterOther] at hp
  | raised o =>
    rw [hg] at hh hq
    refine ⟨?_, ?_, by simp, h.limit, by simp, ?_⟩
    · cases o with
      | none => exact Or.inr hh
      | some q => exact Or.inl hh
    · cases o with
      | none => exact hq
      | some q =>
        intro j k _
        have hnx : Hook.next ∉ hooksOf i log := by
          have : hooksOf i log = [.finish] := hh
          rw [this]; simp
        rw [received_nil hnx]
        exact List.nil_prefix
    · intro _ hs
      exact h.why (by simp only [Option.map_some, hg]; simp [Closed]) hs

/-! ## The task list -/

theorem getElem?_lt {β : Type} {l : List β} {i : Nat} {x : β} (h : l[i]? = some x) :
    i < l.length := by
  apply Nat.lt_of_not_le
  intro hcon
  rw [List.getElem?_eq_none hcon] at h
  simp at h

theorem setTask_get {ts : List (Slot α)} {i : Nat} {c : Cfg} {t : Option (TState α)} {s0 : Slot α}
    (h : ts[i]? = some s0) (j : Nat) (s : Slot α) (hs : (setTask ts i c t)[j]? = some s) :
    (j = i ∧ s = ⟨c, t⟩) ∨ (j ≠ i ∧ ts[j]? = some s) := by
  unfold setTask at hs
  by_cases hj : j = i
  · subst hj
    rw [List.getElem?_set_self (getElem?_lt h)] at hs
    exact Or.inl ⟨rfl, (Option.some.inj hs).symm⟩
  · rw [List.getElem?_set_ne (fun e => hj e.symm)] at hs
    exact Or.inr ⟨hj, hs⟩

theorem setTask_self {ts : List (Slot α)} {i : Nat} {c : Cfg} {t : Option (TState α)} {s0 : Slot α}
    (h : ts[i]? = some s0) : (setTask ts i c t)[i]? = some ⟨c, t⟩ :=
  List.getElem?_set_self (getElem?_lt h)

theorem setTask_ne {ts : List (Slot α)} {i j : Nat} {c : Cfg} {t : Option (TState α)}
    (h : j ≠ i) : (setTask ts i c t)[j]? = ts[j]? :=
  List.getElem?_set_ne (fun e => h e.symm)

theorem live_congr {ts ts' : List (Slot α)} {j : Nat} (h : ts'[j]? = ts[j]?) :
    live ts' j = live ts j := by
  unfold live; rw [h]

theorem live_setSome {ts : List (Slot α)} {i : Nat} {c : Cfg} {t t' : TState α}
    (h : ts[i]? = some ⟨c, some t⟩) : live (setTask ts i c (some t')) = live ts := by
  funext j
  by_cases hj : j = i
  · subst hj
    rw [(live_iff _ _).2 ⟨c, t', setTask_self h⟩, (live_iff _ _).2 ⟨c, t, h⟩]
  · exact live_congr (setTask_ne hj)

theorem live_setNone {ts : List (Slot α)} {i : Nat} {c : Cfg} {s0 : Slot α}
    (h : ts[i]? = some s0) (j : Nat) :
    live (setTask ts i c none) j = (if j = i then false else live ts j) := by
  by_cases hj : j = i
  · subst hj
    rw [if_pos rfl]
    unfold live
    rw [setTask_self h]
  · rw [if_neg hj]
    exact live_congr (setTask_ne hj)

theorem setTask_cfg {ts : List (Slot α)} {i : Nat} {c : Cfg} {t : Option (TState α)}
    {u : Option (TState α)} (h : ts[i]? = some ⟨c, u⟩) :
    (setTask ts i c t).map Slot.cfg = ts.map Slot.cfg := by
  unfold setTask
  rw [List.map_set]
  apply List.ext_getElem?
  intro j
  by_cases hj : i = j
  · subst hj
    rw [List.getElem?_set_self (by rw [List.length_map]; exact getElem?_lt h), List.getElem?_map, h]
    rfl
  · rw [List.getElem?_set_ne hj]

theorem each_live {add : Key → List (Option α)} {ts ts' : List (Slot α)}
    (h : Each (SFed add) ts ts') : live ts' = live ts := by
  funext j
  cases hs : ts[j]? with
  | none =>
    have h1 := List.getElem?_eq_none_iff.1 hs
    have h2 : ts'[j]? = none := List.getElem?_eq_none (by rw [h.1]; exact h1)
    unfold live
    rw [hs, h2]
  | some s =>
    obtain ⟨s', e, f1, f2, f3⟩ := h.2 j s hs
    obtain ⟨c, st⟩ := s
    obtain ⟨c', st'⟩ := s'
    cases st with
    | none =>
      have := f2 rfl
      simp only at this
      subst this
      unfold live
      rw [hs, e]
    | some t =>
      obtain ⟨t', e1, _⟩ := f3 t rfl
      simp only at e1
      subst e1
      rw [(live_iff _ _).2 ⟨c', t', e⟩, (live_iff _ _).2 ⟨c, t, hs⟩]

theorem each_cfg {add : Key → List (Option α)} {ts ts' : List (Slot α)}
    (h : Each (SFed add) ts ts') : ts'.map Slot.cfg = ts.map Slot.cfg := by
  apply List.ext_getElem?
  intro j
  rw [List.getElem?_map, List.getElem?_map]
  cases hs : ts[j]? with
  | none =>
    have h1 := List.getElem?_eq_none_iff.1 hs
    rw [List.getElem?_eq_none (by rw [h.1]; exact h1)]
  | some s =>
    obtain ⟨s', e, f1, _⟩ := h.2 j s hs
    rw [e]
    simp [f1]

theorem newHead_inv {ts : List (Slot α)} {head : Nat} (h : ∀ i, i < head → live ts i = false) :
    HeadInv ts (newHead ts head) := by
  have hl : ∀ i, live ts i = true → i < ts.length := by
    intro i hi
    obtain ⟨c, t, e⟩ := (live_iff _ _).1 hi
    exact getElem?_lt e
  unfold newHead
  split
  · rename_i k hk
    have h1 := List.find?_some hk
    obtain ⟨-, as, bs, he, hn⟩ := List.find?_eq_some_iff_append.1 hk
    refine ⟨?_, fun _ => h1⟩
    intro i hi
    by_cases hih : i < head
    · exact h i hih
    · -- `i` comes before `k` in the range
      have hsorted : (List.range' head (ts.length - head)).Pairwise (· < ·) :=
        List.pairwise_lt_range'
      have hmem : i ∈ List.range' head (ts.length - head) := by
        have hk' : k ∈ List.range' head (ts.length - head) := by rw [he]; simp
        rw [List.mem_range'_1] at hk' ⊢
        omega
      rw [he] at hmem hsorted
      rcases List.mem_append.1 hmem with a | a
      · have := hn i a
        simpa using this
      · exfalso
        rw [List.pairwise_append] at hsorted
        rcases List.mem_cons.1 a with rfl | a
        · omega
        · have := (List.pairwise_cons.1 hsorted.2.1).1 i a
          omega
  · rename_i hk
    refine ⟨h, ?_⟩
    rintro ⟨i, hi⟩
    exfalso
    have hge : ¬ i < head := fun hc => by
      have := h i hc
      rw [hi] at this
      simp at this
    have hlt := hl i hi
    have := List.find?_eq_none.1 hk i (by rw [List.mem_range'_1]; omega)
    exact this hi

/-! ## The step -/

/-- What has been delivered under a key. -/
def Acc (keyOk : Key → Bool) (cfgs : List Cfg) (log : List (Event α)) (k : Key) :
    List (Option α) := if keyOk k then emitted cfgs k log else []

theorem acc_append (keyOk : Key → Bool) (cfgs : List Cfg) (log : List (Event α)) (e : Event α)
    (d : Cfg) (hd : cfgs[e.task]? = some d) :
    Acc keyOk cfgs (log ++ [e]) =
      fun k => Acc keyOk cfgs log k ++ (if keyOk k then adds k (outputs d e.ret) else []) := by
  funext k
  unfold Acc
  by_cases hk : keyOk k
  · simp [hk, emitted, List.flatMap_append, emittedBy, hd, adds]
  · simp [hk]

theorem step_inv {keyOk : Key → Bool} {cfgs : List Cfg} (hwf : WellFormed cfgs) {s : State α}
    (hrun : s.status = .running)
    (h : GInv cfgs (Acc keyOk cfgs s.log) s.tasks s.head s.log) (r : Ret α)
    (hok : (step keyOk s r).status ≠ .failed) :
    GInv cfgs (Acc keyOk cfgs (step keyOk s r).log) (step keyOk s r).tasks (step keyOk s r).head
      (step keyOk s r).log := by
  unfold step at hok ⊢
  rw [hrun] at hok ⊢
  simp only at hok ⊢
  cases hn : nextTask s with
  | none => exact h
  | some i =>
    rw [hn] at hok
    simp only at hok ⊢
    have hni := nextTask_some hn h.head
    have hlive : live s.tasks i = true := by
      rcases hni with a | ⟨-, a⟩
      · obtain ⟨c, t, e, _⟩ := avail_live a
        exact (live_iff _ _).2 ⟨c, t, e⟩
      · exact a
    obtain ⟨c, t, hct⟩ := (live_iff _ _).1 hlive
    rw [hct] at hok ⊢
    simp only at hok ⊢
    have hsl := h.slots i _ hct
    have hdc : cfgs[i]? = some c := by
      rw [← h.same, List.getElem?_map, hct]; rfl
    cases hp : pipelineNext c t r with
    | missing =>
      rw [hp] at hok
      simp only [handle] at hok ⊢
      by_cases hih : i = s.head
      · rw [if_pos hih]
        simp only
        have hlv := live_setSome (t' := t.advance) hct
        refine ⟨by rw [setTask_cfg hct]; exact h.same, ?_, ?_⟩
        · unfold HeadInv; rw [hlv]; exact h.head
        · intro j sj hj
          rw [hlv]
          rcases setTask_get hct j sj hj with ⟨rfl, rfl⟩ | ⟨hne, hj'⟩
          · exact hsl.missing hp fun m hm => h.head.1 m (by omega)
          · exact h.slots j sj hj'
      · rw [if_neg hih]
        exact h
    | finished =>
      rw [hp] at hok
      simp only [handle] at hok ⊢
      have hlv := live_setNone (c := c) hct
      have hmono : ∀ m, live s.tasks m = false → live (setTask s.tasks i c none) m = false := by
        intro m hm
        rw [hlv]
        by_cases hmi : m = i <;> simp [hmi, hm]
      refine ⟨by rw [setTask_cfg hct]; exact h.same, ?_, ?_⟩
      · exact newHead_inv fun m hm => hmono m (h.head.1 m hm)
      · intro j sj hj
        apply SInv.mono _ hmono
        rcases setTask_get hct j sj hj with ⟨rfl, rfl⟩ | ⟨hne, hj'⟩
        · exact hsl.removed hp
        · exact h.slots j sj hj'
    | failed e =>
      rw [hp] at hok
      simp [handle] at hok
    | out t' e ret =>
      rw [hp] at hok
      simp only [handle] at hok ⊢
      cases hco : checkOutput c ret with
      | none => rw [hco] at hok; simp at hok
      | some outs =>
        rw [hco] at hok
        simp only at hok ⊢
        cases hqa : queueAll keyOk outs (setTask s.tasks i c (some t')) with
        | none => rw [hqa] at hok; simp at hok
        | some ts =>
          simp only
          have heach := queueAll_each hqa
          have hlv0 := live_setSome (t' := t') hct
          have hlv : live ts = live s.tasks := by rw [each_live heach, hlv0]
          have houts := checkOutput_spec (hwf c (List.mem_of_getElem? hdc)) hco
          refine ⟨?_, ?_, ?_⟩
          · rw [each_cfg heach, setTask_cfg hct]; exact h.same
          · unfold HeadInv; rw [hlv]; exact h.head
          · intro j sj hj
            rw [hlv, acc_append keyOk cfgs s.log ⟨i, e.1, e.2, ret⟩ c hdc]
            have hjlt : j < (setTask s.tasks i c (some t')).length := by
              rw [← heach.1]; exact getElem?_lt hj
            have hj0 := List.getElem?_eq_getElem hjlt
            obtain ⟨sj', e1, f1⟩ := heach.2 j _ hj0
            rw [hj] at e1
            obtain rfl := Option.some.inj e1
            have hbase : SInv cfgs (Acc keyOk cfgs s.log) (live s.tasks) j
                (setTask s.tasks i c (some t'))[j] (s.log ++ [⟨i, e.1, e.2, ret⟩]) := by
              rcases setTask_get hct j _ hj0 with ⟨rfl, hx⟩ | ⟨hne, hj'⟩
              · rw [hx]
                exact hsl.called hp
              · exact (h.slots j _ hj').other _ (fun hc => hne hc.symm)
            rw [houts] at f1
            refine hbase.fed f1 i hlive c hdc ?_
            intro k hk
            by_cases hko : keyOk k = true
            · rw [if_pos hko] at hk
              unfold adds at hk
              have : (outputs c ret).filter (fun x => decide (x.1 = k)) ≠ [] := by
                intro hc; rw [hc] at hk; simp at hk
              obtain ⟨x, hx⟩ := List.exists_mem_of_ne_nil _ this
              obtain ⟨hx1, hx2⟩ := List.mem_filter.1 hx
              have hx3 : x.1 = k := by simpa using hx2
              rw [← hx3]
              exact outputs_keys c ret x hx1
            · rw [if_neg hko] at hk
              exact absurd rfl hk

theorem init_inv (keyOk : Key → Bool) (cfgs : List Cfg) :
    GInv cfgs (Acc keyOk cfgs ([] : List (Event α))) (State.init cfgs : State α).tasks 0 [] := by
  have hmap : ∀ (i : Nat) (s : Slot α), (State.init cfgs : State α).tasks[i]? = some s →
      ∃ c, s = ⟨c, some (TState.init c)⟩ := by
    intro i s hs
    simp only [State.init, List.getElem?_map] at hs
    obtain ⟨c, _, rfl⟩ := Option.map_eq_some_iff.1 hs
    exact ⟨c, rfl⟩
  refine ⟨?_, ⟨fun i hi => by omega, ?_⟩, ?_⟩
  · simp [State.init, Function.comp_def]
  · rintro ⟨i, hi⟩
    obtain ⟨c, t, e⟩ := (live_iff _ _).1 hi
    have h0 := getElem?_lt e
    have h1 : 0 < (State.init cfgs : State α).tasks.length := by omega
    have h2 := List.getElem?_eq_getElem h1
    obtain ⟨c', hc'⟩ := hmap 0 _ h2
    rw [hc'] at h2
    exact (live_iff _ _).2 ⟨_, _, h2⟩
  · intro i s hs
    obtain ⟨c, rfl⟩ := hmap i s hs
    refine ⟨rfl, ?_, ?_, ?_, ?_, ?_⟩
    · refine ⟨by simp, ?_⟩
      intro j k l hk hl
      have : l = [] := by
        rw [List.getElem?_replicate] at hl
        split at hl
        · exact (Option.some.inj hl).symm
        · simp at hl
      subst this
      unfold Acc
      split <;> rfl
    · intro t ht
      obtain rfl := Option.some.inj ht
      rfl
    · intro l _; right; simp [emissions]
    · intro t q _ _ l _; right; simp [emissions]
    · intro hc; exact absurd hc (by simp [Closed, TState.init])

theorem step_stopped {keyOk : Key → Bool} {s : State α} (h : s.status ≠ .running) (r : Ret α) :
    step keyOk s r = s := by
  unfold step
  cases hs : s.status with
  | running => exact absurd hs h
  | done => rfl
  | failed => rfl

theorem run_inv (keyOk : Key → Bool) {cfgs : List Cfg} (hwf : WellFormed cfgs) (ρ : Nat → Ret α)
    (n : Nat) (hok : (run keyOk cfgs ρ n).status ≠ .failed) :
    GInv cfgs (Acc keyOk cfgs (run keyOk cfgs ρ n).log) (run keyOk cfgs ρ n).tasks
      (run keyOk cfgs ρ n).head (run keyOk cfgs ρ n).log := by
  induction n with
  | zero => exact init_inv keyOk cfgs
  | succ n ih =>
    simp only [run] at hok ⊢
    by_cases hr : (run keyOk cfgs ρ n).status = .running
    · exact step_inv hwf hr (ih (by rw [hr]; simp)) _ hok
    · rw [step_stopped hr] at hok ⊢
      exact ih hok

end Verif.Pipe
