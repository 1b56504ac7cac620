import Verif.Pipe.Spec

/-! # Helper lemmas for C20 - C24 -/
namespace Verif.Pipe
variable {α : Type}

/-! ## The log -/

def isEmission : Ret α → Bool
  | .obj _ => true
  | .tup _ => true
  | .lst _ _ => true
  | _ => false

theorem emissions_eq (i : Nat) (log : List (Event α)) :
    emissions i log = (log.filter fun e => decide (e.task = i ∧ e.hook = .next) &&
      isEmission e.ret).length := by
  unfold emissions isEmission
  rfl

theorem hooksOf_other {i : Nat} {log : List (Event α)} {e : Event α} (h : e.task ≠ i) :
    hooksOf i (log ++ [e]) = hooksOf i log := by
  simp [hooksOf, List.filter_append, h]

theorem hooksOf_same {i : Nat} {log : List (Event α)} {e : Event α} (h : e.task = i) :
    hooksOf i (log ++ [e]) = hooksOf i log ++ [e.hook] := by
  simp [hooksOf, List.filter_append, h]

theorem received_other {i j : Nat} {log : List (Event α)} {e : Event α}
    (h : e.task ≠ i ∨ e.hook ≠ .next) : received i j (log ++ [e]) = received i j log := by
  rcases h with h | h <;> simp [received, List.filter_append, h]

theorem received_same {i j : Nat} {log : List (Event α)} {e : Event α} (h : e.task = i)
    (h' : e.hook = .next) {x : Option α} (hx : e.args[j]? = some x) :
    received i j (log ++ [e]) = received i j log ++ [x] := by
  simp [received, List.filter_append, h, h', hx]

theorem emissions_other {i : Nat} {log : List (Event α)} {e : Event α}
    (h : e.task ≠ i ∨ e.hook ≠ .next ∨ isEmission e.ret = false) :
    emissions i (log ++ [e]) = emissions i log := by
  rw [emissions_eq, emissions_eq]
  rcases h with h | h | h <;> simp [List.filter_append, h]

theorem emissions_same {i : Nat} {log : List (Event α)} {e : Event α} (h : e.task = i)
    (h' : e.hook = .next) (h'' : isEmission e.ret = true) :
    emissions i (log ++ [e]) = emissions i log + 1 := by
  rw [emissions_eq, emissions_eq]
  simp [List.filter_append, h, h', h'']

theorem emissions_zero {i : Nat} {log : List (Event α)} (h : Hook.next ∉ hooksOf i log) :
    emissions i log = 0 := by
  rw [emissions_eq]
  apply List.length_eq_zero_iff.2
  apply List.filter_eq_nil_iff.2
  intro e he hc
  simp only [Bool.and_eq_true, decide_eq_true_eq] at hc
  apply h
  exact List.mem_map.2 ⟨e, List.mem_filter.2 ⟨he, by simp [hc.1.1]⟩, hc.1.2⟩

theorem received_nil {i : Nat} {log : List (Event α)} (h : Hook.next ∉ hooksOf i log) (j : Nat) :
    received i j log = [] := by
  have : (log.filter fun e => decide (e.task = i ∧ e.hook = .next)) = [] := by
    apply List.filter_eq_nil_iff.2
    intro e he hc
    simp only [decide_eq_true_eq] at hc
    exact h (List.mem_map.2 ⟨e, List.mem_filter.2 ⟨he, by simp [hc.1]⟩, hc.2⟩)
  rw [received, this]
  rfl

/-! ## Queues -/

theorem pop_none {q : List (List (Option α))} (h : pop q = none) : ∃ j : Nat, q[j]? = some [] := by
  induction q with
  | nil => simp [pop] at h
  | cons l ls ih =>
    cases l with
    | nil => exact ⟨0, rfl⟩
    | cons x l =>
      simp only [pop] at h
      cases hp : pop ls with
      | none =>
        obtain ⟨j, hj⟩ := ih hp
        exact ⟨j + 1, by simpa using hj⟩
      | some v => rw [hp] at h; simp at h

theorem pop_some {q : List (List (Option α))} {args : List (Option α)}
    {q' : List (List (Option α))} (h : pop q = some (args, q')) :
    q'.length = q.length ∧ args.length = q.length ∧
    ∀ (j : Nat) (l : List (Option α)), q[j]? = some l →
      ∃ x l', args[j]? = some x ∧ q'[j]? = some l' ∧ l = x :: l' := by
  induction q generalizing args q' with
  | nil =>
    simp only [pop, Option.some.injEq, Prod.mk.injEq] at h
    obtain ⟨rfl, rfl⟩ := h
    simp
  | cons l ls ih =>
    cases l with
    | nil => simp [pop] at h
    | cons x l =>
      simp only [pop] at h
      cases hp : pop ls with
      | none => rw [hp] at h; simp at h
      | some v =>
        obtain ⟨xs, qs'⟩ := v
        rw [hp] at h
        simp only [Option.some.injEq, Prod.mk.injEq] at h
        obtain ⟨rfl, rfl⟩ := h
        obtain ⟨h1, h2, h3⟩ := ih hp
        refine ⟨by simp [h1], by simp [h2], ?_⟩
        intro j m hj
        cases j with
        | zero =>
          simp only [List.getElem?_cons_zero, Option.some.injEq] at hj
          subst hj
          exact ⟨x, l, rfl, rfl, rfl⟩
        | succ j =>
          simp only [List.getElem?_cons_succ] at hj ⊢
          exact h3 j m hj

theorem pop_filled {q : List (List (Option α))} (h : allFilled q = true) : pop q ≠ none := by
  intro hc
  obtain ⟨j, hj⟩ := pop_none hc
  have := List.all_eq_true.1 h [] (List.mem_of_getElem? hj)
  simp at this

/-- What a list of products adds to a queue with a key. -/
def adds (k : Key) (outs : List (Key × Option α)) : List (Option α) :=
  (outs.filter fun x => decide (x.1 = k)).map Prod.snd

theorem push_length (key : Key) (p : Option α) (ks : List Key) (qs : List (List (Option α))) :
    (push key p ks qs).length = qs.length := by
  induction ks generalizing qs with
  | nil => simp [push]
  | cons k ks ih => cases qs <;> simp [push, ih]

theorem push_get (key : Key) (p : Option α) (ks : List Key) (qs : List (List (Option α))) (j : Nat)
    (k : Key) (l : List (Option α)) (hk : ks[j]? = some k) (hl : (push key p ks qs)[j]? = some l) :
    ∃ l0, qs[j]? = some l0 ∧ l = l0 ++ (if k = key then [p] else []) := by
  induction ks generalizing qs j with
  | nil => simp at hk
  | cons k' ks ih =>
    cases qs with
    | nil => simp [push] at hl
    | cons q qs =>
      cases j with
      | zero =>
        simp only [List.getElem?_cons_zero, Option.some.injEq, push] at hk hl
        subst hk
        refine ⟨q, rfl, ?_⟩
        rw [← hl]
        by_cases h : k' = key <;> simp [h]
      | succ j =>
        simp only [List.getElem?_cons_succ, push] at hk hl
        obtain ⟨l0, h1, h2⟩ := ih qs j hk hl
        exact ⟨l0, by simpa using h1, h2⟩

theorem stow_length (key : Key) (p : Option α) (ks : List Key) (rs rs' : List (Option α))
    (h : stow key p ks rs = some rs') : rs'.length = rs.length := by
  induction ks generalizing rs rs' with
  | nil => simp [stow] at h; rw [h]
  | cons k ks ih =>
    cases rs with
    | nil => simp [stow] at h; rw [h]
    | cons r rs =>
      simp only [stow] at h
      by_cases hk : k = key
      · rw [if_pos hk] at h
        by_cases hr : r.isSome
        · rw [if_pos hr] at h; simp at h
        · rw [if_neg hr] at h
          obtain ⟨rs1, e1, rfl⟩ := Option.map_eq_some_iff.1 h
          simp [ih _ _ e1]
      · rw [if_neg hk] at h
        obtain ⟨rs1, e1, rfl⟩ := Option.map_eq_some_iff.1 h
        simp [ih _ _ e1]

/-! ## Effect of the delivery on a task -/

/-- The stage without its data. -/
inductive Kind where
  | setup | next | finish | raised
deriving DecidableEq, Repr

def Stage.kind : Stage α → Kind
  | .setup _ _ => .setup
  | .next _ => .next
  | .finish _ => .finish
  | .raised _ => .raised

/-- Stage `g'` is stage `g` with the products `add k` appended to the queues with key `k`. -/
structure Fed (c : Cfg) (add : Key → List (Option α)) (g g' : Stage α) : Prop where
  kind : g'.kind = g.kind
  none : g.queues = none → g'.queues = none ∧ ∀ k ∈ c.inKeys, add k = []
  some : ∀ q, g.queues = some q → ∃ q', g'.queues = some q' ∧ q'.length = q.length ∧
    ∀ (j : Nat) (k : Key) (l' : List (Option α)), c.inKeys[j]? = Option.some k →
      q'[j]? = Option.some l' → ∃ l, q[j]? = Option.some l ∧ l' = l ++ add k

theorem Fed.refl (c : Cfg) (g : Stage α) : Fed c (fun _ => []) g g :=
  ⟨rfl, fun h => ⟨h, fun _ _ => rfl⟩, fun q hq => ⟨q, hq, rfl, fun j k l' _ h => ⟨l', h, by simp⟩⟩⟩

theorem Fed.trans {c : Cfg} {add add' : Key → List (Option α)} {g g' g'' : Stage α}
    (h : Fed c add g g') (h' : Fed c add' g' g'') : Fed c (fun k => add k ++ add' k) g g'' := by
  refine ⟨h'.kind.trans h.kind, ?_, ?_⟩
  · intro hn
    obtain ⟨h1, h2⟩ := h.none hn
    obtain ⟨h3, h4⟩ := h'.none h1
    exact ⟨h3, fun k hk => by simp [h2 k hk, h4 k hk]⟩
  · intro q hq
    obtain ⟨q', e1, l1, g1⟩ := h.some q hq
    obtain ⟨q'', e2, l2, g2⟩ := h'.some q' e1
    refine ⟨q'', e2, by omega, ?_⟩
    intro j k l'' hk hl
    obtain ⟨l', h3, rfl⟩ := g2 j k l'' hk hl
    obtain ⟨l, h4, rfl⟩ := g1 j k l' hk h3
    exact ⟨l, h4, by simp⟩

theorem queue_fed {c : Cfg} {key : Key} {p : Option α} {g g' : Stage α}
    (h : g.queue c key p = some g') : Fed c (fun k => if k = key then [p] else []) g g' := by
  have hp : ∀ q : List (List (Option α)), ∃ q', some (push key p c.inKeys q) = some q' ∧
      q'.length = q.length ∧ ∀ (j : Nat) (k : Key) (l' : List (Option α)), c.inKeys[j]? = some k →
      q'[j]? = some l' → ∃ l, q[j]? = some l ∧ l' = l ++ (if k = key then [p] else []) :=
    fun q => ⟨_, rfl, push_length _ _ _ _, fun j k l' hk hl => push_get _ _ _ _ j k l' hk hl⟩
  cases g with
  | setup req q =>
    simp only [Stage.queue] at h
    obtain ⟨req', e, rfl⟩ := Option.map_eq_some_iff.1 h
    refine ⟨rfl, fun hn => by simp [Stage.queues] at hn, fun q1 hq => ?_⟩
    simp only [Stage.queues, Option.some.injEq] at hq
    subst hq
    exact hp q
  | next q =>
    simp only [Stage.queue] at h
    split at h
    · simp at h
    · obtain rfl := Option.some.inj h
      refine ⟨rfl, fun hn => by simp [Stage.queues] at hn, fun q1 hq => ?_⟩
      simp only [Stage.queues, Option.some.injEq] at hq
      subst hq
      exact hp q
  | finish o =>
    cases o with
    | none =>
      simp only [Stage.queue] at h
      split at h
      · simp at h
      · rename_i hc
        obtain rfl := Option.some.inj h
        refine ⟨rfl, fun _ => ⟨rfl, fun k hk => ?_⟩, fun q hq => by simp [Stage.queues] at hq⟩
        rw [if_neg]
        rintro rfl
        exact hc (Or.inr hk)
    | some q =>
      simp only [Stage.queue] at h
      split at h
      · simp at h
      · obtain rfl := Option.some.inj h
        refine ⟨rfl, fun hn => by simp [Stage.queues] at hn, fun q1 hq => ?_⟩
        simp only [Stage.queues, Option.some.injEq] at hq
        subst hq
        exact hp q
  | raised o =>
    cases o with
    | none =>
      simp only [Stage.queue] at h
      split at h
      · simp at h
      · rename_i hc
        obtain rfl := Option.some.inj h
        refine ⟨rfl, fun _ => ⟨rfl, fun k hk => ?_⟩, fun q hq => by simp [Stage.queues] at hq⟩
        rw [if_neg]
        rintro rfl
        exact hc (Or.inr hk)
    | some q =>
      simp only [Stage.queue] at h
      split at h
      · simp at h
      · obtain rfl := Option.some.inj h
        refine ⟨rfl, fun hn => by simp [Stage.queues] at hn, fun q1 hq => ?_⟩
        simp only [Stage.queues, Option.some.injEq] at hq
        subst hq
        exact hp q

/-- Effect on an entry of the task list. -/
def SFed (add : Key → List (Option α)) (s s' : Slot α) : Prop :=
  s'.cfg = s.cfg ∧ (s.st = none → s'.st = none) ∧
    ∀ t, s.st = some t → ∃ t', s'.st = some t' ∧ t'.iters = t.iters ∧
      Fed s.cfg add t.stage t'.stage

theorem SFed.refl (s : Slot α) : SFed (fun _ => []) s s :=
  ⟨rfl, id, fun t ht => ⟨t, ht, rfl, Fed.refl _ _⟩⟩

theorem SFed.trans {add add' : Key → List (Option α)} {s s' s'' : Slot α} (h : SFed add s s')
    (h' : SFed add' s' s'') : SFed (fun k => add k ++ add' k) s s'' := by
  refine ⟨h'.1.trans h.1, fun hn => h'.2.1 (h.2.1 hn), ?_⟩
  intro t ht
  obtain ⟨t', e1, i1, f1⟩ := h.2.2 t ht
  obtain ⟨t'', e2, i2, f2⟩ := h'.2.2 t' e1
  rw [h.1] at f2
  exact ⟨t'', e2, i2.trans i1, f1.trans f2⟩

theorem slot_queue {key : Key} {p : Option α} {s s' : Slot α} (h : s.queue key p = some s') :
    SFed (fun k => if k = key then [p] else []) s s' := by
  unfold Slot.queue at h
  cases hs : s.st with
  | none =>
    rw [hs] at h
    obtain rfl := Option.some.inj h
    exact ⟨rfl, id, fun t ht => by rw [hs] at ht; simp at ht⟩
  | some t =>
    rw [hs] at h
    obtain ⟨g, e, rfl⟩ := Option.map_eq_some_iff.1 h
    refine ⟨rfl, fun hn => by rw [hs] at hn; simp at hn, ?_⟩
    intro t1 ht
    rw [hs] at ht
    obtain rfl := Option.some.inj ht
    exact ⟨_, rfl, rfl, queue_fed e⟩

/-- Two lists of slots are related entry by entry. -/
def Each (R : Slot α → Slot α → Prop) (ts ts' : List (Slot α)) : Prop :=
  ts'.length = ts.length ∧ ∀ (i : Nat) (s : Slot α), ts[i]? = some s →
    ∃ s', ts'[i]? = some s' ∧ R s s'

theorem queueTasks_each {key : Key} {p : Option α} {ts ts' : List (Slot α)}
    (h : queueTasks key p ts = some ts') :
    Each (SFed fun k => if k = key then [p] else []) ts ts' := by
  induction ts generalizing ts' with
  | nil =>
    simp only [queueTasks, Option.some.injEq] at h
    subst h
    exact ⟨rfl, fun i s hs => by simp at hs⟩
  | cons s ss ih =>
    simp only [queueTasks] at h
    cases hs : s.queue key p with
    | none => rw [hs] at h; simp at h
    | some s' =>
      rw [hs] at h
      obtain ⟨ss', e, rfl⟩ := Option.map_eq_some_iff.1 h
      obtain ⟨h1, h2⟩ := ih e
      refine ⟨by simp [h1], ?_⟩
      intro i x hx
      cases i with
      | zero =>
        simp only [List.getElem?_cons_zero, Option.some.injEq] at hx
        subst hx
        exact ⟨s', rfl, slot_queue hs⟩
      | succ i =>
        simp only [List.getElem?_cons_succ] at hx ⊢
        exact h2 i x hx

theorem queueAll_each {keyOk : Key → Bool} {outs : List (Key × Option α)} {ts ts' : List (Slot α)}
    (h : queueAll keyOk outs ts = some ts') :
    Each (SFed fun k => if keyOk k then adds k outs else []) ts ts' := by
  induction outs generalizing ts with
  | nil =>
    simp only [queueAll, Option.some.injEq] at h
    subst h
    refine ⟨rfl, fun i s hs => ⟨s, hs, ?_⟩⟩
    have : (fun k => if keyOk k then adds k ([] : List (Key × Option α)) else []) =
        fun _ => [] := by
      funext k
      simp [adds]
    rw [this]
    exact SFed.refl s
  | cons x rest ih =>
    obtain ⟨k, p⟩ := x
    simp only [queueAll] at h
    by_cases hk : keyOk k
    · rw [if_pos hk] at h
      cases hq : queueTasks k p ts with
      | none => rw [hq] at h; simp at h
      | some ts1 =>
        rw [hq] at h
        obtain ⟨l1, h1⟩ := queueTasks_each hq
        obtain ⟨l2, h2⟩ := ih h
        refine ⟨by omega, ?_⟩
        intro i s hs
        obtain ⟨s1, e1, f1⟩ := h1 i s hs
        obtain ⟨s2, e2, f2⟩ := h2 i s1 e1
        refine ⟨s2, e2, ?_⟩
        have := f1.trans f2
        have he : (fun k' => (if k' = k then [p] else []) ++
            (if keyOk k' then adds k' rest else [])) =
            fun k' => if keyOk k' then adds k' ((k, p) :: rest) else [] := by
          funext k'
          by_cases hkk : k' = k
          · subst hkk
            simp [adds, hk]
          · have hkk' : ¬ k = k' := fun h => hkk h.symm
            simp [adds, hkk, hkk']
        rw [← he]
        exact this
    · rw [if_neg hk] at h
      obtain ⟨l2, h2⟩ := ih h
      refine ⟨l2, ?_⟩
      intro i s hs
      obtain ⟨s', e, f⟩ := h2 i s hs
      refine ⟨s', e, ?_⟩
      have he : (fun k' => if keyOk k' then adds k' rest else []) =
          fun k' => if keyOk k' then adds k' ((k, p) :: rest) else [] := by
        funext k'
        by_cases hkk : k = k'
        · subst hkk
          simp [hk]
        · simp [adds, hkk]
      rw [← he]
      exact f

theorem outputs_nil {c : Cfg} (h : c.outKeys = []) (r : Ret α) : outputs c r = [] := by
  cases r <;> simp [outputs, h]

theorem checkOutput_spec {c : Cfg} {r : Ret α} {outs : List (Key × Option α)}
    (hwf : c.bareOut = true → c.outKeys.length = 1) (h : checkOutput c r = some outs) :
    outs = outputs c r := by
  unfold checkOutput at h
  split at h
  · rename_i he
    obtain rfl := Option.some.inj h
    exact (outputs_nil he _).symm
  · obtain rfl := Option.some.inj h; rfl
  · obtain rfl := Option.some.inj h; rfl
  · simp at h
  · rename_i k p he
    split at h
    · rename_i hb
      obtain rfl := Option.some.inj h
      simp [outputs, hb, he]
    · simp at h
  · rename_i k l he
    obtain rfl := Option.some.inj h
    simp [outputs, he]
  · rename_i k w l he
    split at h
    · rename_i hb
      obtain rfl := Option.some.inj h
      simp [outputs, hb, he]
    · rename_i hb
      obtain rfl := Option.some.inj h
      simp [outputs, hb, he]
  · simp at h
  · rename_i ks l h1 h2
    split at h
    · obtain rfl := Option.some.inj h
      simp [outputs]
    · simp at h
  · rename_i ks w l h1 h2
    split at h
    · obtain rfl := Option.some.inj h
      have hb : c.bareOut = false := by
        cases hb : c.bareOut with
        | false => rfl
        | true =>
          exfalso
          have := hwf hb
          match hk : c.outKeys, this with
          | [k], _ => exact h2 k hk
      simp [outputs, hb]
    · simp at h

theorem outputs_keys (c : Cfg) (r : Ret α) (x : Key × Option α) (h : x ∈ outputs c r) :
    x.1 ∈ c.outKeys := by
  have hz : ∀ l : List (Option α), x ∈ c.outKeys.zip l → x.1 ∈ c.outKeys := by
    intro l hl
    exact (List.of_mem_zip (a := x.1) (b := x.2) hl).1
  cases r with
  | none => simp [outputs] at h
  | stop => simp [outputs] at h
  | error => simp [outputs] at h
  | obj p =>
    simp only [outputs] at h
    split at h
    · obtain ⟨k, hk, rfl⟩ := List.mem_map.1 h
      exact List.mem_of_mem_take hk
    · simp at h
  | tup l => exact hz l h
  | lst w l =>
    simp only [outputs] at h
    split at h
    · obtain ⟨k, hk, rfl⟩ := List.mem_map.1 h
      exact List.mem_of_mem_take hk
    · exact hz l h

/-! ## The choice of the task -/

theorem best_mem (ts : List (Slot α)) (cur : Nat) (js : List Nat) : best ts cur js ∈ cur :: js := by
  induction js generalizing cur with
  | nil => simp [best]
  | cons j js ih =>
    simp only [best]
    split
    · exact List.mem_cons_of_mem _ (ih j)
    · have := ih cur
      rcases List.mem_cons.1 this with h | h
      · rw [h]; simp
      · exact List.mem_cons_of_mem _ (List.mem_cons_of_mem _ h)

theorem live_iff (ts : List (Slot α)) (j : Nat) :
    live ts j = true ↔ ∃ c t, ts[j]? = some ⟨c, some t⟩ := by
  unfold live
  split
  · rename_i c t h
    exact ⟨fun _ => ⟨c, t, h⟩, fun _ => rfl⟩
  · rename_i h
    constructor
    · intro hc; simp at hc
    · rintro ⟨c, t, h'⟩
      exact absurd h' (h c t)

theorem live_false {ts : List (Slot α)} {j : Nat} (h : live ts j = false) (s : Slot α)
    (hs : ts[j]? = some s) : s.st = none := by
  cases hst : s.st with
  | none => rfl
  | some t =>
    obtain ⟨c, st⟩ := s
    simp only at hst
    subst hst
    have := (live_iff ts j).2 ⟨c, t, hs⟩
    rw [h] at this
    simp at this

theorem avail_live {ts : List (Slot α)} {j : Nat} (h : avail ts j = true) :
    ∃ c t, ts[j]? = some ⟨c, some t⟩ ∧ t.stage.available = true := by
  unfold avail at h
  split at h
  · rename_i c t e
    exact ⟨c, t, e, h⟩
  · simp at h

theorem not_missing {c : Cfg} {t : TState α} (h : t.stage.available = true) (r : Ret α) :
    pipelineNext c t r ≠ .missing := by
  unfold pipelineNext
  cases hg : t.stage with
  | setup req q =>
    rw [hg] at h
    simp only [Stage.available] at h
    simp only [h, if_true]
    cases r <;> simp [afterOther]
  | next q =>
    rw [hg] at h
    simp only [Stage.available, Bool.and_eq_true] at h
    simp only
    cases hp : pop q with
    | none => exact absurd hp (pop_filled h.2)
    | some v =>
      obtain ⟨args, q'⟩ := v
      cases r <;> simp [afterNext]
  | finish q => cases r <;> simp [afterOther]
  | raised q => simp

/-- Position of the head: nothing alive before it, and it is alive if anything is. -/
def HeadInv (ts : List (Slot α)) (head : Nat) : Prop :=
  (∀ i, i < head → live ts i = false) ∧ ((∃ i, live ts i = true) → live ts head = true)

theorem nextTask_some {s : State α} {i : Nat} (h : nextTask s = some i)
    (hh : HeadInv s.tasks s.head) :
    (avail s.tasks i = true) ∨ (i = s.head ∧ live s.tasks i = true) := by
  unfold nextTask at h
  split at h
  · rename_i he
    obtain hl := List.find?_some h
    have hm := List.mem_of_find?_eq_some h
    have hlh := hh.2 ⟨i, hl⟩
    obtain ⟨c, t, hc⟩ := (live_iff _ _).1 hlh
    have hlt : s.head < s.tasks.length := by
      apply Nat.lt_of_not_le
      intro hcon
      rw [List.getElem?_eq_none hcon] at hc
      simp at hc
    have hi : i = s.head := by
      unfold cyclic at h
      obtain ⟨n, hn⟩ : ∃ n, s.tasks.length = n + 1 := ⟨s.tasks.length - 1, by omega⟩
      have e0 : (0 + s.head) % s.tasks.length = s.head := by
        rw [Nat.zero_add, Nat.mod_eq_of_lt hlt]
      rw [hn, List.range_succ_eq_map, List.map_cons, ← hn, e0, List.find?_cons, hlh] at h
      exact (Option.some.inj h).symm
    exact Or.inr ⟨hi, hl⟩
  · rename_i j js he
    left
    have hm := best_mem s.tasks j js
    rw [← he] at hm
    obtain rfl := Option.some.inj h
    exact (List.mem_filter.1 hm).2

end Verif.Pipe
