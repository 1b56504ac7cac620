import Verif.Pipe.PortsLemmas

/-! # C124: objects put into a pipeline with `Input` and taken out with `Output` -/
namespace Verif.Pipe
variable {α : Type}

/-- An `Input` that is used up emits nothing more. -/
theorem used_up {cfgs : List Cfg} {i : Nat} {k : Key} {c : Cfg} (hc : cfgs[i]? = some c)
    (honly : ∀ (m : Nat) (d : Cfg), cfgs[m]? = some d → k ∈ d.outKeys → m = i) (log : List (Event α)) :
    ∀ p : Input α, p.rest = [] → inputPlays i p log → emitted cfgs k log = [] := by
  induction log with
  | nil => intro p _ _; rfl
  | cons e es ih =>
    intro p hp hpl
    have hcons : emitted cfgs k (e :: es) = emittedBy cfgs k e ++ emitted cfgs k es := rfl
    rw [hcons]
    have hquiet : ∀ r : Ret α, r = .none ∨ r = .stop → e.task = i → e.ret = r → emittedBy cfgs k e = [] := by
      intro r hr he hret
      unfold emittedBy
      rw [he, hc]
      rcases hr with rfl | rfl <;> simp [hret, outputs]
    by_cases he : e.task = i
    · simp only [inputPlays, if_pos he] at hpl
      cases hh : e.hook with
      | next =>
        simp only [hh] at hpl
        have hn : p.next = (.stop, ⟨p.inputs, some []⟩) := by
          unfold Input.next; rw [show p.iter.getD p.inputs = [] from hp]
        rw [hn] at hpl
        rw [hquiet .stop (Or.inr rfl) he hpl.1, ih _ rfl hpl.2]; rfl
      | setup =>
        simp only [hh] at hpl
        rw [hquiet .none (Or.inl rfl) he hpl.1, ih p hp hpl.2]; rfl
      | finish =>
        simp only [hh] at hpl
        rw [hquiet .none (Or.inl rfl) he hpl.1, ih p hp hpl.2]; rfl
    · simp only [inputPlays, if_neg he] at hpl
      have hz : emittedBy cfgs k e = [] := by
        unfold emittedBy
        split
        · rfl
        · rename_i d hd
          rw [List.map_eq_nil_iff, List.filter_eq_nil_iff]
          intro x hx hk
          simp only [decide_eq_true_eq] at hk
          exact he (honly _ d hd (hk ▸ outputs_keys d e.ret x hx))
      rw [hz, ih p hp hpl]; rfl

/-- The products of an `Input` that has come to its end are those of its items. -/
theorem all_given {cfgs : List Cfg} {i : Nat} {k : Key} {c : Cfg} (hc : cfgs[i]? = some c)
    (hout : c.outKeys = [k]) (hbare : c.bareOut = true)
    (honly : ∀ (m : Nat) (d : Cfg), cfgs[m]? = some d → k ∈ d.outKeys → m = i) (log : List (Event α)) :
    ∀ p : Input α, (∀ x ∈ p.rest, isItem x) → inputPlays i p log → askedToStop i log →
      emitted cfgs k log = p.rest.flatMap productOf := by
  induction log with
  | nil => intro p _ _ ⟨e, he, _⟩; simp at he
  | cons e es ih =>
    intro p hit hpl hstop
    have hcons : emitted cfgs k (e :: es) = emittedBy cfgs k e ++ emitted cfgs k es := rfl
    have hlater : ¬ (e.task = i ∧ e.hook = .next ∧ e.ret = .stop) → askedToStop i es := by
      intro hne
      obtain ⟨x, hx, h1⟩ := hstop
      rcases List.mem_cons.1 hx with rfl | hx
      · exact absurd h1 hne
      · exact ⟨x, hx, h1⟩
    rw [hcons]
    have hself : e.task = i → emittedBy cfgs k e = productOf e.ret ∨ ∃ l, e.ret = .tup l := by
      intro he
      unfold emittedBy
      rw [he, hc]
      cases hr : e.ret <;> simp [outputs, hout, hbare, productOf]
    have hself' : e.task = i → emittedBy cfgs k e = productOf e.ret := by
      intro he
      rcases hself he with h | ⟨l, h⟩
      · exact h
      · unfold emittedBy
        rw [he, hc, h]
        cases l <;> simp [outputs, hout, productOf]
    by_cases he : e.task = i
    · simp only [inputPlays, if_pos he] at hpl
      cases hh : e.hook with
      | next =>
        simp only [hh] at hpl
        cases hrest : p.rest with
        | nil =>
          have hn : p.next = (.stop, ⟨p.inputs, some []⟩) := by
            unfold Input.next; rw [show p.iter.getD p.inputs = [] from hrest]
          rw [hn] at hpl
          rw [hself' he, hpl.1, used_up hc honly es _ rfl hpl.2]; rfl
        | cons x xs =>
          have hn : p.next = (x, ⟨p.inputs, some xs⟩) := by
            unfold Input.next; rw [show p.iter.getD p.inputs = x :: xs from hrest]
          rw [hn] at hpl
          rw [hrest] at hit
          have hx := hit x (by simp)
          have hl := hlater (by
            rintro ⟨-, -, h⟩
            rw [hpl.1] at h
            simp only at h
            rw [h] at hx
            exact hx)
          rw [hself' he, hpl.1, ih ⟨p.inputs, some xs⟩ (fun y hy => hit y (List.mem_cons_of_mem _ hy)) hpl.2 hl]
          rfl
      | setup =>
        simp only [hh] at hpl
        rw [hself' he, hpl.1, ih p hit hpl.2 (hlater (by rw [hh]; simp))]; rfl
      | finish =>
        simp only [hh] at hpl
        rw [hself' he, hpl.1, ih p hit hpl.2 (hlater (by rw [hh]; simp))]; rfl
    · simp only [inputPlays, if_neg he] at hpl
      have hz : emittedBy cfgs k e = [] := by
        unfold emittedBy
        split
        · rfl
        · rename_i d hd
          rw [List.map_eq_nil_iff, List.filter_eq_nil_iff]
          intro x hx hk
          simp only [decide_eq_true_eq] at hk
          exact he (honly _ d hd (hk ▸ outputs_keys d e.ret x hx))
      rw [hz, ih p hit hpl (hlater (fun h => he h.1))]; rfl

/-- **C124.** In every run that ends, whatever the other tasks do: what has been produced under the key of an `Input`
is, in order, what the manager makes of each of its items. A single object is itself the product; see the theorems on
violations for `None` and for tuples. -/
theorem C124_given_partial (keyOk : Key → Bool) (cfgs : List Cfg) (hwf : WellFormed cfgs) (ρ : Nat → Ret α) (n : Nat)
    (hdone : (run keyOk cfgs ρ n).status = .done) (i : Nat) (c : Cfg) (k : Key) (hc : cfgs[i]? = some c)
    (hreq : c.reqKeys = []) (hin : c.inKeys = []) (hout : c.outKeys = [k]) (hbare : c.bareOut = true)
    (hlim : c.limit = none)
    (honly : ∀ (m : Nat) (d : Cfg), cfgs[m]? = some d → k ∈ d.outKeys → m = i)
    (xs : List (Ret α)) (hxs : ∀ x ∈ xs, isItem x) (hplay : inputPlays i ⟨xs, none⟩ (run keyOk cfgs ρ n).log) :
    emitted cfgs k (run keyOk cfgs ρ n).log = xs.flatMap productOf :=
  all_given hc hout hbare honly _ ⟨xs, none⟩ hxs hplay
    (source_stopped keyOk hwf ρ n hdone i c hc hreq hin hlim)

theorem output_next (p : Output α) (hp : p.plain) (args : List (Option α)) (h : (p.next args).1 ≠ .error) :
    (p.next args).1 = .none ∧ ∃ x y, args = [x] ∧ p.apply x = some y ∧
      (p.next args).2 = ⟨p.callback, p.outputs ++ [y]⟩ := by
  match args with
  | [] => simp [Output.next] at h
  | x :: x' :: l => simp [Output.next] at h
  | [x] =>
    cases hcb : p.callback with
    | none => simp [Output.next, hcb, Output.apply]
    | some f =>
      have ht := hp f hcb
      cases hf : f.call x with
      | none => simp [Output.next, hcb, ht, hf] at h
      | some y => simp [Output.next, hcb, ht, hf, Output.apply]

/-- What an `Output` has collected: the callback over what it was called with. -/
theorem collected (j : Nat) (log : List (Event α)) : ∀ (p p' : Output α), p.plain → outputPlays j p log p' →
    (∀ e ∈ log, e.ret ≠ .error) →
    p'.outputs.map some = p.outputs.map some ++ (received j 0 log).map p.apply ∧
    ∀ e ∈ log, e.task = j → e.ret = .none := by
  induction log with
  | nil =>
    intro p p' _ h _
    obtain rfl := h
    simp [received]
  | cons e es ih =>
    intro p p' hp hpl herr
    have herr' : ∀ x ∈ es, x.ret ≠ .error := fun x hx => herr x (List.mem_cons_of_mem _ hx)
    by_cases he : e.task = j
    · simp only [outputPlays, if_pos he] at hpl
      have hskip : e.hook ≠ .next → e.ret = .none → outputPlays j p es p' →
          p'.outputs.map some = p.outputs.map some ++ (received j 0 (e :: es)).map p.apply ∧
          ∀ x ∈ e :: es, x.task = j → x.ret = .none := by
        intro h1 h2 h3
        obtain ⟨a, b⟩ := ih p p' hp h3 herr'
        refine ⟨?_, ?_⟩
        · rw [a]; simp [received, h1]
        · intro x hx hj
          rcases List.mem_cons.1 hx with rfl | hx
          · exact h2
          · exact b x hx hj
      cases hh : e.hook with
      | next =>
        simp only [hh] at hpl
        obtain ⟨h1, x, y, h2, h3, h4⟩ := output_next p hp e.args (by rw [← hpl.1]; exact herr e (by simp))
        rw [h4] at hpl
        obtain ⟨a, b⟩ := ih ⟨p.callback, p.outputs ++ [y]⟩ p' hp hpl.2 herr'
        refine ⟨?_, ?_⟩
        · rw [a]
          have happ : (⟨p.callback, p.outputs ++ [y]⟩ : Output α).apply = p.apply := by
            funext z; simp [Output.apply]
          rw [happ]
          simp [received, he, hh, h2, h3]
        · intro z hz hj
          rcases List.mem_cons.1 hz with rfl | hz
          · rw [hpl.1, h1]
          · exact b z hz hj
      | setup => simp only [hh] at hpl; exact hskip (by simp [hh]) hpl.1 hpl.2
      | finish => simp only [hh] at hpl; exact hskip (by simp [hh]) hpl.1 hpl.2
    · simp only [outputPlays, if_neg he] at hpl
      obtain ⟨a, b⟩ := ih p p' hp hpl herr'
      refine ⟨?_, ?_⟩
      · rw [a]; simp [received, he]
      · intro x hx hj
        rcases List.mem_cons.1 hx with rfl | hx
        · exact absurd hj he
        · exact b x hx hj

/-- **C124.** In every run that ends, whatever the other tasks do: if all tasks that produce the key of an `Output` are
listed before it, its `outputs` hold exactly one entry for each product made under the key, in order: what the callback
returned for it, or the product if there is no callback. (`plain`: the callback is not an object that counts as
false.) -/
theorem C124_collected_partial (keyOk : Key → Bool) (cfgs : List Cfg) (hwf : WellFormed cfgs) (ρ : Nat → Ret α)
    (n : Nat) (hdone : (run keyOk cfgs ρ n).status = .done) (j : Nat) (c : Cfg) (k : Key) (hc : cfgs[j]? = some c)
    (hreq : c.reqKeys = []) (hin : c.inKeys = [k]) (hko : keyOk k = true)
    (hbefore : ∀ (m : Nat) (d : Cfg), cfgs[m]? = some d → k ∈ d.outKeys → m < j)
    (cb : Option (Callback α)) (p' : Output α) (hp : (⟨cb, []⟩ : Output α).plain)
    (hplay : outputPlays j ⟨cb, []⟩ (run keyOk cfgs ρ n).log p') :
    p'.outputs.map some =
      (emitted cfgs k (run keyOk cfgs ρ n).log).map (⟨cb, []⟩ : Output α).apply := by
  have herr := (run_slotOk keyOk hwf ρ n (by rw [hdone]; simp)).2
  obtain ⟨a, b⟩ := collected j _ _ _ hp hplay herr
  rw [a, C23_nothing_lost keyOk cfgs hwf ρ n hdone j c k hc hin hko
    (set_up keyOk hwf ρ n hdone j c hc hreq) ?_ ?_ hbefore]
  · rfl
  · rintro ⟨e, he, h1, h2, h3⟩
    rw [b e he h1] at h3
    simp at h3
  · rintro ⟨l, -, -, hpos⟩
    unfold emissions at hpos
    obtain ⟨e, he⟩ := List.exists_mem_of_length_pos hpos
    obtain ⟨h1, h2⟩ := List.mem_filter.1 he
    simp only [Bool.and_eq_true, decide_eq_true_eq] at h2
    rw [b e h1 h2.1.1] at h2
    simp at h2

/-- **C124.** An `Output` on the key of an `Input` that is listed before it: when the run ends, `outputs` holds the
items that were put in, in order and all of them, each after the callback; whatever else is in the pipeline. For items
that are objects of their own (not `None`, not tuples). -/
theorem C124_through_partial (keyOk : Key → Bool) (cfgs : List Cfg) (hwf : WellFormed cfgs) (ρ : Nat → Ret α)
    (n : Nat) (hdone : (run keyOk cfgs ρ n).status = .done) (i j : Nat) (ci cj : Cfg) (k : Key) (hij : i < j)
    (hci : cfgs[i]? = some ci) (hcj : cfgs[j]? = some cj)
    (hireq : ci.reqKeys = []) (hiin : ci.inKeys = []) (hout : ci.outKeys = [k]) (hbare : ci.bareOut = true)
    (hlim : ci.limit = none) (hjreq : cj.reqKeys = []) (hjin : cj.inKeys = [k]) (hko : keyOk k = true)
    (honly : ∀ (m : Nat) (d : Cfg), cfgs[m]? = some d → k ∈ d.outKeys → m = i)
    (xs : List α) (hplay : inputPlays i ⟨xs.map .obj, none⟩ (run keyOk cfgs ρ n).log)
    (cb : Option (Callback α)) (p' : Output α) (hp : (⟨cb, []⟩ : Output α).plain)
    (hplay' : outputPlays j ⟨cb, []⟩ (run keyOk cfgs ρ n).log p') :
    p'.outputs.map some = xs.map fun x => (⟨cb, []⟩ : Output α).apply (some x) := by
  rw [C124_collected_partial keyOk cfgs hwf ρ n hdone j cj k hcj hjreq hjin hko
    (fun m d hm hk => by rw [honly m d hm hk]; exact hij) cb p' hp hplay',
    C124_given_partial keyOk cfgs hwf ρ n hdone i ci k hci hireq hiin hout hbare hlim honly (xs.map .obj)
      (by intro x hx; obtain ⟨y, -, rfl⟩ := List.mem_map.1 hx; trivial) hplay]
  have hm : ∀ l : List α, l.flatMap (fun a => productOf (Ret.obj a)) = l.map some := by
    intro l
    induction l with
    | nil => rfl
    | cons a l ih => rw [List.flatMap_cons, ih]; rfl
  rw [List.flatMap_map, hm, List.map_map]
  rfl

theorem filter_cons_le {β : Type} (P : β → Bool) (x : β) (l : List β) :
    ((x :: l).filter P).length ≤ (l.filter P).length + 1 := by
  rw [List.filter_cons]
  split <;> simp

/-- The number of calls an `Input` answers with something, and with `None`, is at most the number of its items. -/
theorem bounded (i : Nat) (log : List (Event α)) : ∀ p : Input α, inputPlays i p log →
    emissions i log ≤ p.rest.length ∧ idle i log ≤ p.rest.length := by
  induction log with
  | nil => intro p _; simp [emissions, idle]
  | cons e es ih =>
    intro p hpl
    by_cases he : e.task = i
    · simp only [inputPlays, if_pos he] at hpl
      cases hh : e.hook with
      | next =>
        simp only [hh] at hpl
        obtain ⟨h1, h2⟩ := hpl
        cases hrest : p.rest with
        | nil =>
          have hn : p.next = (.stop, ⟨p.inputs, some []⟩) := by
            unfold Input.next; rw [show p.iter.getD p.inputs = [] from hrest]
          rw [hn] at h1 h2
          obtain ⟨a, b⟩ := ih _ h2
          refine ⟨?_, ?_⟩
          · unfold emissions
            rw [List.filter_cons_of_neg (by simp [h1])]
            exact a
          · unfold idle
            rw [List.filter_cons_of_neg (by simp [h1, returnsNone])]
            exact b
        | cons x xs =>
          have hn : p.next = (x, ⟨p.inputs, some xs⟩) := by
            unfold Input.next; rw [show p.iter.getD p.inputs = x :: xs from hrest]
          rw [hn] at h2
          obtain ⟨a, b⟩ := ih _ h2
          simp only [Input.rest, Option.getD_some] at a b
          constructor
          · exact Nat.le_trans (filter_cons_le _ e es) (Nat.succ_le_succ a)
          · exact Nat.le_trans (filter_cons_le _ e es) (Nat.succ_le_succ b)
      | setup =>
        simp only [hh] at hpl
        simpa [emissions, idle, List.filter_cons, hh] using ih p hpl.2
      | finish =>
        simp only [hh] at hpl
        simpa [emissions, idle, List.filter_cons, hh] using ih p hpl.2
    · simp only [inputPlays, if_neg he] at hpl
      simpa [emissions, idle, List.filter_cons, he] using ih p hpl

/-- **C124.** The run comes to an end: an `Input` with any number of items, beside tasks that emit at most `N` products
and, if they have no inputs, return `None` at most `N` times. -/
theorem C124_ends (keyOk : Key → Bool) (cfgs : List Cfg) (hwf : WellFormed cfgs) (ρ : Nat → Ret α) (i : Nat)
    (xs : List (Ret α)) (hplay : ∀ n, inputPlays i ⟨xs, none⟩ (run keyOk cfgs ρ n).log) (N : Nat)
    (hem : ∀ n m, m ≠ i → emissions m (run keyOk cfgs ρ n).log ≤ N)
    (hidle : ∀ n m, m ≠ i → idle m (run keyOk cfgs ρ n).log ≤ N) :
    ∃ n, (run keyOk cfgs ρ n).status ≠ .running := by
  have hb : ∀ n m, emissions m (run keyOk cfgs ρ n).log ≤ max N xs.length ∧
      idle m (run keyOk cfgs ρ n).log ≤ max N xs.length := by
    intro n m
    by_cases hm : m = i
    · subst hm
      have := bounded m _ _ (hplay n)
      simp only [Input.rest, Option.getD_none] at this
      omega
    · have h1 := hem n m hm
      have h2 := hidle n m hm
      omega
  obtain ⟨n, -, h⟩ := C22_terminates keyOk cfgs hwf ρ (max N xs.length) (fun n m => (hb n m).1)
    (fun n m => (hb n m).2)
  exact ⟨n, h⟩

/-! ## Such runs exist -/

/-- An `Input` and an `Output` on one key. -/
def portCfgs (k : Key) : List Cfg := [⟨[], [], [k], true, none, 0⟩, ⟨[], [k], [], false, none, 0⟩]

/-- The rounds of the manager for one list of results of hooks. -/
def rounds (keyOk : Key → Bool) (s : State α) (rs : List (Ret α)) : State α := rs.foldl (step keyOk) s

theorem run_rounds (keyOk : Key → Bool) (cfgs : List Cfg) (rs : List (Ret α)) :
    run keyOk cfgs (fun n => rs[n]?.getD .none) rs.length = rounds keyOk (State.init cfgs) rs := by
  have h : ∀ n, n ≤ rs.length →
      run keyOk cfgs (fun n => rs[n]?.getD .none) n = rounds keyOk (State.init cfgs) (rs.take n) := by
    intro n
    induction n with
    | zero => intro _; rfl
    | succ n ih =>
      intro hn
      have hlt : n < rs.length := by omega
      simp only [run]
      rw [ih (by omega), List.take_succ_eq_append_getElem hlt]
      simp only [rounds, List.foldl_append, List.foldl_cons, List.foldl_nil, List.getElem?_eq_getElem hlt,
        Option.getD_some]
  have := h rs.length (Nat.le_refl _)
  rwa [List.take_length] at this

/-- The state between two items. -/
def between (k : Key) (idx it : Nat) (log : List (Event α)) : State α :=
  ⟨[⟨⟨[], [], [k], true, none, 0⟩, some ⟨.next [], it⟩⟩, ⟨⟨[], [k], [], false, none, 0⟩, some ⟨.next [[]], 0⟩⟩],
    idx, 0, .running, log⟩

/-- What an item leaves in the log. -/
def itemLog (x : α) : List (Event α) := [⟨0, .next, [], .obj x⟩, ⟨1, .next, [some x], .none⟩]

theorem item_rounds (k : Key) (idx it : Nat) (hi : idx < 2) (log : List (Event α)) (x : α) :
    rounds (fun _ => true) (between k idx it log) [.obj x, .none] = between k 1 (it + 1) (log ++ itemLog x) := by
  have hidx : idx = 0 ∨ idx = 1 := by omega
  rcases hidx with rfl | rfl <;>
    simp [rounds, between, step, nextTask, cyclic, List.range, List.range.loop, avail, Stage.available, allFilled,
      live, pipelineNext, pop, afterNext, handle, checkOutput, queueAll, queueTasks, Slot.queue, Stage.queue, push,
      setTask, limitReached, itemLog, best]

theorem items_rounds (k : Key) (xs : List α) : ∀ (idx it : Nat), idx < 2 → ∀ log : List (Event α),
    ∃ idx', idx' < 2 ∧ rounds (fun _ => true) (between k idx it log) (xs.flatMap fun x => [.obj x, .none]) =
      between k idx' (it + xs.length) (log ++ xs.flatMap itemLog) := by
  induction xs with
  | nil => intro idx it hi log; exact ⟨idx, hi, by simp [rounds]⟩
  | cons x xs ih =>
    intro idx it hi log
    obtain ⟨idx', h1, h2⟩ := ih 1 (it + 1) (by omega) (log ++ itemLog x)
    refine ⟨idx', h1, ?_⟩
    rw [List.flatMap_cons, rounds, List.foldl_append]
    rw [show List.foldl (step fun _ => true) (between k idx it log) [.obj x, .none] =
      between k 1 (it + 1) (log ++ itemLog x) from item_rounds k idx it hi log x]
    rw [show List.foldl (step fun _ => true) (between k 1 (it + 1) (log ++ itemLog x))
      (xs.flatMap fun x => [.obj x, .none]) = _ from h2]
    simp only [List.flatMap_cons, List.append_assoc, List.length_cons]
    rw [show it + 1 + xs.length = it + (xs.length + 1) by omega]

/-- The results of the hooks for the items of a list. -/
def portHooks (xs : List α) : List (Ret α) :=
  [.none, .none] ++ (xs.flatMap fun x => [.obj x, .none]) ++ [.stop, .none, .none, .none, .none, .none, .none]

/-- The log of the run. -/
def portLog (xs : List α) : List (Event α) :=
  [⟨0, .setup, [], .none⟩, ⟨1, .setup, [], .none⟩] ++ xs.flatMap itemLog ++
    [⟨0, .next, [], .stop⟩, ⟨0, .finish, [], .none⟩, ⟨1, .finish, [], .none⟩]

theorem port_run (k : Key) (xs : List α) :
    (rounds (fun _ => true) (State.init (portCfgs k)) (portHooks xs)).status = .done ∧
    (rounds (fun _ => true) (State.init (portCfgs k)) (portHooks xs)).log = portLog xs := by
  have h0 : rounds (fun _ => true) (State.init (portCfgs k)) [.none, .none] =
      (between k 1 0 [⟨0, .setup, [], .none⟩, ⟨1, .setup, [], .none⟩] : State α) := by
    simp [rounds, between, portCfgs, State.init, TState.init, step, nextTask, cyclic, List.range, List.range.loop,
      avail, Stage.available, allFilled, pipelineNext, afterOther, handle, checkOutput, queueAll, setTask, best,
      ahead, rank, priority, TState.advance, Stage.advance]
  obtain ⟨idx, hi, h1⟩ := items_rounds k xs 1 0 (by omega) [⟨0, .setup, [], .none⟩, ⟨1, .setup, [], .none⟩]
  have h2 : ∀ (it : Nat) (log : List (Event α)),
      (rounds (fun _ => true) (between k idx it log) [.stop, .none, .none, .none, .none, .none, .none]).status = .done ∧
      (rounds (fun _ => true) (between k idx it log) [.stop, .none, .none, .none, .none, .none, .none]).log = log ++
        [⟨0, .next, [], .stop⟩, ⟨0, .finish, [], .none⟩, ⟨1, .finish, [], .none⟩] := by
    intro it log
    have hidx : idx = 0 ∨ idx = 1 := by omega
    rcases hidx with rfl | rfl <;>
      simp [rounds, between, step, nextTask, cyclic, List.range, List.range.loop, avail, Stage.available, allFilled,
        live, pipelineNext, pop, afterNext, afterOther, handle, checkOutput, queueAll, newHead, setTask, best,
        TState.advance, Stage.advance, List.range']
  unfold portHooks
  simp only [rounds, List.foldl_append] at *
  rw [h0, h1]
  obtain ⟨a, b⟩ := h2 (0 + xs.length) ([⟨0, .setup, [], .none⟩, ⟨1, .setup, [], .none⟩] ++ xs.flatMap itemLog)
  exact ⟨a, b⟩

/-- The `Input` in the log of the run. -/
theorem port_input (xs : List α) : inputPlays 0 ⟨xs.map .obj, none⟩ (portLog xs) := by
  have h : ∀ (ys : List α) (p : Input α), p.rest = ys.map .obj →
      inputPlays 0 p (ys.flatMap itemLog ++
        [⟨0, .next, [], .stop⟩, ⟨0, .finish, [], .none⟩, ⟨1, .finish, [], .none⟩]) := by
    intro ys
    induction ys with
    | nil =>
      intro p hp
      have hn : p.next = (.stop, ⟨p.inputs, some []⟩) := by
        unfold Input.next; rw [show p.iter.getD p.inputs = [] from hp]
      simp [inputPlays, hn]
    | cons y ys ih =>
      intro p hp
      have hn : p.next = (.obj y, ⟨p.inputs, some (ys.map .obj)⟩) := by
        unfold Input.next; rw [show p.iter.getD p.inputs = .obj y :: ys.map .obj from hp]
      have := ih ⟨p.inputs, some (ys.map .obj)⟩ rfl
      simp [itemLog, inputPlays, hn, this]
  have := h xs ⟨xs.map .obj, none⟩ rfl
  simpa [portLog, inputPlays] using this

/-- The `Output` in the log of the run. -/
theorem port_output (xs : List α) (cb : Option (Callback α)) (hp : (⟨cb, []⟩ : Output α).plain)
    (hcb : ∀ x ∈ xs, (⟨cb, []⟩ : Output α).apply (some x) ≠ none) :
    ∃ p', outputPlays 1 ⟨cb, []⟩ (portLog xs) p' := by
  have h : ∀ (ys : List α) (o : List (Option α)), (∀ y ∈ ys, (⟨cb, o⟩ : Output α).apply (some y) ≠ none) →
      ∃ p', outputPlays 1 ⟨cb, o⟩ (ys.flatMap itemLog ++
        [⟨0, .next, [], .stop⟩, ⟨0, .finish, [], .none⟩, ⟨1, .finish, [], .none⟩]) p' := by
    intro ys
    induction ys with
    | nil => intro o _; exact ⟨⟨cb, o⟩, by simp [outputPlays]⟩
    | cons y ys ih =>
      intro o hy
      have hne : ((⟨cb, o⟩ : Output α).next [some y]).1 ≠ .error := by
        have h1 := hy y (by simp)
        cases hc : cb with
        | none => simp [Output.next]
        | some f =>
          have ht := hp f hc
          subst hc
          simp only [Output.apply] at h1
          cases hf : f.call (some y) with
          | none => exact absurd hf h1
          | some z => simp [Output.next, ht, hf]
      obtain ⟨h1, x, z, h2, h3, h4⟩ := output_next ⟨cb, o⟩ hp [some y] hne
      obtain ⟨p', h5⟩ := ih (o ++ [z]) (fun w hw => hy w (List.mem_cons_of_mem _ hw))
      refine ⟨p', ?_⟩
      simp only at h4
      simp [itemLog, outputPlays, h1, h4, h5]
  obtain ⟨p', h1⟩ := h xs [] hcb
  exact ⟨p', by simpa [portLog, outputPlays] using h1⟩

/-- **C124.** For every list of objects and every callback that accepts them there is such a run: the manager with the
`Input` and the `Output` comes to its normal end, and the `outputs` are the items after the callback, in order. -/
theorem C124_runs (k : Key) (xs : List α) (cb : Option (Callback α)) (hp : (⟨cb, []⟩ : Output α).plain)
    (hcb : ∀ x ∈ xs, (⟨cb, []⟩ : Output α).apply (some x) ≠ none) :
    ∃ (ρ : Nat → Ret α) (n : Nat) (p' : Output α), (run (fun _ => true) (portCfgs k) ρ n).status = .done ∧
      inputPlays 0 ⟨xs.map .obj, none⟩ (run (fun _ => true) (portCfgs k) ρ n).log ∧
      outputPlays 1 ⟨cb, []⟩ (run (fun _ => true) (portCfgs k) ρ n).log p' ∧
      p'.outputs.map some = xs.map fun x => (⟨cb, []⟩ : Output α).apply (some x) := by
  obtain ⟨p', hout⟩ := port_output xs cb hp hcb
  have hrun := run_rounds (fun _ => true) (portCfgs k) (portHooks xs)
  obtain ⟨h1, h2⟩ := port_run k xs
  rw [← hrun] at h1 h2
  refine ⟨_, _, p', h1, by rw [h2]; exact port_input xs, by rw [h2]; exact hout, ?_⟩
  refine C124_through_partial (fun _ => true) (portCfgs k) ?_ _ _ h1 0 1 _ _ k (by omega) rfl rfl rfl rfl rfl rfl rfl
    rfl rfl rfl ?_ xs (by rw [h2]; exact port_input xs) cb p' hp (by rw [h2]; exact hout)
  · intro c hc
    simp only [portCfgs, List.mem_cons, List.not_mem_nil, or_false] at hc
    rcases hc with rfl | rfl <;> simp
  · intro m d hm hk
    match m with
    | 0 => rfl
    | 1 =>
      simp only [portCfgs, List.getElem?_cons_succ, List.getElem?_cons_zero, Option.some.injEq] at hm
      subst hm
      simp at hk
    | m + 2 => simp [portCfgs] at hm

/-- Results of hooks as a stream. -/
def portStream (rs : List (Ret α)) : Nat → Ret α := fun n => rs[n]?.getD .none

/-- An `Input`, a task that takes its key and produces another one, and an `Output` on the key of the `Input`. -/
def threeCfgs : List Cfg := [⟨[], [], ["a"], true, none, 0⟩, ⟨[], ["a"], ["b"], true, none, 0⟩,
  ⟨[], ["a"], [], false, none, 0⟩]

def threeHooks : Nat → Ret Nat :=
  portStream [.none, .none, .none, .obj 7, .none, .obj 3, .obj 8, .none, .none, .stop]

def threeLog : List (Event Nat) :=
  [⟨0, .setup, [], .none⟩, ⟨1, .setup, [], .none⟩, ⟨2, .setup, [], .none⟩, ⟨0, .next, [], .obj 7⟩,
    ⟨2, .next, [some 7], .none⟩, ⟨1, .next, [some 7], .obj 3⟩, ⟨0, .next, [], .obj 8⟩, ⟨2, .next, [some 8], .none⟩,
    ⟨1, .next, [some 8], .none⟩, ⟨0, .next, [], .stop⟩, ⟨0, .finish, [], .none⟩, ⟨1, .finish, [], .none⟩,
    ⟨2, .finish, [], .none⟩]

/-- A case of `C124_given_partial`, `C124_collected_partial` and `C124_through_partial`, with a callback that adds
ten. -/
example : WellFormed threeCfgs ∧ (run (fun _ => true) threeCfgs threeHooks 30).status = .done ∧
    (run (fun _ => true) threeCfgs threeHooks 30).log = threeLog := by decide +kernel

example : inputPlays 0 ⟨[.obj 7, .obj 8], none⟩ threeLog ∧
    outputPlays 2 ⟨some ⟨true, fun x => some (x.map (· + 10))⟩, []⟩ threeLog
      ⟨some ⟨true, fun x => some (x.map (· + 10))⟩, [some 17, some 18]⟩ := by
  simp [threeLog, inputPlays, outputPlays, Input.next, Output.next]

/-- **C124 is violated** by `None` among the items: it is taken for a call without a product, and nothing tells of
it. -/
theorem C124_none_violated : ∃ (ρ : Nat → Ret Nat) (n : Nat),
    (run (fun _ => true) (portCfgs "a") ρ n).status = .done ∧
    inputPlays 0 ⟨[.obj 1, .none, .obj 2], none⟩ (run (fun _ => true) (portCfgs "a") ρ n).log ∧
    outputPlays 1 ⟨none, []⟩ (run (fun _ => true) (portCfgs "a") ρ n).log ⟨none, [some 1, some 2]⟩ := by
  refine ⟨portStream [.none, .none, .obj 1, .none, .none, .obj 2, .none, .stop], 30, by decide +kernel, ?_⟩
  have h : (run (fun _ => true) (portCfgs "a")
      (portStream [.none, .none, .obj 1, .none, .none, .obj 2, .none, .stop]) 30).log =
      ([⟨0, .setup, [], .none⟩, ⟨1, .setup, [], .none⟩, ⟨0, .next, [], .obj 1⟩, ⟨1, .next, [some 1], .none⟩,
        ⟨0, .next, [], .none⟩, ⟨0, .next, [], .obj 2⟩, ⟨1, .next, [some 2], .none⟩, ⟨0, .next, [], .stop⟩,
        ⟨0, .finish, [], .none⟩, ⟨1, .finish, [], .none⟩] : List (Event Nat)) := by decide +kernel
  rw [h]
  simp [inputPlays, outputPlays, Input.next, Output.next]

/-- **C124 is violated** by tuples among the items: of a pair only the first half comes out, of an empty tuple
nothing. -/
theorem C124_tuple_violated : ∃ (ρ : Nat → Ret Nat) (n : Nat),
    (run (fun _ => true) (portCfgs "a") ρ n).status = .done ∧
    inputPlays 0 ⟨[.tup [some 1, some 2], .tup []], none⟩ (run (fun _ => true) (portCfgs "a") ρ n).log ∧
    outputPlays 1 ⟨none, []⟩ (run (fun _ => true) (portCfgs "a") ρ n).log ⟨none, [some 1]⟩ := by
  refine ⟨portStream [.none, .none, .tup [some 1, some 2], .none, .tup [], .stop], 30, by decide +kernel, ?_⟩
  have h : (run (fun _ => true) (portCfgs "a")
      (portStream [.none, .none, .tup [some 1, some 2], .none, .tup [], .stop]) 30).log =
      ([⟨0, .setup, [], .none⟩, ⟨1, .setup, [], .none⟩, ⟨0, .next, [], .tup [some 1, some 2]⟩,
        ⟨1, .next, [some 1], .none⟩, ⟨0, .next, [], .tup []⟩, ⟨0, .next, [], .stop⟩,
        ⟨0, .finish, [], .none⟩, ⟨1, .finish, [], .none⟩] : List (Event Nat)) := by decide +kernel
  rw [h]
  simp [inputPlays, outputPlays, Input.next, Output.next]

/-- **C124.** A list, an iterator and nothing at all are taken as they are. -/
theorem C124_given_list (xs : List (Ret α)) : Input.make (.list xs) = some ⟨xs, none⟩ ∧
    Input.make (.iterator xs) = some ⟨xs, none⟩ ∧ Input.make (.nothing : Given α) = some ⟨[], none⟩ :=
  ⟨rfl, rfl, rfl⟩

/-- **C124 is violated** by arrays: one with two or more items is refused with an exception about its truth value, and
one with a single item that counts as false (as zero does) is taken for no items at all. -/
theorem C124_array_violated : (∀ (x y : Ret α × Bool) (l : List (Ret α × Bool)),
      Input.make (.array (x :: y :: l)) = none) ∧
    ∀ x : Ret α, Input.make (.array [(x, false)]) = some ⟨[], none⟩ ∧
      Input.make (.array [(x, true)]) = some ⟨[x], none⟩ :=
  ⟨fun _ _ _ => rfl, fun _ => ⟨rfl, rfl⟩⟩

/-- **C124 is violated** by a callback that counts as false, such as an instance with a length of zero: it is never
called, whatever it would return. -/
theorem C124_callback_violated (f : Callback α) (hf : f.truthy = false) (o : List (Option α)) (x : Option α) :
    (⟨some f, o⟩ : Output α).next [x] = (.none, ⟨some f, o ++ [x]⟩) := by
  simp [Output.next, hf]

example : (⟨false, fun _ => some (some 5)⟩ : Callback Nat).truthy = false ∧
    (⟨some ⟨false, fun _ => some (some 5)⟩, []⟩ : Output Nat).apply (some 1) = some (some 5) := ⟨rfl, rfl⟩

/-- **C124 is violated** when an `Input` is used for a second run: what is left after the call that ended the first is
nothing, and in any run with it, in any pipeline in which it alone produces its key, there is no product under the
key. -/
theorem C124_again_violated (p : Input α) (hend : p.next.1 = .stop) (hit : ∀ x ∈ p.inputs, isItem x)
    (hit' : ∀ l, p.iter = some l → ∀ x ∈ l, isItem x) : p.next.2.inputs = p.inputs ∧
    ∀ (keyOk : Key → Bool) (cfgs : List Cfg) (ρ : Nat → Ret α) (n i : Nat) (c : Cfg) (k : Key),
      cfgs[i]? = some c → (∀ (m : Nat) (d : Cfg), cfgs[m]? = some d → k ∈ d.outKeys → m = i) →
      inputPlays i p.next.2 (run keyOk cfgs ρ n).log → emitted cfgs k (run keyOk cfgs ρ n).log = [] := by
  have hrest : p.rest = [] := by
    cases hr : p.rest with
    | nil => rfl
    | cons x xs =>
      exfalso
      have hn : p.next = (x, ⟨p.inputs, some xs⟩) := by
        unfold Input.next; rw [show p.iter.getD p.inputs = x :: xs from hr]
      rw [hn] at hend
      simp only at hend
      subst hend
      unfold Input.rest at hr
      cases hi : p.iter with
      | none => rw [hi] at hr; simp only [Option.getD_none] at hr; exact hit .stop (by rw [hr]; simp)
      | some l => rw [hi] at hr; simp only [Option.getD_some] at hr; exact hit' l hi .stop (by rw [hr]; simp)
  have hn : p.next = (.stop, ⟨p.inputs, some []⟩) := by
    unfold Input.next; rw [show p.iter.getD p.inputs = [] from hrest]
  rw [hn]
  exact ⟨rfl, fun keyOk cfgs ρ n i c k hc honly hpl => used_up hc honly _ _ rfl hpl⟩

example : (⟨[.obj 1], some []⟩ : Input Nat).next.1 = .stop ∧ ∀ x ∈ ([.obj 1] : List (Ret Nat)), isItem x :=
  ⟨rfl, by simp [isItem]⟩

end Verif.Pipe
