import Verif.Pipe.ProcsSpec
import Mathlib.Tactic.Common

/-!
# Lemmas for a pipeline on several processes

Everything that a process does depends on products only through their being `None` or not, so it commutes with replacing products.
-/
namespace Verif.Pipe

variable {α β : Type}

/-- Replace products. -/
def Ret.map (f : α → β) : Ret α → Ret β
  | .none => .none
  | .obj p => .obj (f p)
  | .tup l => .tup (l.map (Option.map f))
  | .lst w l => .lst (f w) (l.map (Option.map f))
  | .stop => .stop
  | .error => .error

/-- Replace products in queues. -/
def qmap (f : α → β) (q : List (List (Option α))) : List (List (Option β)) := q.map (List.map (Option.map f))

def Stage.map (f : α → β) : Stage α → Stage β
  | .setup req q => .setup (req.map (Option.map f)) (qmap f q)
  | .next q => .next (qmap f q)
  | .finish q => .finish (q.map (qmap f))
  | .raised q => .raised (q.map (qmap f))

def TState.map (f : α → β) (t : TState α) : TState β := ⟨t.stage.map f, t.iters⟩

def Slot.map (f : α → β) (s : Slot α) : Slot β := ⟨s.cfg, s.st.map (TState.map f)⟩

def Event.map (f : α → β) (e : Event α) : Event β := ⟨e.task, e.hook, e.args.map (Option.map f), e.ret.map f⟩

def State.map (f : α → β) (s : State α) : State β := ⟨s.tasks.map (Slot.map f), s.idx, s.head, s.status, s.log.map (Event.map f)⟩

def emap (f : α → β) (e : Hook × List (Option α)) : Hook × List (Option β) := (e.1, e.2.map (Option.map f))

def NextRes.map (f : α → β) : NextRes α → NextRes β
  | .missing => .missing
  | .finished => .finished
  | .failed e => .failed (emap f e)
  | .out t e ret => .out (t.map f) (emap f e) (ret.map f)

@[simp] theorem all_isSome_map (f : α → β) (l : List (Option α)) : (l.map (Option.map f)).all Option.isSome = l.all Option.isSome := by
  induction l with
  | nil => rfl
  | cons a l ih => simp only [List.map_cons, List.all_cons, ih, Option.isSome_map]

theorem Stage.advance_map (f : α → β) (s : Stage α) : (s.map f).advance = s.advance.map f := by
  cases s <;> simp only [Stage.map, Stage.advance, all_isSome_map]
  · split <;> simp [Stage.map]
  · simp

theorem TState.advance_map (f : α → β) (t : TState α) : (t.map f).advance = t.advance.map f := by
  simp only [TState.map, TState.advance, Stage.advance_map]

theorem allFilled_map (f : α → β) (q : List (List (Option α))) : allFilled (qmap f q) = allFilled q := by
  unfold allFilled qmap
  induction q with
  | nil => rfl
  | cons a l ih => simp only [List.map_cons, List.all_cons, ih, List.isEmpty_map]

theorem Stage.available_map (f : α → β) (s : Stage α) : (s.map f).available = s.available := by
  cases s <;> simp only [Stage.map, Stage.available, all_isSome_map, allFilled_map]
  · simp [qmap]

theorem minSize_map (f : α → β) : ∀ q : List (List (Option α)), minSize (qmap f q) = minSize q
  | [] => rfl
  | [l] => by simp [qmap, minSize]
  | l :: l' :: ls => by
    have ih := minSize_map f (l' :: ls)
    simp only [qmap, List.map_cons] at ih ⊢
    simp only [minSize, List.length_map, ih]

theorem priority_map (f : α → β) (c : Cfg) (s : Stage α) : priority c (s.map f) = priority c s := by
  cases s <;> simp only [Stage.map, priority, all_isSome_map, minSize_map]

theorem pop_map (f : α → β) : ∀ q : List (List (Option α)),
    pop (qmap f q) = (pop q).map fun x => (x.1.map (Option.map f), qmap f x.2)
  | [] => rfl
  | [] :: _ => rfl
  | (x :: l) :: qs => by
    have ih := pop_map f qs
    simp only [qmap, List.map_cons] at ih ⊢
    simp only [pop, ih]
    cases pop qs <;> simp [qmap]

theorem afterNext_map (f : α → β) (c : Cfg) (q : List (List (Option α))) (n : Nat) (args : List (Option α)) (r : Ret α) :
    afterNext c (qmap f q) n (args.map (Option.map f)) (r.map f) = (afterNext c q n args r).map f := by
  cases r <;> simp only [Ret.map, afterNext, NextRes.map, TState.map, emap, Stage.map, Option.map_none] <;> split <;> rfl

theorem afterOther_map (f : α → β) (h : Hook) (args : List (Option α)) (t : TState α) (r : Ret α) :
    afterOther h (args.map (Option.map f)) (t.map f) (r.map f) = (afterOther h args t r).map f := by
  cases r <;> simp only [Ret.map, afterOther, NextRes.map, emap, TState.advance_map]

theorem pipelineNext_map (f : α → β) (c : Cfg) (t : TState α) (r : Ret α) :
    pipelineNext c (t.map f) (r.map f) = (pipelineNext c t r).map f := by
  obtain ⟨s, n⟩ := t
  cases s with
  | setup req q =>
    have h := afterOther_map f .setup req ⟨.setup req q, n⟩ r
    simp only [TState.map, Stage.map] at h
    simp only [pipelineNext, TState.map, Stage.map, all_isSome_map]
    split
    · exact h
    · rfl
  | next q =>
    simp only [pipelineNext, TState.map, Stage.map, pop_map]
    cases pop q with
    | none => rfl
    | some x => exact afterNext_map f c x.2 n x.1 r
  | finish q =>
    have h := afterOther_map f .finish [] ⟨.finish q, n⟩ r
    simpa only [TState.map, Stage.map, pipelineNext, List.map_nil] using h
  | raised q => rfl

/-- Replace the products of outputs. -/
def kmap (f : α → β) (l : List (Key × Option α)) : List (Key × Option β) := l.map fun x => (x.1, x.2.map f)

theorem zip_kmap (f : α → β) : ∀ (ks : List Key) (l : List (Option α)), ks.zip (l.map (Option.map f)) = kmap f (ks.zip l)
  | [], _ => rfl
  | _ :: _, [] => rfl
  | k :: ks, x :: l => by
    have ih := zip_kmap f ks l
    simp only [kmap] at ih ⊢
    simp only [List.map_cons, List.zip_cons_cons, ih]

theorem checkOutput_map (f : α → β) (c : Cfg) (r : Ret α) : checkOutput c (r.map f) = (checkOutput c r).map (kmap f) := by
  obtain ⟨rk, ik, ok, bo, lim, ba⟩ := c
  rcases ok with _ | ⟨k, _ | ⟨k', ks⟩⟩
  · cases r <;> rfl
  · cases r <;> simp only [Ret.map, checkOutput, zip_kmap] <;> first | rfl | (split <;> rfl)
  · cases r <;> simp only [Ret.map, checkOutput, zip_kmap, List.length_map] <;> first | rfl | (split <;> rfl)

theorem stow_map (f : α → β) (key : Key) (p : Option α) : ∀ (ks : List Key) (rs : List (Option α)),
    stow key (p.map f) ks (rs.map (Option.map f)) = (stow key p ks rs).map (List.map (Option.map f))
  | [], rs => rfl
  | _ :: _, [] => rfl
  | k :: ks, r :: rs => by
    have ih := stow_map f key p ks rs
    simp only [List.map_cons, stow, ih, Option.isSome_map]
    split
    · split
      · rfl
      · cases stow key p ks rs <;> rfl
    · cases stow key p ks rs <;> rfl

theorem push_map (f : α → β) (key : Key) (p : Option α) : ∀ (ks : List Key) (qs : List (List (Option α))),
    push key (p.map f) ks (qmap f qs) = qmap f (push key p ks qs)
  | [], rs => rfl
  | _ :: _, [] => rfl
  | k :: ks, q :: qs => by
    have ih := push_map f key p ks qs
    simp only [qmap] at ih ⊢
    simp only [List.map_cons, push, ih]
    split <;> simp

theorem Stage.queue_map (f : α → β) (c : Cfg) (key : Key) (p : Option α) (s : Stage α) :
    (s.map f).queue c key (p.map f) = (s.queue c key p).map (Stage.map f) := by
  cases s with
  | setup req q =>
    simp only [Stage.map, Stage.queue, stow_map, push_map]
    cases stow key p c.reqKeys req <;> rfl
  | next q => simp only [Stage.map, Stage.queue, push_map]; split <;> rfl
  | finish q => cases q <;> simp only [Stage.map, Stage.queue, Option.map_none, Option.map_some, push_map] <;> split <;> rfl
  | raised q => cases q <;> simp only [Stage.map, Stage.queue, Option.map_none, Option.map_some, push_map] <;> split <;> rfl

theorem Slot.queue_map (f : α → β) (key : Key) (p : Option α) (s : Slot α) :
    (s.map f).queue key (p.map f) = (s.queue key p).map (Slot.map f) := by
  obtain ⟨c, t⟩ := s
  cases t with
  | none => rfl
  | some t =>
    simp only [Slot.map, Slot.queue, Option.map_some, TState.map, Stage.queue_map]
    cases t.stage.queue c key p <;> rfl

theorem queueTasks_map (f : α → β) (key : Key) (p : Option α) : ∀ ts : List (Slot α),
    queueTasks key (p.map f) (ts.map (Slot.map f)) = (queueTasks key p ts).map (List.map (Slot.map f))
  | [] => rfl
  | s :: ss => by
    have ih := queueTasks_map f key p ss
    simp only [List.map_cons, queueTasks, Slot.queue_map, ih]
    cases s.queue key p with
    | none => rfl
    | some s' => cases queueTasks key p ss <;> rfl

theorem queueAll_map (f : α → β) (keyOk : Key → Bool) : ∀ (l : List (Key × Option α)) (ts : List (Slot α)),
    queueAll keyOk (kmap f l) (ts.map (Slot.map f)) = (queueAll keyOk l ts).map (List.map (Slot.map f))
  | [], ts => rfl
  | (k, p) :: rest, ts => by
    have e : kmap f ((k, p) :: rest) = (k, p.map f) :: kmap f rest := rfl
    rw [e]
    simp only [queueAll, queueTasks_map]
    split
    · cases queueTasks k p ts with
      | none => rfl
      | some ts' => exact queueAll_map f keyOk rest ts'
    · exact queueAll_map f keyOk rest ts

theorem getElem?_slot (f : α → β) (ts : List (Slot α)) (i : Nat) : (ts.map (Slot.map f))[i]? = (ts[i]?).map (Slot.map f) := by
  simp only [List.getElem?_map]

theorem live_map (f : α → β) (ts : List (Slot α)) : live (ts.map (Slot.map f)) = live ts := by
  funext i
  simp only [live, getElem?_slot]
  rcases ts[i]? with _ | ⟨c, _ | t⟩ <;> rfl

theorem avail_map (f : α → β) (ts : List (Slot α)) : avail (ts.map (Slot.map f)) = avail ts := by
  funext i
  simp only [avail, getElem?_slot]
  rcases ts[i]? with _ | ⟨c, _ | t⟩
  · rfl
  · rfl
  · exact Stage.available_map f t.stage

theorem rank_map (f : α → β) (ts : List (Slot α)) : rank (ts.map (Slot.map f)) = rank ts := by
  funext i
  simp only [rank, getElem?_slot]
  rcases ts[i]? with _ | ⟨c, _ | t⟩
  · rfl
  · rfl
  · simp only [Option.map_some, Slot.map, TState.map, priority_map]

theorem best_map (f : α → β) (ts : List (Slot α)) : ∀ (l : List Nat) (cur : Nat), best (ts.map (Slot.map f)) cur l = best ts cur l
  | [], _ => rfl
  | j :: js, cur => by
    simp only [best, rank_map]
    split <;> exact best_map f ts js _

theorem choose_map (f : α → β) (s : State α) : choose (s.map f) = choose s := by
  simp only [choose, State.map, List.length_map, avail_map, live_map, best_map]

theorem newHead_map (f : α → β) (ts : List (Slot α)) (h : Nat) : newHead (ts.map (Slot.map f)) h = newHead ts h := by
  simp only [newHead, live_map, List.length_map]

theorem setTask_map (f : α → β) (ts : List (Slot α)) (i : Nat) (c : Cfg) (t : Option (TState α)) :
    setTask (ts.map (Slot.map f)) i c (t.map (TState.map f)) = (setTask ts i c t).map (Slot.map f) := by
  simp only [setTask, List.map_set]
  rfl

theorem handle_map (f : α → β) (keyOk : Key → Bool) (s : State α) (i : Nat) (c : Cfg) (t : TState α) (n : NextRes α) :
    handle keyOk (s.map f) i c (t.map f) (n.map f) = (handle keyOk s i c t n).map f := by
  cases n with
  | missing =>
    have h := setTask_map f s.tasks i c (some t.advance)
    simp only [Option.map_some] at h
    simp only [NextRes.map, handle, State.map, TState.advance_map, h]
    split <;> rfl
  | finished =>
    have h := setTask_map f s.tasks i c none
    simp only [Option.map_none] at h
    simp only [NextRes.map, handle, State.map, h, newHead_map]
  | failed e => simp [NextRes.map, handle, State.map, Event.map, emap, Ret.map]
  | out t' e ret =>
    have h := setTask_map f s.tasks i c (some t')
    simp only [Option.map_some] at h
    simp only [NextRes.map, handle, checkOutput_map]
    cases checkOutput c ret with
    | none => simp [State.map, Event.map, emap]
    | some outs =>
      simp only [Option.map_some, State.map, h, queueAll_map]
      cases queueAll keyOk outs (setTask s.tasks i c (some t')) <;> simp [Event.map, emap]

theorem runTask_map (f : α → β) (keyOk : Key → Bool) (s : State α) (r : Ret α) (i : Nat) :
    runTask keyOk (s.map f) (r.map f) i = (runTask keyOk s r i).map f := by
  simp only [runTask]
  have e : (s.map f).tasks[i]? = (s.tasks[i]?).map (Slot.map f) := by simp [State.map]
  rw [e]
  rcases s.tasks[i]? with _ | ⟨c, _ | t⟩
  · rfl
  · rfl
  · simp only [Option.map_some, Slot.map, pipelineNext_map, handle_map]

theorem step_eq (keyOk : Key → Bool) (s : State α) (r : Ret α) : step keyOk s r =
    match s.status with
    | .running => match choose s with
      | .nothing => { s with status := .done }
      | .alone i => runTask keyOk s r i
      | .cast i => runTask keyOk s r i
    | _ => s := by
  simp only [step, nextTask, choose, runTask]
  cases s.status with
  | running =>
    cases (cyclic s.tasks.length s.idx).filter (avail s.tasks) with
    | nil => cases (cyclic s.tasks.length s.head).find? (live s.tasks) <;> rfl
    | cons j js => rfl
  | done => rfl
  | failed => rfl

theorem step_map (f : α → β) (keyOk : Key → Bool) (s : State α) (r : Ret α) :
    step keyOk (s.map f) (r.map f) = (step keyOk s r).map f := by
  simp only [step_eq, choose_map, runTask_map]
  have e : (s.map f).status = s.status := rfl
  rw [e]
  cases s.status with
  | running => cases choose s <;> rfl
  | done => rfl
  | failed => rfl

theorem run_map (f : α → β) (keyOk : Key → Bool) (cfgs : List Cfg) (ρ : Nat → Ret α) : ∀ n,
    run keyOk cfgs (fun k => (ρ k).map f) n = (run keyOk cfgs ρ n).map f
  | 0 => by
    simp only [run, State.init, State.map, List.map_map, List.map_nil]
    congr 1
    apply List.map_congr_left
    intro c _
    simp [Slot.map, TState.map, TState.init, Stage.map, qmap]
  | n + 1 => by simp only [run, run_map f keyOk cfgs ρ n, step_map]

theorem sameNone_iff {a b : Option α} : SameNone a b ↔ a.map (fun _ => ()) = b.map (fun _ => ()) := by
  cases a <;> cases b <;> simp [SameNone]

theorem forall₂_sameNone {l l' : List (Option α)} :
    List.Forall₂ SameNone l l' ↔ l.map (Option.map fun _ => ()) = l'.map (Option.map fun _ => ()) := by
  induction l generalizing l' with
  | nil => cases l' <;> simp
  | cons a l ih => cases l' with
    | nil => simp
    | cons b l' => simp [sameNone_iff, ih]

theorem alike_iff {r r' : Ret α} : Alike r r' ↔ r.map (fun _ => ()) = r'.map (fun _ => ()) := by
  cases r <;> cases r' <;> simp [Alike, Ret.map, forall₂_sameNone]

/-- Two processes whose hooks do the same are in the same state up to products. -/
theorem run_alike {keyOk : Key → Bool} {cfgs : List Cfg} {ρ ρ' : Nat → Ret α} (h : ∀ n, Alike (ρ n) (ρ' n)) (n : Nat) :
    (run keyOk cfgs ρ n).map (fun _ => ()) = (run keyOk cfgs ρ' n).map (fun _ => ()) := by
  rw [← run_map, ← run_map]
  congr 1
  funext k
  exact alike_iff.mp (h k)

theorem choose_alike {s s' : State α} (h : s.map (fun _ => ()) = s'.map (fun _ => ())) : choose s = choose s' := by
  rw [← choose_map (fun _ => ()) s, h, choose_map]

theorem status_alike {s s' : State α} (h : s.map (fun _ => ()) = s'.map (fun _ => ())) : s.status = s'.status := by
  have := congrArg State.status h
  exact this

theorem calls_map (f : α → β) (s : State α) : calls (s.map f) = calls s := by
  simp [calls, State.map, Event.map, Function.comp_def]

theorem calls_alike {s s' : State α} (h : s.map (fun _ => ()) = s'.map (fun _ => ())) : calls s = calls s' := by
  rw [← calls_map (fun _ => ()) s, h, calls_map]

/-! ### Broadcasts of a run -/

/-- What a state broadcasts in its next round. -/
def castOf (s : State α) : List Nat :=
  match s.status with
  | .running => match choose s with
    | .cast i => [i]
    | _ => []
  | _ => []

/-- The broadcasts in the first rounds of a run. -/
def castsOf (keyOk : Key → Bool) (cfgs : List Cfg) (ρ : Nat → Ret α) : Nat → List Nat
  | 0 => []
  | n + 1 => castsOf keyOk cfgs ρ n ++ castOf (run keyOk cfgs ρ n)

theorem castOf_alike {s s' : State α} (h : s.map (fun _ => ()) = s'.map (fun _ => ())) : castOf s = castOf s' := by
  simp only [castOf, choose_alike h, status_alike h]

theorem castsOf_alike {keyOk : Key → Bool} {cfgs : List Cfg} {ρ ρ' : Nat → Ret α} (h : ∀ n, Alike (ρ n) (ρ' n)) :
    ∀ n, castsOf keyOk cfgs ρ n = castsOf keyOk cfgs ρ' n
  | 0 => rfl
  | n + 1 => by simp only [castsOf, castsOf_alike h n, castOf_alike (run_alike (keyOk := keyOk) (cfgs := cfgs) h n)]

theorem castsOf_prefix {keyOk : Key → Bool} {cfgs : List Cfg} {ρ : Nat → Ret α} {m n : Nat} (h : m ≤ n) :
    castsOf keyOk cfgs ρ m <+: castsOf keyOk cfgs ρ n := by
  induction n with
  | zero => have : m = 0 := by omega
            subst this; exact List.prefix_rfl
  | succ n ih =>
    rcases Nat.lt_or_ge n m with hm | hm
    · have : m = n + 1 := by omega
      subst this; exact List.prefix_rfl
    · exact (ih hm).trans (List.prefix_append _ _)

/-! ### The job -/

/-- The root does what it would do alone. -/
def RootInv (keyOk : Key → Bool) (cfgs : List Cfg) (ρ : Nat → Nat → Ret α) (j : Job α) : Prop :=
  (j.proc 0).st = run keyOk cfgs (ρ 0) (j.proc 0).rounds ∧ j.sent = castsOf keyOk cfgs (ρ 0) (j.proc 0).rounds

/-- Another process does what it would do alone. -/
def ProcInv (keyOk : Key → Bool) (cfgs : List Cfg) (ρ : Nat → Nat → Ret α) (j : Job α) (p : Nat) : Prop :=
  (j.proc p).st = run keyOk cfgs (ρ p) (j.proc p).rounds ∧ (j.proc p).casts = (castsOf keyOk cfgs (ρ p) (j.proc p).rounds).length

theorem put_same (j : Job α) (p : Nat) (x : ProcSt α) : (j.put p x).proc p = x := by simp [Job.put]

theorem put_other (j : Job α) {p q : Nat} (x : ProcSt α) (h : q ≠ p) : (j.put p x).proc q = j.proc q := by simp [Job.put, h]

theorem step_proc_other (keyOk : Key → Bool) (ρ : Nat → Nat → Ret α) (j : Job α) {p q : Nat} (h : q ≠ p) :
    (j.step keyOk ρ p).proc q = j.proc q := by
  unfold Job.step
  dsimp only
  split
  · split
    · exact put_other _ _ h
    · exact put_other _ _ h
    · split
      · exact put_other _ _ h
      · split
        · rfl
        · exact put_other _ _ h
  · rfl

theorem step_sent_other (keyOk : Key → Bool) (ρ : Nat → Nat → Ret α) (j : Job α) {p : Nat} (h : p ≠ 0) :
    (j.step keyOk ρ p).sent = j.sent := by
  unfold Job.step
  dsimp only
  split
  · split
    · rfl
    · rfl
    · rw [if_neg h]
      split <;> rfl
  · rfl

theorem rootInv_init (keyOk : Key → Bool) (cfgs : List Cfg) (ρ : Nat → Nat → Ret α) : RootInv keyOk cfgs ρ (Job.init cfgs) := ⟨rfl, rfl⟩

theorem procInv_init (keyOk : Key → Bool) (cfgs : List Cfg) (ρ : Nat → Nat → Ret α) (p : Nat) :
    ProcInv keyOk cfgs ρ (Job.init cfgs) p := ⟨rfl, rfl⟩

/-- The round of a process that takes the task that it has found itself. -/
theorem run_round {keyOk : Key → Bool} {cfgs : List Cfg} {ρ : Nat → Ret α} {n : Nat} {s : State α} (hs : s = run keyOk cfgs ρ n)
    (hr : s.status = .running) :
    (choose s = .nothing → run keyOk cfgs ρ (n + 1) = { s with status := .done }) ∧
    (∀ i, choose s = .alone i ∨ choose s = .cast i → run keyOk cfgs ρ (n + 1) = runTask keyOk s (ρ n) i) := by
  subst hs
  refine ⟨fun h => ?_, fun i h => ?_⟩
  · rw [run, step_eq]
    simp only [hr, h]
  · rw [run, step_eq]
    rcases h with h | h <;> simp only [hr, h]

theorem castsOf_round {keyOk : Key → Bool} {cfgs : List Cfg} {ρ : Nat → Ret α} {n : Nat} {s : State α} (hs : s = run keyOk cfgs ρ n)
    (hr : s.status = .running) :
    (choose s = .nothing → castsOf keyOk cfgs ρ (n + 1) = castsOf keyOk cfgs ρ n) ∧
    (∀ i, choose s = .alone i → castsOf keyOk cfgs ρ (n + 1) = castsOf keyOk cfgs ρ n) ∧
    (∀ i, choose s = .cast i → castsOf keyOk cfgs ρ (n + 1) = castsOf keyOk cfgs ρ n ++ [i]) := by
  subst hs
  refine ⟨fun h => ?_, fun i h => ?_, fun i h => ?_⟩ <;> simp [castsOf, castOf, hr, h]

theorem rootInv_step {keyOk : Key → Bool} {cfgs : List Cfg} {ρ : Nat → Nat → Ret α} {j : Job α} (h : RootInv keyOk cfgs ρ j) (p : Nat) :
    RootInv keyOk cfgs ρ (j.step keyOk ρ p) := by
  by_cases hp : p = 0
  · subst hp
    obtain ⟨h1, h2⟩ := h
    unfold Job.step
    dsimp only
    split
    · next hr =>
      have R := run_round h1 hr
      have C := castsOf_round h1 hr
      split
      · next hc => exact ⟨by rw [put_same]; exact (R.1 hc).symm, by rw [put_same]; exact h2.trans (C.1 hc).symm⟩
      · next i hc => exact ⟨by rw [put_same]; exact (R.2 i (Or.inl hc)).symm, by rw [put_same]; exact h2.trans (C.2.1 i hc).symm⟩
      · next i hc =>
        rw [if_pos rfl]
        refine ⟨?_, ?_⟩
        · simp only [Job.put, if_true]; exact (R.2 i (Or.inr hc)).symm
        · simp only [Job.put, if_true]; rw [C.2.2 i hc, h2]
    · exact ⟨h1, h2⟩
  · obtain ⟨h1, h2⟩ := h
    have e := step_proc_other keyOk ρ j (p := p) (q := 0) (fun e => hp e.symm)
    exact ⟨by rw [e]; exact h1, by rw [e, step_sent_other keyOk ρ j hp]; exact h2⟩

/-- What another process receives is what it has found itself. -/
theorem cast_received {keyOk : Key → Bool} {cfgs : List Cfg} {ρ : Nat → Nat → Ret α} {j : Job α} {p i i' : Nat} (ha : ∀ n, Alike (ρ p n) (ρ 0 n))
    (h0 : RootInv keyOk cfgs ρ j) (hp : ProcInv keyOk cfgs ρ j p) (hr : (j.proc p).st.status = .running) (hc : choose (j.proc p).st = .cast i)
    (hi : j.sent[(j.proc p).casts]? = some i') : i' = i := by
  have C := (castsOf_round hp.1 hr).2.2 i hc
  rw [hp.2, h0.2] at hi
  rcases Nat.lt_or_ge (j.proc p).rounds (j.proc 0).rounds with hn | hn
  · have hpre := castsOf_prefix (keyOk := keyOk) (cfgs := cfgs) (ρ := ρ 0) (Nat.succ_le_of_lt hn)
    rw [← castsOf_alike ha, Nat.succ_eq_add_one, C] at hpre
    obtain ⟨t, ht⟩ := hpre
    rw [← ht] at hi
    simpa using hi.symm
  · have hpre := castsOf_prefix (keyOk := keyOk) (cfgs := cfgs) (ρ := ρ 0) hn
    rw [← castsOf_alike ha (j.proc p).rounds] at hpre
    have := hpre.length_le
    rw [List.getElem?_eq_none this] at hi
    cases hi

theorem procInv_step {keyOk : Key → Bool} {cfgs : List Cfg} {ρ : Nat → Nat → Ret α} {j : Job α} {p : Nat} (ha : ∀ n, Alike (ρ p n) (ρ 0 n))
    (hp0 : p ≠ 0) (h0 : RootInv keyOk cfgs ρ j) (hp : ProcInv keyOk cfgs ρ j p) (q : Nat) : ProcInv keyOk cfgs ρ (j.step keyOk ρ q) p := by
  by_cases hq : q = p
  · subst hq
    have rc := fun i i' => cast_received (i := i) (i' := i') ha h0 hp
    obtain ⟨h1, h2⟩ := hp
    unfold Job.step
    dsimp only
    split
    · next hr =>
      have R := run_round h1 hr
      have C := castsOf_round h1 hr
      split
      · next hc => exact ⟨by rw [put_same]; exact (R.1 hc).symm, by rw [put_same]; exact h2.trans (congrArg List.length (C.1 hc).symm)⟩
      · next i hc =>
        exact ⟨by rw [put_same]; exact (R.2 i (Or.inl hc)).symm, by rw [put_same]; exact h2.trans (congrArg List.length (C.2.1 i hc).symm)⟩
      · next i hc =>
        rw [if_neg hp0]
        split
        · exact ⟨h1, h2⟩
        · next i' hi =>
          have := rc i i' hr hc hi
          subst this
          exact ⟨by rw [put_same]; exact (R.2 _ (Or.inr hc)).symm, by rw [put_same]; simp [C.2.2 _ hc, h2]⟩
    · exact ⟨h1, h2⟩
  · have e := step_proc_other keyOk ρ j (p := q) (q := p) (fun e => hq e.symm)
    exact ⟨by rw [e]; exact hp.1, by rw [e]; exact hp.2⟩

theorem rootInv_run (keyOk : Key → Bool) (cfgs : List Cfg) (ρ : Nat → Nat → Ret α) : ∀ ps, RootInv keyOk cfgs ρ (Job.run keyOk cfgs ρ ps)
  | [] => rootInv_init keyOk cfgs ρ
  | p :: ps => rootInv_step (rootInv_run keyOk cfgs ρ ps) p

theorem procInv_run {keyOk : Key → Bool} {cfgs : List Cfg} {ρ : Nat → Nat → Ret α} {p : Nat} (ha : ∀ n, Alike (ρ p n) (ρ 0 n)) (hp : p ≠ 0) :
    ∀ ps, ProcInv keyOk cfgs ρ (Job.run keyOk cfgs ρ ps) p
  | [] => procInv_init keyOk cfgs ρ p
  | q :: ps => procInv_step ha hp (rootInv_run keyOk cfgs ρ ps) (procInv_run ha hp ps) q

/-- All processes do what they would do alone. -/
theorem st_run {keyOk : Key → Bool} {cfgs : List Cfg} {ρ : Nat → Nat → Ret α} {p : Nat} (ha : ∀ n, Alike (ρ p n) (ρ 0 n)) (ps : List Nat) :
    ((Job.run keyOk cfgs ρ ps).proc p).st = run keyOk cfgs (ρ p) ((Job.run keyOk cfgs ρ ps).proc p).rounds := by
  by_cases hp : p = 0
  · subst hp; exact (rootInv_run keyOk cfgs ρ ps).1
  · exact (procInv_run ha hp ps).1

theorem handle_log_prefix (keyOk : Key → Bool) (s : State α) (i : Nat) (c : Cfg) (t : TState α) (n : NextRes α) :
    s.log <+: (handle keyOk s i c t n).log := by
  cases n with
  | missing => simp only [handle]; split <;> exact List.prefix_rfl
  | finished => exact List.prefix_rfl
  | failed e => exact List.prefix_append _ _
  | out t' e ret =>
    simp only [handle]
    split
    · exact List.prefix_append _ _
    · split <;> exact List.prefix_append _ _

theorem step_log_prefix (keyOk : Key → Bool) (s : State α) (r : Ret α) : s.log <+: (step keyOk s r).log := by
  simp only [step]
  split
  · split
    · exact List.prefix_rfl
    · split
      · exact handle_log_prefix _ _ _ _ _ _
      · exact List.prefix_rfl
  · exact List.prefix_rfl

theorem run_log_prefix {keyOk : Key → Bool} {cfgs : List Cfg} {ρ : Nat → Ret α} {m n : Nat} (h : m ≤ n) :
    (run keyOk cfgs ρ m).log <+: (run keyOk cfgs ρ n).log := by
  induction n with
  | zero => have : m = 0 := by omega
            subst this; exact List.prefix_rfl
  | succ n ih =>
    rcases Nat.lt_or_ge n m with hm | hm
    · have : m = n + 1 := by omega
      subst this; exact List.prefix_rfl
    · exact (ih hm).trans (step_log_prefix _ _ _)

/-- A run that has ended stays as it is. -/
theorem run_remains {keyOk : Key → Bool} {cfgs : List Cfg} {ρ : Nat → Ret α} {m : Nat} (h : (run keyOk cfgs ρ m).status ≠ .running) {n : Nat} (hn : m ≤ n) :
    run keyOk cfgs ρ n = run keyOk cfgs ρ m := by
  induction n with
  | zero => have : m = 0 := by omega
            subst this; rfl
  | succ n ih =>
    rcases Nat.lt_or_ge n m with hm | hm
    · have : m = n + 1 := by omega
      subst this; rfl
    · rw [run, ih hm, step]
      split
      · next e => exact absurd e h
      · rfl

/-- A process that is running can go on, except where it waits for the root. -/
theorem canGo_of {keyOk : Key → Bool} {ρ : Nat → Nat → Ret α} {j : Job α} {p : Nat} (hr : (j.proc p).st.status = .running)
    (hw : p = 0 ∨ ∀ i, choose (j.proc p).st = .cast i → j.sent[(j.proc p).casts]? ≠ none) : CanGo keyOk ρ j p := by
  unfold CanGo Job.step
  dsimp only
  split
  · split
    · rw [put_same]
    · rw [put_same]
    · next i hc =>
      split
      · simp [Job.put]
      · next hp0 =>
        split
        · next hn =>
          rcases hw with hw | hw
          · exact absurd hw hp0
          · exact absurd hn (hw i hc)
        · rw [put_same]
  · next hs => exact absurd hr (fun e => hs e)

end Verif.Pipe
