import Verif.Pipe.ProcsLemmas
import Verif.Pipe.Props

/-!
# A pipeline on several processes (C102)

`ρ p n` is what a hook does in round `n` of process `p`, and a list of numbers of processes tells, from the last to the first, whose turn it has been.
-/
namespace Verif.Pipe

variable {α : Type} {keyOk : Key → Bool} {cfgs : List Cfg} {ρ : Nat → Nat → Ret α}

/-- A process waits only while the root is still running and has not got further. -/
theorem waits_for_root {p i : Nat} (ha : ∀ n, Alike (ρ p n) (ρ 0 n)) (hp : p ≠ 0) (ps : List Nat)
    (hr : ((Job.run keyOk cfgs ρ ps).proc p).st.status = .running) (hc : choose ((Job.run keyOk cfgs ρ ps).proc p).st = .cast i)
    (hn : (Job.run keyOk cfgs ρ ps).sent[((Job.run keyOk cfgs ρ ps).proc p).casts]? = none) :
    ((Job.run keyOk cfgs ρ ps).proc 0).rounds ≤ ((Job.run keyOk cfgs ρ ps).proc p).rounds ∧
    ((Job.run keyOk cfgs ρ ps).proc 0).st.status = .running := by
  have h0 := rootInv_run keyOk cfgs ρ ps
  have h1 := procInv_run (keyOk := keyOk) (cfgs := cfgs) ha hp ps
  generalize Job.run keyOk cfgs ρ ps = j at *
  have C := (castsOf_round h1.1 hr).2.2 i hc
  have hle : (j.proc 0).rounds ≤ (j.proc p).rounds := by
    rcases Nat.lt_or_ge (j.proc p).rounds (j.proc 0).rounds with hlt | hge
    · exfalso
      have hpre := castsOf_prefix (keyOk := keyOk) (cfgs := cfgs) (ρ := ρ 0) (Nat.succ_le_of_lt hlt)
      rw [← castsOf_alike ha, Nat.succ_eq_add_one, C, ← h0.2] at hpre
      have hlen := hpre.length_le
      rw [List.getElem?_eq_none_iff, h1.2] at hn
      simp at hlen
      omega
    · exact hge
  refine ⟨hle, ?_⟩
  by_contra hs
  have hs' : (run keyOk cfgs (ρ 0) (j.proc 0).rounds).status ≠ .running := by rw [← h0.1]; exact hs
  have e := run_remains hs' hle
  have e2 := status_alike (run_alike (keyOk := keyOk) (cfgs := cfgs) ha (j.proc p).rounds)
  rw [← h1.1, hr, e] at e2
  exact hs' e2.symm

/-- A turn of a process that has ended changes nothing. -/
theorem step_ended {j : Job α} {p : Nat} (h : (j.proc p).st.status ≠ .running) : j.step keyOk ρ p = j := by
  unfold Job.step
  dsimp only
  split
  · next e => exact absurd e h
  · rfl

/-- As many turns of a process that does not have to wait. -/
theorem turns {q : Nat} (ha : ∀ n, Alike (ρ q n) (ρ 0 n)) (ps : List Nat)
    (hq : q = 0 ∨ ((Job.run keyOk cfgs ρ ps).proc 0).st.status ≠ .running) : ∀ k,
    (q = 0 ∨ ((Job.run keyOk cfgs ρ (List.replicate k q ++ ps)).proc 0).st.status ≠ .running) ∧
    (((Job.run keyOk cfgs ρ (List.replicate k q ++ ps)).proc q).st.status ≠ .running ∨
      k ≤ ((Job.run keyOk cfgs ρ (List.replicate k q ++ ps)).proc q).rounds)
  | 0 => ⟨hq, Or.inr (Nat.zero_le _)⟩
  | k + 1 => by
    obtain ⟨i1, i2⟩ := turns ha ps hq k
    have e : Job.run keyOk cfgs ρ (List.replicate (k + 1) q ++ ps) = (Job.run keyOk cfgs ρ (List.replicate k q ++ ps)).step keyOk ρ q := rfl
    rw [e]
    have W := fun i hp => waits_for_root (keyOk := keyOk) (cfgs := cfgs) (i := i) ha hp (List.replicate k q ++ ps)
    by_cases hs : ((Job.run keyOk cfgs ρ (List.replicate k q ++ ps)).proc q).st.status = .running
    · refine ⟨?_, Or.inr ?_⟩
      · rcases i1 with i1 | i1
        · exact Or.inl i1
        · by_cases h0 : q = 0
          · exact Or.inl h0
          · right; rw [step_proc_other keyOk ρ _ (fun e => h0 e.symm)]; exact i1
      · have hgo : CanGo keyOk ρ (Job.run keyOk cfgs ρ (List.replicate k q ++ ps)) q := by
          refine canGo_of hs ?_
          by_cases h0 : q = 0
          · exact Or.inl h0
          · right
            intro i hc hn
            exact (i1.resolve_left h0) (W i h0 hs hc hn).2
        unfold CanGo at hgo
        rw [hgo]
        rcases i2 with i2 | i2
        · exact absurd hs i2
        · omega
    · rw [step_ended hs]
      exact ⟨i1, Or.inl hs⟩

/-- C102. The first process runs as it would alone, whatever the hooks do on the others and whoever has had a turn. -/
theorem C102_first (keyOk : Key → Bool) (cfgs : List Cfg) (ρ : Nat → Nat → Ret α) (ps : List Nat) :
    ((Job.run keyOk cfgs ρ ps).proc 0).st = run keyOk cfgs (ρ 0) ((Job.run keyOk cfgs ρ ps).proc 0).rounds :=
  (rootInv_run keyOk cfgs ρ ps).1

/-- C102 (partial: hooks that do the same up to the values of the products). Every process runs as it would alone, in whatever order the processes go
on. What is proved about a run (C20 to C24) so holds on every process. -/
theorem C102_alone_partial (h : ∀ p n, Alike (ρ p n) (ρ 0 n)) (ps : List Nat) (p : Nat) :
    ((Job.run keyOk cfgs ρ ps).proc p).st = run keyOk cfgs (ρ p) ((Job.run keyOk cfgs ρ ps).proc p).rounds :=
  st_run (h p) ps

/-- C102 (partial, as above). All processes call the same hooks of the same tasks in the same order: at any time the calls on one process are the
beginning of those on another, after as many rounds they are the same, and two processes that have ended have made the same calls and ended alike. -/
theorem C102_same_calls_partial (h : ∀ p n, Alike (ρ p n) (ρ 0 n)) (ps : List Nat) (p q : Nat) :
    let x := (Job.run keyOk cfgs ρ ps).proc p
    let y := (Job.run keyOk cfgs ρ ps).proc q
    (x.rounds ≤ y.rounds → calls x.st <+: calls y.st) ∧
    (x.rounds = y.rounds → calls x.st = calls y.st ∧ x.st.status = y.st.status) ∧
    (x.st.status ≠ .running → y.st.status ≠ .running → calls x.st = calls y.st ∧ x.st.status = y.st.status) := by
  intro x y
  have hx : x.st = run keyOk cfgs (ρ p) x.rounds := st_run (h p) ps
  have hy : y.st = run keyOk cfgs (ρ q) y.rounds := st_run (h q) ps
  have A : ∀ n, (run keyOk cfgs (ρ p) n).map (fun _ => ()) = (run keyOk cfgs (ρ q) n).map (fun _ => ()) := fun n =>
    (run_alike (h p) n).trans (run_alike (h q) n).symm
  have E : ∀ {a b : Nat} {x' y' : ProcSt α}, a ≤ b → x'.st.status ≠ .running → x'.st = run keyOk cfgs (ρ p) a → y'.st = run keyOk cfgs (ρ q) b →
      calls x'.st = calls y'.st ∧ x'.st.status = y'.st.status := by
    intro a b x' y' hab hs e1 e2
    have e3 := run_remains (keyOk := keyOk) (cfgs := cfgs) (ρ := ρ p) (m := a) (by rw [← e1]; exact hs) hab
    rw [e1, e2, ← e3]
    exact ⟨calls_alike (A b), status_alike (A b)⟩
  have E' : ∀ {a b : Nat} {x' y' : ProcSt α}, b ≤ a → y'.st.status ≠ .running → x'.st = run keyOk cfgs (ρ p) a → y'.st = run keyOk cfgs (ρ q) b →
      calls x'.st = calls y'.st ∧ x'.st.status = y'.st.status := by
    intro a b x' y' hab hs e1 e2
    have e3 := run_remains (keyOk := keyOk) (cfgs := cfgs) (ρ := ρ q) (m := b) (by rw [← e2]; exact hs) hab
    rw [e1, e2, ← e3]
    exact ⟨calls_alike (A a), status_alike (A a)⟩
  refine ⟨fun hn => ?_, fun hn => ?_, fun h1 h2 => ?_⟩
  · rw [hx, hy, calls_alike (A x.rounds)]
    exact (run_log_prefix hn).map _
  · rw [hx, hy, hn]
    exact ⟨calls_alike (A y.rounds), status_alike (A y.rounds)⟩
  · rcases Nat.le_total x.rounds y.rounds with hn | hn
    · exact E hn h1 hx hy
    · exact E' hn h2 hx hy

/-- C102 (partial, as above). No process waits for ever: if one that is running cannot go on, then the first one is running and can. -/
theorem C102_never_stuck_partial (h : ∀ p n, Alike (ρ p n) (ρ 0 n)) (ps : List Nat) (p : Nat)
    (hr : ((Job.run keyOk cfgs ρ ps).proc p).st.status = .running) :
    CanGo keyOk ρ (Job.run keyOk cfgs ρ ps) p ∨ CanGo keyOk ρ (Job.run keyOk cfgs ρ ps) 0 := by
  by_cases hp : p = 0
  · exact Or.inl (canGo_of hr (Or.inl hp))
  · by_cases hw : ∀ i, choose ((Job.run keyOk cfgs ρ ps).proc p).st = .cast i →
        (Job.run keyOk cfgs ρ ps).sent[((Job.run keyOk cfgs ρ ps).proc p).casts]? ≠ none
    · exact Or.inl (canGo_of hr (Or.inr hw))
    · push Not at hw
      obtain ⟨i, hc, hn⟩ := hw
      exact Or.inr (canGo_of (waits_for_root (h p) hp ps hr hc hn).2 (Or.inl rfl))

/-- C102 (partial, as above). If the first process would end alone after `n` rounds, then so does every process when the first and then it have had `n` turns,
whatever has been before. -/
theorem C102_ends_partial (h : ∀ p n, Alike (ρ p n) (ρ 0 n)) {n : Nat} (hn : (run keyOk cfgs (ρ 0) n).status ≠ .running) (ps : List Nat) (p : Nat) :
    ((Job.run keyOk cfgs ρ (List.replicate n p ++ (List.replicate n 0 ++ ps))).proc p).st.status ≠ .running := by
  have fin : ∀ (q : Nat) (qs : List Nat), (((Job.run keyOk cfgs ρ qs).proc q).st.status ≠ .running ∨ n ≤ ((Job.run keyOk cfgs ρ qs).proc q).rounds) →
      ((Job.run keyOk cfgs ρ qs).proc q).st.status ≠ .running := by
    intro q qs hq
    rcases hq with hq | hq
    · exact hq
    · rw [st_run (h q) qs, status_alike (run_alike (h q) _), run_remains hn hq]
      exact hn
  have h0 := fin 0 _ (turns (keyOk := keyOk) (cfgs := cfgs) (h 0) ps (Or.inl rfl) n).2
  exact fin p _ (turns (keyOk := keyOk) (cfgs := cfgs) (h p) (List.replicate n 0 ++ ps) (Or.inr h0) n).2

/-! ### A case -/

/-- A task that makes products, and one that takes them. -/
def pSource : Cfg := ⟨[], [], ["x"], true, none, 0⟩

def pSink : Cfg := ⟨[], ["x"], [], true, none, 0⟩

/-- Each process reads something else; then the source stops. -/
def pReads (p n : Nat) : Ret Nat := if n = 2 then .obj (100 + p) else if n = 4 then .stop else .none

theorem pReads_alike (p n : Nat) : Alike (pReads p n) (pReads 0 n) := by
  unfold pReads
  split
  · trivial
  · split <;> trivial

/-- Turns in some order: process 1 has to wait in the middle, and process 2 has had only a few at the start. -/
def pTurns : List Nat := List.replicate 20 0 ++ (List.replicate 20 1 ++ (List.replicate 5 0 ++ [2, 1, 1, 2, 1, 0, 2, 0, 1, 1]))

example : ((Job.run (fun _ => true) [pSource, pSink] pReads pTurns).proc 0).st.status = .done := by decide +kernel

example : ((Job.run (fun _ => true) [pSource, pSink] pReads pTurns).proc 1).rounds = 8 := by decide +kernel

example : calls ((Job.run (fun _ => true) [pSource, pSink] pReads pTurns).proc 1).st =
    [(0, .setup), (1, .setup), (0, .next), (1, .next), (0, .next), (0, .finish)] := by decide +kernel

example : ((Job.run (fun _ => true) [pSource, pSink] pReads ([1, 1, 1, 1, 1, 1, 1] ++ pTurns)).proc 1).st.log.map (·.args) =
    [[], [], [], [some 101], [], [], []] := by decide +kernel

example : ((Job.run (fun _ => true) [pSource, pSink] pReads pTurns).proc 2).rounds = 3 := by decide +kernel

example : (run (fun _ => true) [pSource, pSink] (pReads 0) 11).status ≠ .running := by decide +kernel

/-! ### Where the hooks do not do the same -/

/-- The source has nothing for the first process and one product for the second. -/
def pUneven (p n : Nat) : Ret Nat :=
  if p = 0 then (if n = 2 then .stop else .none) else (if n = 2 then .obj 5 else if n = 3 then .stop else .none)

/-- The job of two processes at the time when nothing moves any more. -/
def pHung : Job Nat := Job.run (fun _ => true) [pSource, pSink] pUneven (List.replicate 20 1 ++ List.replicate 20 0)

/-- C102 fails. The source makes a product on the second process and none on the first. No hook raises an exception, and the first process ends; the
second waits for it for ever, without calling `finish` of the other task. -/
theorem C102_waits_violated : ∃ (cfgs : List Cfg) (ρ : Nat → Nat → Ret Nat) (ps : List Nat), ∀ more : List Nat, (∀ p ∈ more, p = 0 ∨ p = 1) →
    let j := Job.run (fun _ => true) cfgs ρ (more ++ ps)
    (j.proc 0).st.status = .done ∧ calls (j.proc 0).st = [(0, .setup), (1, .setup), (0, .next), (0, .finish), (1, .finish)] ∧
    (j.proc 1).st.status = .running ∧ calls (j.proc 1).st = [(0, .setup), (1, .setup), (0, .next), (0, .next), (0, .finish), (1, .next)] ∧
    (j.proc 1).st.log.map (·.ret) = [.none, .none, .obj 5, .stop, .none, .none] ∧ ¬ CanGo (fun _ => true) ρ j 1 := by
  refine ⟨[pSource, pSink], pUneven, List.replicate 20 1 ++ List.replicate 20 0, fun more hm => ?_⟩
  have s0 : (pHung.proc 0).st.status = .done := by decide +kernel
  have s1 : (pHung.proc 1).st.status = .running := by decide +kernel
  have c1 : choose (pHung.proc 1).st = .cast 0 := by decide +kernel
  have n1 : pHung.sent[(pHung.proc 1).casts]? = none := by decide +kernel
  have t0 : pHung.step (fun _ => true) pUneven 0 = pHung := step_ended (by rw [s0]; decide)
  have t1 : pHung.step (fun _ => true) pUneven 1 = pHung := by
    simp only [Job.step, s1, c1, n1]
    rfl
  have e : ∀ more : List Nat, (∀ p ∈ more, p = 0 ∨ p = 1) →
      Job.run (fun _ => true) [pSource, pSink] pUneven (more ++ (List.replicate 20 1 ++ List.replicate 20 0)) = pHung := by
    intro more
    induction more with
    | nil => intro _; rfl
    | cons p more ih =>
      intro hm
      simp only [List.cons_append, Job.run]
      rw [ih fun q hq => hm q (List.mem_cons_of_mem _ hq)]
      rcases hm p List.mem_cons_self with rfl | rfl
      · exact t0
      · exact t1
  dsimp only
  rw [e more hm]
  refine ⟨s0, by decide +kernel, s1, by decide +kernel, by decide +kernel, ?_⟩
  unfold CanGo
  rw [t1]
  omega

/-- The second process would have ended alone, with the same returns of its hooks. -/
example : let s := run (fun _ => true) [pSource, pSink] (fun n => if n = 2 then Ret.obj 5 else if n = 4 then .stop else .none) 20
    s.status = .done ∧ (s.log.map fun e => (e.task, e.ret)) =
      [(0, .none), (1, .none), (0, .obj 5), (1, .none), (0, .stop), (0, .none), (1, .none)] := by decide +kernel

/-- The source has four products for the first process and one for the second, where the other task says that it is enough. -/
def pEnough (p n : Nat) : Ret Nat :=
  if p = 0 then (if n = 2 ∨ n = 4 ∨ n = 6 ∨ n = 8 then .obj 7 else if n = 10 then .stop else .none)
  else (if n = 2 then .obj 5 else if n = 3 ∨ n = 6 then .stop else .none)

/-- C102 fails. On the second process a task stops earlier than on the first. No hook raises an exception, but that process ends in one: it is told to
run the task once more, which there is no longer there. The first process ends as usual. -/
theorem C102_exception_violated : ∃ (cfgs : List Cfg) (ρ : Nat → Nat → Ret Nat) (ps : List Nat),
    let j := Job.run (fun _ => true) cfgs ρ ps
    (j.proc 0).st.status = .done ∧ (j.proc 1).st.status = .failed ∧
    (j.proc 1).st.log.map (fun e => (e.task, e.hook, e.ret)) =
      [(0, .setup, .none), (1, .setup, .none), (0, .next, .obj 5), (1, .next, .stop), (1, .finish, .none), (0, .next, .stop)] := by
  refine ⟨[pSource, pSink], pEnough, List.replicate 20 1 ++ List.replicate 20 0, ?_⟩
  dsimp only
  refine ⟨by decide +kernel, by decide +kernel, by decide +kernel⟩

/-- The second process would have ended alone. -/
example : (run (fun _ => true) [pSource, pSink] (pEnough 1) 20).status = .done := by decide +kernel

end Verif.Pipe
