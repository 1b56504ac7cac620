import Mathlib.Tactic.Common
import Mathlib.Algebra.BigOperators.Group.Finset.Basic
import Mathlib.Algebra.Order.BigOperators.Group.Finset
import Mathlib.Algebra.BigOperators.Intervals

/-!
# C90: processes that wait while others are active

Models `caput/util/mpitools.py:417-456`: `active` and `close`. All processes run the same program: for each round they call `active` with the numbers of the processes that are to be active, and then `close`. The lists given
to the two calls of a round can differ.

The counter of a process is twice the number of rounds it has done, and one more between `active` having made the communicator and the end of `close`. Making the communicator takes all processes. Messages from one process to
another keep their order; only the number of close messages on their way to each process matters.
-/
namespace Verif.Nodes

/-- A round: the list given to `active`, and the list given to `close`. -/
structure Round where
  act : List Nat
  cls : List Nat

structure WState where
  pc : Nat → Nat
  queue : Nat → Nat

def winit : WState := ⟨fun _ => 0, fun _ => 0⟩

def setPc (s : WState) (p v : Nat) : Nat → Nat := fun q => if q = p then v else s.pc q

/-- mpitools.py:454-456: what `close` of process `p` sends. -/
def sends (n : Nat) (r : Round) (p q : Nat) : Nat := if p = 0 ∧ q < n ∧ q ∉ r.cls then 1 else 0

/-- One step of one of `n` processes. -/
inductive WStep (n : Nat) (rounds : List Round) : WState → WState → Prop
  /-- mpitools.py:432: the communicator is made by all together. -/
  | create (s : WState) (k : Nat) (r : Round) : rounds[k]? = some r → (∀ p < n, s.pc p = 2 * k) → WStep n rounds s ⟨fun p => if p < n then 2 * k + 1 else s.pc p, s.queue⟩
  /-- An active process goes on, and calls `close`. -/
  | go (s : WState) (p k : Nat) (r : Round) : p < n → rounds[k]? = some r → s.pc p = 2 * k + 1 → p ∈ r.act → WStep n rounds s ⟨setPc s p (2 * k + 2), fun q => s.queue q + sends n r p q⟩
  /-- mpitools.py:433-444: a waiting process gets a close message, and calls `close`. -/
  | recv (s : WState) (p k : Nat) (r : Round) : p < n → rounds[k]? = some r → s.pc p = 2 * k + 1 → p ∉ r.act → 0 < s.queue p →
      WStep n rounds s ⟨setPc s p (2 * k + 2), fun q => (if q = p then s.queue q - 1 else s.queue q) + sends n r p q⟩

inductive WReach (n : Nat) (rounds : List Round) : WState → Prop
  | init : WReach n rounds winit
  | step {s t} : WReach n rounds s → WStep n rounds s t → WReach n rounds t

/-- Of the first `m` rounds, those in which process `p` waits. -/
def waits (rounds : List Round) (p m : Nat) : Nat := (rounds.take m).countP fun r => p ∉ r.act

/-- Of the first `m` rounds, those in which a close message goes to process `p`. -/
def closes (rounds : List Round) (p m : Nat) : Nat := (rounds.take m).countP fun r => p ∉ r.cls

theorem countP_take_succ {α : Type} (f : α → Bool) (l : List α) (k : Nat) (r : α) (h : l[k]? = some r) : (l.take (k + 1)).countP f = (l.take k).countP f + if f r then 1 else 0 := by
  rw [List.take_add_one, h, List.countP_append]
  simp [List.countP_cons]

theorem waits_succ (rounds : List Round) (p k : Nat) (r : Round) (h : rounds[k]? = some r) : waits rounds p (k + 1) = waits rounds p k + if p ∈ r.act then 0 else 1 := by
  rw [waits, countP_take_succ _ _ _ _ h]
  by_cases hp : p ∈ r.act <;> simp [hp, waits]

theorem closes_succ (rounds : List Round) (p k : Nat) (r : Round) (h : rounds[k]? = some r) : closes rounds p (k + 1) = closes rounds p k + if p ∈ r.cls then 0 else 1 := by
  rw [closes, countP_take_succ _ _ _ _ h]
  by_cases hp : p ∈ r.cls <;> simp [hp, closes]

/-- Messages sent are received or on their way; all processes are in the same round or have just done it. -/
structure Inv (n : Nat) (rounds : List Round) (s : WState) : Prop where
  count : ∀ p < n, s.queue p + waits rounds p (s.pc p / 2) = closes rounds p (s.pc 0 / 2)
  near : ∃ k, (k ≤ rounds.length ∧ ∀ p < n, s.pc p = 2 * k) ∨ (k < rounds.length ∧ ∀ p < n, s.pc p = 2 * k + 1 ∨ s.pc p = 2 * k + 2)

theorem inv_reach (n : Nat) (hn : 0 < n) (rounds : List Round) {s : WState} (h : WReach n rounds s) : Inv n rounds s := by
  induction h with
  | init => exact ⟨fun p _ => by simp [winit, waits, closes], ⟨0, .inl ⟨by omega, fun p _ => rfl⟩⟩⟩
  | step _ hst ih =>
    obtain ⟨hc, hnear⟩ := ih
    cases hst with
    | create k r hr hall =>
      have hk : k < rounds.length := (List.getElem?_eq_some_iff.1 hr).1
      refine ⟨?_, ?_⟩
      · intro p hp
        have := hc p hp
        simp only [if_pos hp, if_pos hn]
        rw [hall p hp, hall 0 hn] at this
        rw [show (2 * k + 1) / 2 = k by omega]
        rwa [show 2 * k / 2 = k by omega] at this
      · refine ⟨k, .inr ⟨hk, fun p hp => ?_⟩⟩
        exact .inl (if_pos hp)
    | go p k r hp hr hpc hact =>
      have hk : k < rounds.length := (List.getElem?_eq_some_iff.1 hr).1
      refine ⟨?_, ?_⟩
      · intro q hq
        have hcq := hc q hq
        simp only [setPc, sends]
        by_cases hp0 : p = 0
        · subst hp0
          rw [hpc, show (2 * k + 1) / 2 = k by omega] at hcq
          have hcl := closes_succ rounds q k r hr
          simp only [if_true, show (2 * k + 2) / 2 = k + 1 by omega, hcl, hq, true_and]
          by_cases hq0 : q = 0
          · subst hq0
            have hw := waits_succ rounds 0 k r hr
            rw [if_pos hact] at hw
            rw [hpc, show (2 * k + 1) / 2 = k by omega] at hcq
            simp only [if_true, show (2 * k + 2) / 2 = k + 1 by omega, hw]
            by_cases hh : (0 : Nat) ∈ r.cls <;> simp [hh] <;> omega
          · simp only [if_neg hq0]
            by_cases hh : q ∈ r.cls <;> simp [hh] <;> omega
        · simp only [if_neg (Ne.symm hp0), hp0, false_and, if_false, Nat.add_zero]
          by_cases hqp : q = p
          · subst hqp
            have hw := waits_succ rounds q k r hr
            rw [if_pos hact] at hw
            rw [hpc, show (2 * k + 1) / 2 = k by omega] at hcq
            simp only [if_true, show (2 * k + 2) / 2 = k + 1 by omega, hw]
            omega
          · simp only [if_neg hqp]
            exact hcq
      · obtain ⟨j, ⟨_, hj⟩ | ⟨_, hj⟩⟩ := hnear
        · have := hj p hp
          omega
        · refine ⟨k, .inr ⟨hk, fun a ha => ?_⟩⟩
          have h1 := hj a ha
          have h2 := hj p hp
          simp only [setPc]
          split <;> omega
    | recv p k r hp hr hpc hact hq =>
      have hk : k < rounds.length := (List.getElem?_eq_some_iff.1 hr).1
      refine ⟨?_, ?_⟩
      · intro q hqn
        have hcq := hc q hqn
        simp only [setPc, sends]
        by_cases hp0 : p = 0
        · subst hp0
          rw [hpc, show (2 * k + 1) / 2 = k by omega] at hcq
          have hcl := closes_succ rounds q k r hr
          simp only [if_true, show (2 * k + 2) / 2 = k + 1 by omega, hcl, hqn, true_and]
          by_cases hq0 : q = 0
          · subst hq0
            have hw := waits_succ rounds 0 k r hr
            rw [if_neg hact] at hw
            rw [hpc, show (2 * k + 1) / 2 = k by omega] at hcq
            simp only [if_true, show (2 * k + 2) / 2 = k + 1 by omega, hw]
            by_cases hh : (0 : Nat) ∈ r.cls <;> simp [hh] <;> omega
          · simp only [if_neg hq0]
            by_cases hh : q ∈ r.cls <;> simp [hh] <;> omega
        · simp only [if_neg (Ne.symm hp0), hp0, false_and, if_false, Nat.add_zero]
          by_cases hqp : q = p
          · subst hqp
            have hw := waits_succ rounds q k r hr
            rw [if_neg hact] at hw
            rw [hpc, show (2 * k + 1) / 2 = k by omega] at hcq
            simp only [if_true, show (2 * k + 2) / 2 = k + 1 by omega, hw]
            omega
          · simp only [if_neg hqp]
            exact hcq
      · obtain ⟨j, ⟨_, hj⟩ | ⟨_, hj⟩⟩ := hnear
        · have := hj p hp
          omega
        · refine ⟨k, .inr ⟨hk, fun a ha => ?_⟩⟩
          have h1 := hj a ha
          have h2 := hj p hp
          simp only [setPc]
          split <;> omega

theorem waits_mono (rounds : List Round) (p : Nat) {a b : Nat} (h : a ≤ b) : waits rounds p a ≤ waits rounds p b :=
  List.Sublist.countP_le (List.take_sublist_take_left h)

/-- In every round `active` and `close` are given the same processes. -/
def Matched (rounds : List Round) : Prop := ∀ r ∈ rounds, ∀ p, p ∈ r.act ↔ p ∈ r.cls

theorem closes_eq_waits {rounds : List Round} (hm : Matched rounds) (p m : Nat) : closes rounds p m = waits rounds p m := by
  unfold closes waits
  apply List.countP_congr
  intro r hr
  simp [hm r (List.mem_of_mem_take hr) p]

/-- **C90** (partial) If `active` and `close` are given the same processes, a process that is not active in a round goes on only after the first process has called `close` for this round, in whatever order the processes
do their steps, and whatever the other rounds are.

Missing: see `C90_lists_violated`. -/
theorem C90_wait_partial (n : Nat) (rounds : List Round) (hm : Matched rounds) (s : WState) (h : WReach n rounds s) (p k : Nat) (hp : p < n) (r : Round) (hr : rounds[k]? = some r) (hact : p ∉ r.act)
    (hdone : 2 * k + 2 ≤ s.pc p) : 2 * k + 2 ≤ s.pc 0 := by
  have hn : 0 < n := by omega
  obtain ⟨hc, _⟩ := inv_reach n hn rounds h
  have hcp := hc p hp
  rw [closes_eq_waits hm] at hcp
  by_contra hlt
  have h1 : waits rounds p (s.pc 0 / 2) ≤ waits rounds p k := waits_mono rounds p (by omega)
  have h2 : waits rounds p (k + 1) ≤ waits rounds p (s.pc p / 2) := waits_mono rounds p (by omega)
  rw [waits_succ rounds p k r hr, if_neg hact] at h2
  omega

/-- **C90** (partial) If besides the first process is active in every round, no process waits without end: there is a next step unless all processes have done all rounds.

Missing: see `C90_first_violated`. -/
theorem C90_progress_partial (n : Nat) (hn : 0 < n) (rounds : List Round) (hm : Matched rounds) (h0 : ∀ r ∈ rounds, 0 ∈ r.act) (s : WState) (h : WReach n rounds s) :
    (∀ p < n, s.pc p = 2 * rounds.length) ∨ ∃ t, WStep n rounds s t := by
  obtain ⟨hc, k, ⟨hk, hall⟩ | ⟨hk, hall⟩⟩ := inv_reach n hn rounds h
  · by_cases hend : k = rounds.length
    · exact .inl fun p hp => by rw [hall p hp, hend]
    · exact .inr ⟨_, .create s k _ (List.getElem?_eq_getElem (by omega)) hall⟩
  · have hr : rounds[k]? = some rounds[k] := List.getElem?_eq_getElem hk
    by_cases hodd : ∃ p < n, s.pc p = 2 * k + 1
    · right
      obtain ⟨p, hp, hpo⟩ := hodd
      rcases hall 0 hn with hz | hz
      · exact ⟨_, .go s 0 k _ hn hr hz (h0 _ (List.getElem_mem hk))⟩
      · by_cases hact : p ∈ rounds[k].act
        · exact ⟨_, .go s p k _ hp hr hpo hact⟩
        · have hcp := hc p hp
          have hw := waits_succ rounds p k _ hr
          rw [if_neg hact] at hw
          rw [closes_eq_waits hm, hpo, hz, show (2 * k + 1) / 2 = k by omega, show (2 * k + 2) / 2 = k + 1 by omega, hw] at hcp
          exact ⟨_, .recv s p k _ hp hr hpo hact (by omega)⟩
    · have hdone : ∀ p < n, s.pc p = 2 * (k + 1) := fun p hp => by
        rcases hall p hp with h | h
        · exact absurd ⟨p, hp, h⟩ hodd
        · omega
      by_cases hend : k + 1 = rounds.length
      · exact .inl fun p hp => by rw [hdone p hp, hend]
      · exact .inr ⟨_, .create s (k + 1) _ (List.getElem?_eq_getElem (by omega)) hdone⟩

/-- The steps done by all processes. -/
def total (n : Nat) (s : WState) : Nat := ∑ p ∈ Finset.range n, s.pc p

/-- **C90** There are no more steps than two for each process and round, so that the processes come to an end. -/
theorem C90_ends (n : Nat) (hn : 0 < n) (rounds : List Round) (s : WState) (h : WReach n rounds s) : total n s ≤ n * (2 * rounds.length) ∧ ∀ t, WStep n rounds s t → total n s < total n t := by
  constructor
  · obtain ⟨_, k, hk⟩ := inv_reach n hn rounds h
    have : ∀ p ∈ Finset.range n, s.pc p ≤ 2 * rounds.length := by
      intro p hp
      rcases hk with ⟨h1, h2⟩ | ⟨h1, h2⟩
      · rw [h2 p (Finset.mem_range.1 hp)]
        omega
      · have := h2 p (Finset.mem_range.1 hp)
        omega
    have := Finset.sum_le_card_nsmul _ _ _ this
    rw [Finset.card_range] at this
    rw [nsmul_eq_mul] at this
    exact this
  · have one : ∀ p v, p < n → s.pc p < v → total n s < ∑ q ∈ Finset.range n, setPc s p v q := by
      intro p v hp hv
      apply Finset.sum_lt_sum
      · intro q _
        simp only [setPc]
        split
        · rename_i e
          rw [e]
          omega
        · exact Nat.le_refl _
      · exact ⟨p, Finset.mem_range.2 hp, by simpa [setPc] using hv⟩
    intro t ht
    cases ht with
    | create k r hr hall =>
      apply Finset.sum_lt_sum
      · intro p hp
        have hp := Finset.mem_range.1 hp
        simp only [if_pos hp]
        have := hall p hp
        omega
      · refine ⟨0, Finset.mem_range.2 hn, ?_⟩
        simp only [if_pos hn]
        have := hall 0 hn
        omega
    | go p k r hp hr hpc hact => exact one p _ hp (by omega)
    | recv p k r hp hr hpc hact hq => exact one p _ hp (by omega)

/-- **C90** (violated) If the first process is not active in a round, it waits without end for its own message: no process ever gets beyond this round. -/
theorem C90_first_violated (n : Nat) (hn : 0 < n) (rounds : List Round) (hm : Matched rounds) (k : Nat) (r : Round) (hr : rounds[k]? = some r) (h0 : 0 ∉ r.act) (s : WState) (h : WReach n rounds s) (p : Nat) (hp : p < n) :
    s.pc 0 ≤ 2 * k + 1 ∧ s.pc p ≤ 2 * k + 2 := by
  have first : ∀ {s}, WReach n rounds s → s.pc 0 ≤ 2 * k + 1 := by
    intro s h
    induction h with
    | init => simp [winit]
    | step hs hst ih =>
      obtain ⟨hc, hnear⟩ := inv_reach n hn rounds hs
      cases hst with
      | create j r' hr' hall =>
        have := hall 0 hn
        simp only [if_pos hn]
        by_cases hjk : j ≤ k
        · omega
        · omega
      | go p j r' hp hr' hpc hact =>
        simp only [setPc]
        split
        · rename_i e
          subst e
          by_cases hjk : j = k
          · subst hjk
            rw [hr] at hr'
            cases hr'
            exact absurd hact h0
          · omega
        · exact ih
      | recv p j r' hp hr' hpc hact hq =>
        simp only [setPc]
        split
        · rename_i e
          subst e
          have hcp := hc 0 hn
          rw [closes_eq_waits hm] at hcp
          omega
        · exact ih
  refine ⟨first h, ?_⟩
  have h1 := first h
  obtain ⟨_, j, ⟨_, hj⟩ | ⟨_, hj⟩⟩ := inv_reach n hn rounds h
  · have a := hj 0 hn
    have b := hj p hp
    omega
  · have a := hj 0 hn
    have b := hj p hp
    omega

/-- **C90** (violated) If `close` is given fewer processes than `active`, a message for an active process stays there, and ends its next wait before the first process has called `close`. -/
theorem C90_lists_violated : ∃ rounds s, WReach 2 rounds s ∧ rounds[1]?.map (·.act) = some [0] ∧ 4 ≤ s.pc 1 ∧ s.pc 0 < 4 := by
  let rounds : List Round := [⟨[0, 1], [0]⟩, ⟨[0], [0]⟩]
  let s1 : WState := ⟨fun p => if p < 2 then 2 * 0 + 1 else winit.pc p, winit.queue⟩
  have h1 : WReach 2 rounds s1 := .step .init (.create winit 0 ⟨[0, 1], [0]⟩ rfl (fun _ _ => rfl))
  have h2 := WReach.step h1 (.go s1 0 0 ⟨[0, 1], [0]⟩ (by omega) rfl rfl (by simp))
  have h3 := WReach.step h2 (.go _ 1 0 ⟨[0, 1], [0]⟩ (by omega) rfl rfl (by simp))
  have h4 := WReach.step h3 (.create _ 1 ⟨[0], [0]⟩ rfl (by
    intro p hp
    have : p = 0 ∨ p = 1 := by omega
    rcases this with rfl | rfl <;> rfl))
  have h5 := WReach.step h4 (.recv _ 1 1 ⟨[0], [0]⟩ (by omega) rfl rfl (by simp) (by decide))
  exact ⟨rounds, _, h5, rfl, by decide, by decide⟩

/-- Three processes, two rounds. -/
example : Matched [⟨[0, 2], [2, 0]⟩, ⟨[0], [0]⟩] ∧ ∀ r ∈ [(⟨[0, 2], [2, 0]⟩ : Round), ⟨[0], [0]⟩], 0 ∈ r.act := by
  constructor
  · intro r hr p
    simp at hr
    rcases hr with rfl | rfl
    · simp [or_comm]
    · simp
  · intro r hr
    simp at hr
    rcases hr with rfl | rfl <;> simp

end Verif.Nodes
