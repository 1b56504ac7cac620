import Mathlib.Tactic.Common
import Mathlib.Data.List.Nodup
import Mathlib.Data.List.Range
import Mathlib.Data.Nat.ModEq

/-!
# C96: the task that checks the communication

Models `caput/pipeline/tasklib/debug.py:18-72` (`CheckMPIEnvironment.setup`). A network says for each message (from,
to, contents) when it has arrived and with which contents; `arange` gives the same array on all processes, and row `p` of it is
sent by process `p`. Messages between two processes match receives in order (there is one each). Simplified: times are those of the
polls, `timeout` is the number of polls that are done (0 if the timeout is not positive); what is in the buffer before a message
arrives is a parameter.
-/
namespace Verif.Nodes

/-- debug.py:41: the process to send to in round `i`. -/
def sendTo (size rank i : Nat) : Nat := (rank + i) % size

/-- debug.py:42: the process to receive from, with the remainder of python. -/
def recvFrom (size rank i : Nat) : Nat := (((rank : Int) - i) % (size : Int)).toNat

/-- A network: for a message between two processes the poll at which it is there, if it ever is, and what comes out. -/
structure Network (α : Type) where
  arrives : Nat → Nat → Option Nat
  carries : Nat → Nat → α → α

/-- debug.py:40-45: the receives that process `rank` posts. -/
def posted (size rank : Nat) : List Nat := (List.range size).map (recvFrom size rank)

/-- debug.py:40-46: the messages (from, to) that all processes send. -/
def messages (size : Nat) : List (Nat × Nat) := (List.range size).flatMap fun p => (List.range size).map fun i => (p, sendTo size p i)

/-- The outcome on one process. -/
inductive Outcome where
  | passed
  | late
  | corrupted
  | unbound
  deriving DecidableEq

/-- A receive is finished at a poll if a message for it was sent and has arrived. -/
def finished {α : Type} (size rank : Nat) (net : Network α) (poll q : Nat) : Bool :=
  decide ((q, rank) ∈ messages size) && match net.arrives q rank with
  | none => false
  | some t => decide (t ≤ poll)

/-- debug.py:50-56: whether one of the polls, from `k` on, finds all receives finished; `none` if there is none. -/
def polls {α : Type} (size rank : Nat) (net : Network α) (k : Nat) : Nat → Option Bool
  | 0 => none
  | n + 1 =>
    if (posted size rank).all (finished size rank net k) then some true
    else
      match polls size rank net (k + 1) n with
      | none => some false
      | some b => some b

/-- The rows after the receives: what came in for those that were posted, and `junk` for others. -/
def received {α : Type} (size rank : Nat) (net : Network α) (row junk : Nat → α) (q : Nat) : α :=
  if q ∈ posted size rank then net.carries q rank (row q) else junk q

/-- debug.py:22-67 on one process, up to the barrier. -/
def check {α : Type} [DecidableEq α] (size rank : Nat) (net : Network α) (row junk : Nat → α) (timeout : Nat) : Outcome :=
  match polls size rank net 0 timeout with
  | none => .unbound
  | some false => .late
  | some true => if (List.range size).all fun q => decide (received size rank net row junk q = row q) then .passed else .corrupted

/-! ### Helper lemmas -/

theorem recvFrom_eq (size rank i : Nat) (hr : rank < size) (hi : i < size) : recvFrom size rank i = (rank + size - i) % size := by
  unfold recvFrom
  by_cases h : i ≤ rank
  · rw [show ((rank : Int) - i) = ((rank - i : Nat) : Int) by omega, ← Int.natCast_emod, Int.toNat_natCast, show rank + size - i = rank - i + size by omega, Nat.add_mod_right]
  · rw [← Int.add_emod_right, show ((rank : Int) - i + size) = ((rank + size - i : Nat) : Int) by omega, ← Int.natCast_emod, Int.toNat_natCast]

theorem mem_posted (size rank q : Nat) (hr : rank < size) : q ∈ posted size rank ↔ q < size := by
  simp only [posted, List.mem_map, List.mem_range]
  constructor
  · rintro ⟨i, hi, rfl⟩
    rw [recvFrom_eq size rank i hr hi]
    exact Nat.mod_lt _ (by omega)
  · intro hq
    by_cases h : q ≤ rank
    · refine ⟨rank - q, by omega, ?_⟩
      rw [recvFrom_eq size rank _ hr (by omega), show rank + size - (rank - q) = q + size by omega, Nat.add_mod_right, Nat.mod_eq_of_lt hq]
    · refine ⟨rank + size - q, by omega, ?_⟩
      rw [recvFrom_eq size rank _ hr (by omega), show rank + size - (rank + size - q) = q by omega, Nat.mod_eq_of_lt hq]

theorem posted_nodup (size rank : Nat) (hr : rank < size) : (posted size rank).Nodup := by
  unfold posted
  refine List.Nodup.map_on ?_ List.nodup_range
  intro i hi j hj h
  rw [List.mem_range] at hi hj
  rw [recvFrom_eq size rank i hr hi, recvFrom_eq size rank j hr hj] at h
  have e : ∀ k, k < size → (rank + size - k) % size = if k ≤ rank then rank - k else rank + size - k := by
    intro k hk
    split_ifs with h
    · rw [show rank + size - k = rank - k + size by omega, Nat.add_mod_right, Nat.mod_eq_of_lt (by omega)]
    · rw [Nat.mod_eq_of_lt (by omega)]
  rw [e i hi, e j hj] at h
  split_ifs at h <;> omega

theorem sends_nodup (size p : Nat) : ((List.range size).map fun i => (p, sendTo size p i)).Nodup := by
  refine List.Nodup.map_on ?_ List.nodup_range
  intro i hi j hj h
  rw [List.mem_range] at hi hj
  simp only [sendTo, Prod.mk.injEq, true_and] at h
  have h1 : i % size = j % size := Nat.ModEq.add_left_cancel' p h
  rwa [Nat.mod_eq_of_lt hi, Nat.mod_eq_of_lt hj] at h1

theorem mem_messages (size p q : Nat) : (p, q) ∈ messages size ↔ p < size ∧ q < size := by
  simp only [messages, List.mem_flatMap, List.mem_map, List.mem_range, Prod.mk.injEq]
  constructor
  · rintro ⟨a, ha, i, hi, rfl, rfl⟩
    exact ⟨ha, Nat.mod_lt _ (by omega)⟩
  · rintro ⟨hp, hq⟩
    refine ⟨p, hp, (q + size - p) % size, Nat.mod_lt _ (by omega), rfl, ?_⟩
    rw [sendTo, Nat.add_mod_mod, show p + (q + size - p) = q + size by omega, Nat.add_mod_right, Nat.mod_eq_of_lt hq]

/-! ### Properties -/

/-- **C96** Each process sends exactly one message to each process (also itself), and each process waits for exactly one message from each. -/
theorem C96_pairs (size p q : Nat) (hp : p < size) (hq : q < size) : (messages size).count (p, q) = 1 ∧ (posted size p).count q = 1 := by
  refine ⟨List.count_eq_one_of_mem ?_ ((mem_messages size p q).2 ⟨hp, hq⟩), List.count_eq_one_of_mem (posted_nodup size p hp) ((mem_posted size p q hp).2 hq)⟩
  unfold messages
  rw [List.nodup_flatMap]
  refine ⟨fun p _ => sends_nodup size p, ?_⟩
  refine List.Pairwise.imp ?_ List.nodup_range
  intro a b hab x hx hy
  simp only [List.mem_map] at hx hy
  obtain ⟨i, -, rfl⟩ := hx
  obtain ⟨j, -, h⟩ := hy
  simp only [Prod.mk.injEq] at h
  exact hab h.1.symm

example : (messages 5).count (3, 1) = 1 ∧ (posted 5 3).count 1 = 1 := C96_pairs 5 3 1 (by decide) (by decide)

theorem polls_true {α : Type} (size rank : Nat) (net : Network α) (k n : Nat) (hmono : ∀ j, k ≤ j → j < k + n → (posted size rank).all (finished size rank net j) = true →
    (posted size rank).all (finished size rank net (k + n - 1)) = true) (hn : 0 < n) :
    polls size rank net k n = some ((posted size rank).all (finished size rank net (k + n - 1))) := by
  induction n generalizing k with
  | zero => omega
  | succ n ih =>
    rw [polls]
    by_cases h : (posted size rank).all (finished size rank net k) = true
    · rw [if_pos h, hmono k (by omega) (by omega) h]
    · rw [if_neg h]
      rcases Nat.eq_zero_or_pos n with rfl | hn'
      · rw [polls]
        simp only [Nat.zero_add, Nat.add_sub_cancel]
        rw [Bool.not_eq_true] at h
        rw [h]
      · rw [ih (k + 1) (fun j h1 h2 h3 => by rw [show k + 1 + n - 1 = k + (n + 1) - 1 by omega]; exact hmono j (by omega) (by omega) h3) hn', show k + 1 + n - 1 = k + (n + 1) - 1 by omega]

/-- **C96** The check passes on a process exactly if a message from each process has arrived by the last poll, as it was sent. Missing: a timeout that is not positive. -/
theorem C96_check_partial {α : Type} [DecidableEq α] (size rank : Nat) (hr : rank < size) (net : Network α) (row junk : Nat → α) (timeout : Nat) (ht : 0 < timeout) :
    (check size rank net row junk timeout = .passed ↔ ∀ q < size, (∃ t, net.arrives q rank = some t ∧ t < timeout) ∧ net.carries q rank (row q) = row q) ∧
    (check size rank net row junk timeout = .late ↔ ∃ q < size, ∀ t, net.arrives q rank = some t → timeout ≤ t) := by
  have hfin : ∀ k, ((posted size rank).all (finished size rank net k) = true) ↔ ∀ q < size, ∃ t, net.arrives q rank = some t ∧ t ≤ k := by
    intro k
    rw [List.all_eq_true]
    have e : ∀ q < size, (finished size rank net k q = true ↔ ∃ t, net.arrives q rank = some t ∧ t ≤ k) := by
      intro q hq
      simp only [finished, (mem_messages size q rank).2 ⟨hq, hr⟩, decide_true, Bool.true_and]
      cases net.arrives q rank <;> simp
    constructor
    · intro h q hq
      exact (e q hq).1 (h q ((mem_posted size rank q hr).2 hq))
    · intro h q hq
      have hq := (mem_posted size rank q hr).1 hq
      exact (e q hq).2 (h q hq)
  have hp := polls_true size rank net 0 timeout (fun j _ h2 h3 => by
    rw [hfin] at h3 ⊢
    intro q hq
    obtain ⟨t, h4, h5⟩ := h3 q hq
    exact ⟨t, h4, by omega⟩) ht
  have hrec : ((List.range size).all fun q => decide (received size rank net row junk q = row q)) = true ↔ ∀ q < size, net.carries q rank (row q) = row q := by
    rw [List.all_eq_true]
    constructor
    · intro h q hq
      have := h q (List.mem_range.2 hq)
      rw [decide_eq_true_iff, received, if_pos ((mem_posted size rank q hr).2 hq)] at this
      exact this
    · intro h q hq
      have hq := List.mem_range.1 hq
      rw [decide_eq_true_iff, received, if_pos ((mem_posted size rank q hr).2 hq)]
      exact h q hq
  have hk := hfin (0 + timeout - 1)
  unfold check
  rw [hp]
  cases hb : (posted size rank).all (finished size rank net (0 + timeout - 1)) with
  | false =>
    rw [hb] at hk
    have hno : ¬ ∀ q < size, ∃ t, net.arrives q rank = some t ∧ t ≤ 0 + timeout - 1 := by
      intro h
      exact absurd (hk.2 h) (by simp)
    push Not at hno
    obtain ⟨q, hq, hno⟩ := hno
    constructor
    · simp only [reduceCtorEq, false_iff]
      intro h
      obtain ⟨⟨t, h1, h2⟩, -⟩ := h q hq
      have := hno t h1
      omega
    · simp only [true_iff]
      exact ⟨q, hq, fun t h1 => by have := hno t h1; omega⟩
  | true =>
    rw [hb] at hk
    have hall := hk.1 rfl
    simp only
    constructor
    · by_cases hc : ((List.range size).all fun q => decide (received size rank net row junk q = row q)) = true
      · rw [if_pos hc]
        simp only [true_iff]
        intro q hq
        obtain ⟨t, h1, h2⟩ := hall q hq
        exact ⟨⟨t, h1, by omega⟩, hrec.1 hc q hq⟩
      · rw [if_neg hc]
        simp only [reduceCtorEq, false_iff]
        intro h
        exact hc (hrec.2 fun q hq => (h q hq).2)
    · constructor
      · intro h
        split_ifs at h
      · rintro ⟨q, hq, h⟩
        obtain ⟨t, h1, h2⟩ := hall q hq
        have := h t h1
        omega

example : check 3 1 ⟨fun p q => some (p + q), fun _ _ x => x⟩ (fun p => 10 * p) (fun _ => 7) 48 = .passed :=
  (C96_check_partial 3 1 (by decide) _ _ _ 48 (by decide)).1.2 fun q hq => ⟨⟨q + 1, rfl, by omega⟩, rfl⟩

/-- **C96** All processes pass exactly if all messages between all processes arrive in time and as they were sent. -/
theorem C96_all_partial {α : Type} [DecidableEq α] (size : Nat) (net : Network α) (row junk : Nat → α) (timeout : Nat) (ht : 0 < timeout) :
    (∀ rank < size, check size rank net row junk timeout = .passed) ↔
    ∀ p < size, ∀ q < size, (∃ t, net.arrives p q = some t ∧ t < timeout) ∧ net.carries p q (row p) = row p := by
  constructor
  · intro h p hp q hq
    exact (C96_check_partial size q hq net row junk timeout ht).1.1 (h q hq) p hp
  · intro h q hq
    exact (C96_check_partial size q hq net row junk timeout ht).1.2 fun p hp => h p hp q hq

example : ¬ ∀ rank < 3, check 3 rank ⟨fun p q => if p = 2 ∧ q = 0 then none else some 0, fun _ _ x => x⟩ (fun p => 10 * p) (fun _ => 7) 48 = .passed := by
  rw [C96_all_partial 3 _ _ _ 48 (by decide)]
  intro h
  obtain ⟨⟨t, h, -⟩, -⟩ := h 2 (by decide) 0 (by decide)
  simp at h

/-- **C96** (negation) With a timeout that is not positive there is no check: the variable with its result is not bound, whatever the network does. -/
theorem C96_timeout_violated {α : Type} [DecidableEq α] (size rank : Nat) (net : Network α) (row junk : Nat → α) : check size rank net row junk 0 = .unbound := rfl

example : check 2 0 ⟨fun _ _ => some 0, fun _ _ x => x⟩ (fun p => p) (fun p => p) 0 = .unbound := C96_timeout_violated 2 0 _ _ _

end Verif.Nodes
