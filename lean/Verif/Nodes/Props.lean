import Verif.Nodes.Model
import Mathlib.Algebra.BigOperators.Group.Finset.Basic
import Mathlib.Algebra.Order.BigOperators.Group.Finset
import Mathlib.Algebra.BigOperators.Group.List.Basic
import Mathlib.Tactic.Linarith
import Mathlib.Tactic.Ring
import Mathlib.Algebra.Order.Ring.Int

/-!
# C89: what processes are told about their node
-/
namespace Verif.Nodes

/-! ### Cores -/

/-- **C89** (partial) Each process of a node is told its share of the cores of the node, if there are as many nodes as processes on each node, or if there is no MPI.

Missing: see `C89_cores_violated`. -/
theorem C89_cores_partial (n cores : Nat) (hn : 0 < n) : cpuCount (some (n * n, n)) (some cores) = some (cores / n) ∧ cpuCount none (some cores) = some cores ∧ ∀ sizes, cpuCount sizes none = none := by
  refine ⟨?_, ?_, fun _ => rfl⟩
  · simp [cpuCount, Nat.mul_div_cancel _ hn]
  · simp [cpuCount]

example : cpuCount (some (4 * 4, 4)) (some 32) = some 8 := by decide

/-- **C89** (violated) With any other number of nodes it is the share for as many processes as there are nodes: on one node each process is told all cores, so together more than there are; and with enough nodes each is told
it has none. -/
theorem C89_cores_violated (nodes procs cores : Nat) (hp : 0 < procs) :
    cpuCount (some (nodes * procs, procs)) (some cores) = some (cores / nodes) ∧ cpuCount (some (1 * procs, procs)) (some cores) = some cores ∧
    (cores < nodes → cpuCount (some (nodes * procs, procs)) (some cores) = some 0) := by
  have h : ∀ m, cpuCount (some (m * procs, procs)) (some cores) = some (cores / m) := fun m => by simp [cpuCount, Nat.mul_div_cancel _ hp]
  refine ⟨h nodes, ?_, fun hlt => ?_⟩
  · rw [h 1, Nat.div_one]
  · rw [h nodes, Nat.div_eq_of_lt hlt]

/-! ### Memory of the group -/

theorem findAfter_first (pat pre rest post : Str) (hne : pat ≠ []) (hpre : ∀ a b, pre ++ pat ++ rest ++ '\n' :: post = a ++ pat ++ b → pre.length ≤ a.length) (hrest : '\n' ∉ rest) :
    findAfter pat (pre ++ pat ++ rest ++ '\n' :: post) = some rest := by
  induction pre with
  | nil =>
    have htake : (rest ++ '\n' :: post).takeWhile (· ≠ '\n') = rest := by
      clear hpre
      induction rest with
      | nil => simp
      | cons c r ih =>
        rw [List.cons_append, List.takeWhile_cons_of_pos (by simpa using fun e => hrest (by simp [e]))]
        rw [ih fun h => hrest (List.mem_cons_of_mem _ h)]
    cases pat with
    | nil => exact absurd rfl hne
    | cons p ps =>
      simp only [List.nil_append, List.cons_append, List.append_assoc]
      rw [findAfter, if_pos ⟨rest ++ '\n' :: post, by simp⟩]
      congr 1
      rw [show p :: (ps ++ (rest ++ '\n' :: post)) = (p :: ps) ++ (rest ++ '\n' :: post) by simp, List.drop_left]
      exact htake
  | cons c pre ih =>
    simp only [List.cons_append]
    rw [findAfter, if_neg]
    · apply ih
      intro a b h
      have := hpre (c :: a) b (by simpa using h)
      simpa using this
    · rintro ⟨b, hb⟩
      have := hpre [] b (by simpa using hb.symm)
      simp at this

theorem findAfter_none (pat t : Str) (hne : pat ≠ []) (h : ¬ pat <:+: t) : findAfter pat t = none := by
  induction t with
  | nil => simp [findAfter, hne]
  | cons c r ih =>
    rw [findAfter, if_neg fun hp => h hp.isInfix, ih fun hi => h (hi.trans (List.suffix_cons c r).isInfix)]

/-- What text says first about `key`, and it is in the same line. -/
def Says (key value t : Str) : Prop := ∃ pre post, t = pre ++ key ++ value ++ '\n' :: post ∧ '\n' ∉ value ∧ ∀ a b, t = a ++ key ++ b → pre.length ≤ a.length

theorem says_find {key value t : Str} (hne : key ≠ []) (h : Says key value t) : findAfter key t = some value := by
  obtain ⟨pre, post, rfl, hv, hf⟩ := h
  exact findAfter_first key pre value post hne hf hv

/-- **C89** (partial) The memory available is: what the system says, if there is no file about groups, or the file does not name a group for memory, or this is the root; else the limit of the group without what it uses;
and an `OSError` if files are there but cannot be read.

Missing: see `C89_limit_violated`. -/
theorem C89_memory_partial (s : Sys) :
    (s.cgroup = .missing → availableMemory s = .ok s.available) ∧ (s.cgroup = .unreadable → availableMemory s = .error .os) ∧
    (∀ t, s.cgroup = .text t → ¬ "memory:".toList <:+: t → availableMemory s = .ok s.available) ∧
    ∀ t g, s.cgroup = .text t → Says "memory:".toList g t →
      (s.strip g = "/".toList → availableMemory s = .ok s.available) ∧
      (s.strip g ≠ "/".toList → ∀ st us l m u, s.stat (s.strip g) = .text st → s.usage (s.strip g) = .text us → Says "hierarchical_memory_limit".toList l st → s.int (s.strip l) = some m → s.int us = some u →
        availableMemory s = .ok (m - u)) ∧
      (s.strip g ≠ "/".toList → (∀ st, s.stat (s.strip g) ≠ .text st) → availableMemory s = .error .os) := by
  have hm : "memory:".toList ≠ [] := by decide +kernel
  have hl : "hierarchical_memory_limit".toList ≠ [] := by decide +kernel
  refine ⟨fun h => by simp [availableMemory, h], fun h => by simp [availableMemory, h], ?_, ?_⟩
  · intro t h ht
    have := findAfter_none _ t hm ht
    unfold availableMemory
    rw [h]
    simp only [this]
    rw [if_pos trivial]
  · intro t g h hs
    have hf := says_find hm hs
    refine ⟨?_, ?_, ?_⟩
    · intro hg
      unfold availableMemory
      rw [h]
      simp only [hf]
      rw [if_pos hg]
    · intro hg st us l m u hst hus hlim him hiu
      have hf2 := says_find hl hlim
      unfold availableMemory
      rw [h]
      simp only [hf]
      rw [if_neg hg]
      simp only [hst, hus, hf2, him, hiu]
    · intro hg hst
      unfold availableMemory
      rw [h]
      simp only [hf]
      rw [if_neg hg]
      cases hc : s.stat (s.strip g) with
      | text st => exact absurd hc (hst st)
      | missing => rfl
      | unreadable => rfl

/-- **C89** (violated) If the file of the group has no limit in it, the memory available is said to be below zero, so that nothing can be allocated. -/
theorem C89_limit_violated (s : Sys) (t g : Str) (h : s.cgroup = .text t) (hs : Says "memory:".toList g t) (hg : s.strip g ≠ "/".toList) (st us : Str) (u : Int) (hst : s.stat (s.strip g) = .text st)
    (hus : s.usage (s.strip g) = .text us) (hno : ¬ "hierarchical_memory_limit".toList <:+: st) (hu : s.int us = some u) : availableMemory s = .ok (-u) := by
  have hm : "memory:".toList ≠ [] := by decide +kernel
  have hl : "hierarchical_memory_limit".toList ≠ [] := by decide +kernel
  have hf := says_find hm hs
  have hf2 := findAfter_none _ st hl hno
  unfold availableMemory
  rw [h]
  simp only [hf]
  rw [if_neg hg]
  simp only [hst, hus, hf2, hu, Int.zero_sub]

example : findAfter "memory:".toList "3:cpu:/a\n2:memory:/slurm/x\n1:b:/\n".toList = some "/slurm/x".toList := by decide +kernel

/-! ### Whether memory can be allocated -/

/-- All processes can read what memory is available on their node. -/
def AllRead (procs : List Proc) (A : Nat → Int) : Prop := ∀ p ∈ procs, p.avail = some (A p.node)

theorem any_none {procs : List Proc} {A : Nat → Int} (h : AllRead procs A) : procs.any (·.avail.isNone) = false := by
  rw [List.any_eq_false]
  intro p hp
  simp [h p hp]

/-- **C89** For one node: the answer is yes exactly if what is asked for, or with `process` what all processes of the node ask for together, is less than what is available there. -/
theorem C89_node (procs : List Proc) (A : Nat → Int) (h : AllRead procs A) (p : Proc) (hp : p ∈ procs) :
    (canAllocate .shared procs p = .says true ↔ p.nbytes < A p.node) ∧ (canAllocate .shared procs p = .says false ↔ A p.node ≤ p.nbytes) ∧
    (canAllocate .process procs p = .says true ↔ ((procs.filter (·.node = p.node)).map (·.nbytes)).sum < A p.node) ∧
    (canAllocate .process procs p = .says false ↔ A p.node ≤ ((procs.filter (·.node = p.node)).map (·.nbytes)).sum) ∧ canAllocate .other procs p = .valueError := by
  have hany : (onNode procs p.node).any (·.avail.isNone) = false := any_none (A := A) fun q hq => h q (List.mem_filter.1 hq).1
  unfold canAllocate
  simp only [h p hp, hany, Bool.false_eq_true, if_false, Answer.says.injEq]
  exact ⟨decide_eq_true_iff, decide_eq_false_iff_not.trans not_lt, decide_eq_true_iff, decide_eq_false_iff_not.trans not_lt, trivial⟩

theorem global_sum (procs : List Proc) (A : Nat → Int) (h : AllRead procs A) :
    (procs.map fun q => (q.avail.getD 0) / ((onNode procs q.node).length : Int)).sum =
      ∑ n ∈ (procs.map (·.node)).toFinset, ((onNode procs n).length : Int) * (A n / ((onNode procs n).length : Int)) := by
  have e : (procs.map fun q => (q.avail.getD 0) / ((onNode procs q.node).length : Int)) = (procs.map (·.node)).map fun n => A n / ((onNode procs n).length : Int) := by
    rw [List.map_map]
    apply List.map_congr_left
    intro q hq
    simp [h q hq]
  rw [e, Finset.sum_list_map_count]
  apply Finset.sum_congr rfl
  intro n _
  have : (procs.map (·.node)).count n = (onNode procs n).length := by
    rw [onNode, List.count, List.countP_map, List.countP_eq_length_filter]
    rfl
  rw [this, nsmul_eq_mul]

/-- **C89** (partial) For all nodes together: the answer is yes only if less is asked for than is available on all nodes together; and it is yes if there is one more byte for each process.

Missing: see `C89_global_violated`. -/
theorem C89_global_partial (procs : List Proc) (A : Nat → Int) (h : AllRead procs A) (p : Proc) (hp : p ∈ procs) :
    (canAllocate .global procs p = .says true → p.nbytes < ∑ n ∈ (procs.map (·.node)).toFinset, A n) ∧
    (p.nbytes + procs.length ≤ ∑ n ∈ (procs.map (·.node)).toFinset, A n → canAllocate .global procs p = .says true) := by
  have hs := global_sum procs A h
  have hpos : ∀ n ∈ (procs.map (·.node)).toFinset, (0 : Int) < ((onNode procs n).length : Int) := by
    intro n hn
    obtain ⟨q, hq, rfl⟩ := List.mem_map.1 (List.mem_toFinset.1 hn)
    exact_mod_cast List.length_pos_of_mem (List.mem_filter.2 ⟨hq, by simp⟩)
  have hlen : ∑ n ∈ (procs.map (·.node)).toFinset, ((onNode procs n).length : Int) = procs.length := by
    have h1 := Finset.sum_list_map_count (procs.map (·.node)) (fun _ => (1 : Int))
    have h2 : ((procs.map (·.node)).map fun _ => (1 : Int)).sum = procs.length := by rw [List.map_const', List.sum_replicate]; simp
    rw [h2] at h1
    rw [h1]
    apply Finset.sum_congr rfl
    intro n _
    have : (procs.map (·.node)).count n = (onNode procs n).length := by
      rw [onNode, List.count, List.countP_map, List.countP_eq_length_filter]
      rfl
    rw [this]
    simp
  unfold canAllocate
  simp only [h p hp, any_none h, Bool.false_eq_true, if_false, hs, Answer.says.injEq, decide_eq_true_eq]
  constructor
  · intro hlt
    refine lt_of_lt_of_le hlt (Finset.sum_le_sum fun n hn => ?_)
    exact Int.mul_ediv_self_le (hpos n hn).ne'
  · intro hle
    have : ∑ n ∈ (procs.map (·.node)).toFinset, A n < ∑ n ∈ (procs.map (·.node)).toFinset, (((onNode procs n).length : Int) * (A n / ((onNode procs n).length : Int)) + ((onNode procs n).length : Int)) := by
      apply Finset.sum_lt_sum_of_nonempty
      · exact ⟨p.node, List.mem_toFinset.2 (List.mem_map.2 ⟨p, hp, rfl⟩)⟩
      · intro n hn
        have := Int.lt_mul_ediv_self_add (x := A n) (hpos n hn)
        exact this
    rw [Finset.sum_add_distrib, hlen] at this
    linarith

/-- **C89** (violated) The answer for all nodes together can be no although there is enough, since what is available is divided by the number of processes of a node, with a remainder. -/
theorem C89_global_violated : ∃ (procs : List Proc) (A : Nat → Int) (p : Proc), AllRead procs A ∧ p ∈ procs ∧ p.nbytes < ∑ n ∈ (procs.map (·.node)).toFinset, A n ∧ canAllocate .global procs p = .says false :=
  ⟨[⟨0, 2, some 3⟩, ⟨0, 2, some 3⟩], fun _ => 3, ⟨0, 2, some 3⟩, by intro p hp; simp at hp; simp [hp], by simp, by simp, by decide⟩

/-- **C89** (violated) If one process of the node cannot read what is available, it is told yes, and the other processes of the node wait without end. -/
theorem C89_blocked_violated (procs : List Proc) (p q : Proc) (hq : q ∈ procs) (hn : q.node = p.node) (hnone : q.avail = none) (a : Int) (ha : p.avail = some a) :
    (∀ scope, canAllocate scope procs q = .says true) ∧ canAllocate .process procs p = .blocked ∧ canAllocate .global procs p = .blocked := by
  refine ⟨fun scope => by simp [canAllocate, hnone], ?_, ?_⟩
  · have : (onNode procs p.node).any (·.avail.isNone) = true := List.any_eq_true.2 ⟨q, List.mem_filter.2 ⟨hq, by simpa using hn⟩, by simp [hnone]⟩
    simp [canAllocate, ha, this]
  · have : procs.any (·.avail.isNone) = true := List.any_eq_true.2 ⟨q, hq, by simp [hnone]⟩
    simp [canAllocate, ha, this]

example : AllRead [⟨0, 5, some 100⟩, ⟨1, 7, some 50⟩, ⟨0, 6, some 100⟩] (fun n => if n = 0 then 100 else 50) := by
  intro p hp
  simp at hp
  rcases hp with rfl | rfl | rfl <;> rfl

/-! ### The log -/

/-- **C89** A record is shown exactly if its level is at least the one for the first process or the one for the others, according to the process it is from: the rank that the record has, else the own rank. The rank and
size are added to records that have none, if asked for, and nothing else is changed. -/
theorem C89_log (f : Filter) (r : Record) :
    (∀ k, r.rank = some k → ((f.filter r).2 = true ↔ if k = 0 then f.level0 ≤ r.level else f.levelAll ≤ r.level) ∧ (f.filter r).1 = r) ∧
    (r.rank = none → ((f.filter r).2 = true ↔ if f.rank = 0 then f.level0 ≤ r.level else f.levelAll ≤ r.level) ∧
      (f.filter r).1 = (if f.addInfo then ⟨r.level, some f.rank, some f.size⟩ else r)) := by
  constructor
  · intro k hk
    unfold Filter.filter
    simp only [hk, Option.isNone_some, Bool.false_and, Bool.false_eq_true, if_false]
    constructor
    · split <;> simp
    · trivial
  · intro hn
    unfold Filter.filter
    cases f.addInfo with
    | true =>
      simp only [hn, Option.isNone_none, Bool.and_self, if_true]
      exact ⟨by split <;> simp, trivial⟩
    | false =>
      simp only [hn, Option.isNone_none, Bool.and_false, Bool.false_eq_true, if_false]
      exact ⟨by split <;> simp, trivial⟩

example : (Filter.filter ⟨true, 20, 30, 3, 8⟩ ⟨25, none, none⟩) = (⟨25, some 3, some 8⟩, false) := by decide

/-- **C89** (partial) Numbers are levels as they are; the names of levels are their numbers; everything else is rejected.

Missing: see `C89_level_violated`. -/
theorem C89_level_partial : (∀ z, logLevel (.int z) = some z) ∧ logLevel .other = none ∧
    (∀ s, (∀ e ∈ levels, e.1 ≠ s) → logLevel (.str s) = none) ∧
    logLevel (.str "DEBUG".toList) = some 10 ∧ logLevel (.str "INFO".toList) = some 20 ∧ logLevel (.str "WARN".toList) = some 30 ∧ logLevel (.str "WARNING".toList) = some 30 ∧
    logLevel (.str "ERROR".toList) = some 40 ∧ logLevel (.str "CRITICAL".toList) = some 50 := by
  refine ⟨fun _ => rfl, rfl, ?_, by decide +kernel, by decide +kernel, by decide +kernel, by decide +kernel, by decide +kernel, by decide +kernel⟩
  intro s h
  have : levels.any (·.1 = s) = false := List.any_eq_false.2 fun e he => by simpa using h e he
  simp [logLevel, this]

/-- **C89** (violated) A name in small letters is rejected, although the code turns names into capitals. -/
theorem C89_level_violated : upper "info".toList = "INFO".toList ∧ logLevel (.str "info".toList) = none := by decide +kernel

end Verif.Nodes
