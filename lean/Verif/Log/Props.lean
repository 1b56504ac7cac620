import Verif.Log.Lemmas

/-!
# C118: the log shows the messages of the levels asked for
-/
namespace Verif.Log
open Nodes (Filter Record)

/-- The program of a pipeline: Python starts, the runner is loaded, and the pipeline is made. -/
def run (rank size : Nat) (levels : List (Name × Int)) (tasks : List LTask) : Except Err State :=
  pipeline rank size levels tasks (basicConfig start)

/-- All levels that are given: by the runner, by the options and by the tasks. -/
def given (levels : List (Name × Int)) (tasks : List LTask) : List (Name × Int) := ([], 20) :: levels ++ taskLevels tasks

theorem run_ok (rank size : Nat) (levels : List (Name × Int)) (tasks : List LTask) :
    ∃ s, run rank size levels tasks = .ok s ∧ (∀ n, s.level n = (last (given levels tasks) n).getD 0) ∧ s.handlers = [filters rank size tasks] := by
  have hb : basicConfig start = ⟨fun n => if n = [] then 20 else if n = [] then 30 else 0, [[]]⟩ := rfl
  obtain ⟨h1, h2⟩ : (∀ n, (setupLogging levels (basicConfig start)).level n = (last levels n).getD ((basicConfig start).level n)) ∧
      (setupLogging levels (basicConfig start)).handlers = [[]] :=
    ⟨fun n => (setup_level levels _ n).1, (setup_level levels _ []).2⟩
  obtain ⟨s, e, h3, h4⟩ := initAll_ok rank size tasks (setupLogging levels (basicConfig start)) (by rw [h2]; simp)
  refine ⟨s, e, fun n => ?_, by rw [h4, h2]; rfl⟩
  rw [h3, h1, hb, given, last_append, last_cons]
  cases last (taskLevels tasks) n with
  | some l => rfl
  | none =>
    cases last levels n with
    | some l => rfl
    | none =>
      by_cases h : n = []
      · subst h; rfl
      · simp [h, Ne.symm h]

theorem shown_iff (s : State) (fs : List Filter) (hs : s.handlers = [fs]) (n : Name) (r : Record) :
    shown s n r = true ↔ effective s n ≤ r.level ∧ passes fs r = true := by
  unfold shown emit
  by_cases h : effective s n ≤ r.level
  · simp [h, hs]
  · simp [h]

/-- **C118** (partial) A message is shown exactly if its level reaches the level for the most specific name, and the one for the process it is from.

Missing: more than one logging task (`C118_repeated_violated`), levels given to the task for debug information (`C118_debug_info_violated`). -/
theorem C118_shown_partial (rank size : Nat) (levels : List (Name × Int)) (tasks : List LTask) (hu : Unchanged tasks) (h1 : (rankLevels tasks).length ≤ 1) :
    ∃ s, run rank size levels tasks = .ok s ∧ ∀ n l r, IsLevel (given levels tasks) n l →
      (shown s n r = true ↔ l ≤ r.level ∧ ∀ f, (rankLevels tasks).getLast? = some f → Reaches rank r f) := by
  obtain ⟨s, e, hl, hh⟩ := run_ok rank size levels tasks
  refine ⟨s, e, fun n l r h => ?_⟩
  rw [shown_iff s _ hh]
  have he := effective_spec (given levels tasks) s.level hl n.reverse
  rw [List.reverse_reverse] at he
  rw [show effective s n = l from isLevel_unique he h]
  refine and_congr_right fun _ => ?_
  rw [passes_iff rank size]
  · have hf : (filters rank size tasks).map (fun f => (f.level0, f.levelAll)) = rankLevels tasks := by
      clear e hl hh he h1 h
      induction tasks with
      | nil => rfl
      | cons t ts ih =>
        have ih := ih fun cls l a b hm => hu cls l a b (by simp [hm])
        cases t with
        | logged cls l => exact ih
        | mpi a b => simpa [filters, rankLevels] using ih
        | debug cls l a b =>
          obtain ⟨rfl, rfl⟩ := hu cls l a b (by simp)
          simpa [filters, rankLevels] using ih
    have hall : (∀ f ∈ filters rank size tasks, Reaches rank r (f.level0, f.levelAll)) ↔ ∀ f ∈ rankLevels tasks, Reaches rank r f := by
      rw [← hf]
      simp
    rw [hall]
    match hq : rankLevels tasks, h1 with
    | [], _ => simp
    | [f], _ => simp
  · intro f hf
    simp only [filters, List.mem_filterMap] at hf
    obtain ⟨t, _, ht⟩ := hf
    cases t with
    | logged cls l => simp at ht
    | mpi a b => simp only [Option.some.injEq] at ht; subst ht; exact ⟨rfl, rfl, rfl⟩
    | debug cls l a b => simp only [Option.some.injEq] at ht; subst ht; exact ⟨rfl, rfl, rfl⟩

/-- **C118** There is always exactly one level for a name. -/
theorem C118_one_level (levels : List (Name × Int)) (tasks : List LTask) (n : Name) :
    ∃ l, IsLevel (given levels tasks) n l ∧ ∀ l', IsLevel (given levels tasks) n l' → l' = l := by
  obtain ⟨s, _, hl, _⟩ := run_ok 0 1 levels tasks
  have he := effective_spec (given levels tasks) s.level hl n.reverse
  rw [List.reverse_reverse] at he
  exact ⟨_, he, fun l' h => isLevel_unique h he⟩

/-- The levels of a small pipeline: WARNING for everything, INFO for `draco`, and a task of its own level. -/
def exLevels : List (Name × Int) := [([], 30), (["draco"], 20)]

def exTasks : List LTask := [.mpi (some 10) none, .logged ["draco", "io", "Save"] (some 10), .logged ["draco", "io", "Load"] none]

example : Unchanged exTasks ∧ (rankLevels exTasks).length ≤ 1 ∧ IsLevel (given exLevels exTasks) ["draco", "io", "Save"] 10 ∧
    IsLevel (given exLevels exTasks) ["draco", "io", "Load"] 20 := by
  refine ⟨by simp [Unchanged, exTasks], by decide, .inl ⟨_, List.prefix_rfl, rfl, by decide, fun q hq hl => ?_⟩, .inl ⟨["draco"], by decide, rfl, by decide, fun q hq hl => ?_⟩⟩
  · have := hq.length_le
    omega
  · left
    obtain ⟨t, ht⟩ := hq
    match q, hl with
    | [a, b], _ =>
      simp only [List.cons_append, List.cons.injEq, List.nil_append] at ht
      obtain ⟨rfl, rfl, _⟩ := ht
      decide
    | [a, b, c], _ =>
      simp only [List.cons_append, List.cons.injEq, List.nil_append] at ht
      obtain ⟨rfl, rfl, rfl, _⟩ := ht
      decide
    | a :: b :: c :: d :: q, _ => simp at ht

/-- Which of them are shown by the program, on the first process and on another. -/
def showsAt (rank : Nat) (levels : List (Name × Int)) (tasks : List LTask) (n : Name) (level : Int) : Option Bool :=
  match run rank 4 levels tasks with
  | .ok s => some (shown s n ⟨level, none, none⟩)
  | .error _ => none

example : showsAt 0 exLevels exTasks ["draco", "io", "Save"] 10 = some true ∧ showsAt 0 exLevels exTasks ["draco", "io", "Load"] 10 = some false ∧
    showsAt 0 exLevels exTasks ["draco", "io", "Load"] 20 = some true ∧ showsAt 1 exLevels exTasks ["draco", "io", "Load"] 20 = some false ∧
    showsAt 1 exLevels exTasks ["draco", "io", "Load"] 30 = some true ∧ showsAt 0 exLevels exTasks ["caput"] 20 = some false := by decide +kernel

/-- **C118** (partial) The level that a task asks for is its own level; and a task that asks for none has the level of the options.

Missing: other tasks of the same class (`C118_same_class_violated`), and what an earlier pipeline has set (`C118_left_over_violated`). -/
theorem C118_own_partial (levels : List (Name × Int)) (a b : List LTask) (cls : Name) :
    (∀ l, l ≠ 0 → (∀ x ∈ taskLevels b, x.1 ≠ cls) → IsLevel (given levels (a ++ .logged cls (some l) :: b)) cls l) ∧
    (∀ l, (∀ x ∈ taskLevels (a ++ b), ¬ x.1 <+: cls) → (IsLevel (given levels (a ++ .logged cls none :: b)) cls l ↔ IsLevel (([], 20) :: levels) cls l)) := by
  constructor
  · intro l hl hb
    refine .inl ⟨cls, List.prefix_rfl, ?_, hl, fun q hq hlen => ?_⟩
    · rw [given, show taskLevels (a ++ .logged cls (some l) :: b) = taskLevels a ++ ([(cls, l)] ++ taskLevels b) by simp [taskLevels], ← List.append_assoc, last_append, last_append]
      have : last (taskLevels b) cls = none := by
        cases h : last (taskLevels b) cls with
        | none => rfl
        | some l => exact absurd rfl (hb _ (last_mem h))
      rw [this]
      simp [last]
    · have := hq.length_le
      omega
  · intro l hno
    have e : ∀ q, q <+: cls → last (given levels (a ++ .logged cls none :: b)) q = last (([], 20) :: levels) q := by
      intro q hq
      rw [given, show taskLevels (a ++ .logged cls none :: b) = taskLevels (a ++ b) by simp [taskLevels], last_append]
      have : last (taskLevels (a ++ b)) q = none := by
        cases h : last (taskLevels (a ++ b)) q with
        | none => rfl
        | some l => exact absurd hq (hno _ (last_mem h))
      rw [this]
      rfl
    have key : ∀ g g' : List (Name × Int), (∀ q, q <+: cls → last g q = last g' q) → IsLevel g cls l → IsLevel g' cls l := by
      rintro g g' h (⟨p, hp, h1, h2, h3⟩ | ⟨h1, h2⟩)
      · exact .inl ⟨p, hp, by rw [← h p hp]; exact h1, h2, fun q hq hl => by rw [← h q hq]; exact h3 q hq hl⟩
      · exact .inr ⟨h1, fun q hq => by rw [← h q hq]; exact h2 q hq⟩
    exact ⟨key _ _ e, key _ _ fun q hq => (e q hq).symm⟩

/-- **C118** (violated) Tasks of one class have one level, which is that of the last of them: the messages of a task that asks for DEBUG are not shown if a later task of its class asks for ERROR, nor
those of a task that asks for nothing. -/
theorem C118_same_class_violated (levels : List (Name × Int)) (cls : Name) (l l' : Int) (h : l' ≠ 0) (first : Option Int) (hf : first = some l ∨ first = none) :
    IsLevel (given levels [.logged cls first, .logged cls (some l')]) cls l' := by
  have := (C118_own_partial levels [.logged cls first] [] cls).1 l' h (by simp [taskLevels])
  exact this

example : showsAt 0 [] [.logged ["lib", "Task"] (some 10), .logged ["lib", "Task"] (some 40)] ["lib", "Task"] 10 = some false ∧
    showsAt 0 [] [.logged ["lib", "Task"] (some 10)] ["lib", "Task"] 10 = some true ∧
    showsAt 0 [] [.logged ["lib", "Task"] none, .logged ["lib", "Task"] (some 40)] ["lib", "Task"] 30 = some false := by decide +kernel

/-- **C118** (violated) A second logging task does not replace the first: a message has to reach the levels of both, so that the second cannot show more. -/
theorem C118_repeated_violated : ∃ tasks : List LTask, Unchanged tasks ∧ (rankLevels tasks).getLast? = some (10, 30) ∧ showsAt 0 [([], 10)] tasks ["lib"] 10 = some false ∧
    showsAt 0 [([], 10)] [.mpi (some 10) none] ["lib"] 10 = some true :=
  ⟨[.mpi none none, .mpi (some 10) none], by simp [Unchanged], by decide, by decide +kernel, by decide +kernel⟩

/-- **C118** (violated) The levels that are given for the task for debug information are not used. -/
theorem C118_debug_info_violated (rank size : Nat) (s : State) (cls : Name) (l a b : Option Int) : init rank size s (.debug cls l a b) = init rank size s (.debug cls l none none) := rfl

example : showsAt 0 [([], 10)] [.debug ["caput", "DebugInfo"] none (some 40) (some 40)] ["lib"] 10 = some true := by decide +kernel

/-- **C118** (violated) The level that a task asked for stays for the next pipeline of the same program, where no task asks for one. -/
theorem C118_left_over_violated : ∃ s s', run 0 1 [] [.logged ["lib", "Task"] (some 40)] = .ok s ∧ pipeline 0 1 [([], 20)] [.logged ["lib", "Task"] none] s = .ok s' ∧
    shown s' ["lib", "Task"] ⟨20, none, none⟩ = false ∧ showsAt 0 [([], 20)] [.logged ["lib", "Task"] none] ["lib", "Task"] 20 = some true :=
  ⟨_, _, rfl, rfl, by decide +kernel, by decide +kernel⟩

/-- **C118** The logging task fails, and changes nothing, where there is nothing to show messages with. -/
theorem C118_no_handlers (rank size : Nat) (a b : Option Int) (s : State) : (init rank size s (.mpi a b) = .error .runtime) ↔ s.handlers = [] := by
  cases a <;> cases b <;> simp [init, initMpi]

example : init 0 1 start (.mpi none none) = .error .runtime := rfl

/-- **C118** The rank and the number of processes are in columns: whatever the rank, also of a smaller group of processes, the text has the same length, and ends with the digits of both. -/
theorem C118_columns (jobSize rank size : Nat) (hr : rank ≤ jobSize) (hs : size ≤ jobSize) :
    (mpiPart jobSize rank size).length = 2 * (Nat.log 10 jobSize + 1) + 7 ∧
    ∃ i j, mpiPart jobSize rank size = ['[', 'M', 'P', 'I', ' '] ++ List.replicate i ' ' ++ Nat.toDigits 10 rank ++ ['/'] ++ List.replicate j ' ' ++ Nat.toDigits 10 size ++ [']'] := by
  have hl : ∀ n, n ≤ jobSize → (Nat.toDigits 10 n).length ≤ Nat.log 10 jobSize + 1 := by
    intro n hn
    rw [Nat.length_toDigits_le_iff (by decide) (by omega)]
    exact lt_of_le_of_lt hn (Nat.lt_pow_succ_log_self (by decide) _)
  have h1 := hl rank hr
  have h2 := hl size hs
  refine ⟨?_, Nat.log 10 jobSize + 1 - (Nat.toDigits 10 rank).length, Nat.log 10 jobSize + 1 - (Nat.toDigits 10 size).length, ?_⟩
  · simp only [mpiPart, pad, List.length_append, List.length_replicate, List.length_cons, List.length_nil]
    omega
  · simp only [mpiPart, pad, List.append_assoc]

example : mpiPart 128 7 128 = "[MPI   7/128]".toList := by decide +kernel

end Verif.Log
