import Verif.Log.Spec

/-!
# Lemmas for C118
-/
namespace Verif.Log
open Nodes (Filter Record)

theorem last_nil (n : Name) : last [] n = none := rfl

theorem last_cons (x : Name × Int) (xs : List (Name × Int)) (n : Name) :
    last (x :: xs) n = (last xs n).or (if x.1 = n then some x.2 else none) := by
  unfold last
  rw [List.reverse_cons, List.find?_append, Option.map_or]
  congr 1
  simp only [List.find?_cons, List.find?_nil]
  by_cases h : x.1 = n <;> simp [h]

theorem last_append (a b : List (Name × Int)) (n : Name) : last (a ++ b) n = (last b n).or (last a n) := by
  unfold last
  rw [List.reverse_append, List.find?_append, Option.map_or]

theorem last_mem {given : List (Name × Int)} {n : Name} {l : Int} (h : last given n = some l) : (n, l) ∈ given := by
  simp only [last, Option.map_eq_some_iff] at h
  obtain ⟨x, hx, rfl⟩ := h
  have := List.find?_some hx
  simp only [decide_eq_true_eq] at this
  subst this
  simpa using List.mem_of_find?_eq_some hx

theorem setup_level (levels : List (Name × Int)) (s : State) (n : Name) :
    (setupLogging levels s).level n = (last levels n).getD (s.level n) ∧ (setupLogging levels s).handlers = s.handlers := by
  induction levels generalizing s with
  | nil => exact ⟨rfl, rfl⟩
  | cons x xs ih =>
    obtain ⟨h1, h2⟩ := ih (s.setLevel x.1 x.2)
    refine ⟨?_, h2⟩
    change (setupLogging xs (s.setLevel x.1 x.2)).level n = _
    rw [h1, last_cons]
    cases last xs n with
    | some l => rfl
    | none =>
      simp only [State.setLevel, Option.none_or, Option.getD_none]
      by_cases h : x.1 = n
      · simp [h]
      · simp [h, Ne.symm h]

/-- The filters that the tasks make. -/
def filters (rank size : Nat) (tasks : List LTask) : List Filter :=
  tasks.filterMap fun t => match t with
    | .logged _ _ => none
    | .mpi a b => some ⟨true, a.getD 20, b.getD 30, rank, size⟩
    | .debug _ _ _ _ => some ⟨true, 10, 20, rank, size⟩

theorem initAll_ok (rank size : Nat) (tasks : List LTask) (s : State) (hs : s.handlers ≠ []) :
    ∃ s', initAll rank size s tasks = .ok s' ∧ (∀ n, s'.level n = (last (taskLevels tasks) n).getD (s.level n)) ∧
      s'.handlers = s.handlers.map (· ++ filters rank size tasks) := by
  induction tasks generalizing s with
  | nil => exact ⟨s, rfl, fun n => rfl, by simp [filters]⟩
  | cons t ts ih =>
    have he : s.handlers.isEmpty = false := by simpa using hs
    have key : ∀ s1, init rank size s t = .ok s1 → s1.handlers ≠ [] → (∀ n, s1.level n = (last (taskLevels [t]) n).getD (s.level n)) →
        s1.handlers = s.handlers.map (· ++ filters rank size [t]) →
        ∃ s', initAll rank size s (t :: ts) = .ok s' ∧ (∀ n, s'.level n = (last (taskLevels (t :: ts)) n).getD (s.level n)) ∧
          s'.handlers = s.handlers.map (· ++ filters rank size (t :: ts)) := by
      intro s1 h1 h2 h3 h4
      obtain ⟨s', h5, h6, h7⟩ := ih s1 h2
      refine ⟨s', by simp only [initAll, h1, bind, Except.bind]; exact h5, fun n => ?_, ?_⟩
      · rw [h6, h3, show taskLevels (t :: ts) = taskLevels [t] ++ taskLevels ts by
          simp only [taskLevels, ← List.filterMap_append, List.singleton_append], last_append]
        cases last (taskLevels ts) n <;> rfl
      · rw [h7, h4, show filters rank size (t :: ts) = filters rank size [t] ++ filters rank size ts by
          simp only [filters, ← List.filterMap_append, List.singleton_append]]
        simp
    cases t with
    | logged cls l =>
      refine key _ rfl ?_ ?_ ?_
      · cases l <;> exact hs
      · intro n
        cases l with
        | none => rfl
        | some l =>
          by_cases h : n = cls <;> simp [initLogged, State.setLevel, taskLevels, last, h, eq_comm]
          simp [Ne.symm h]
      · cases l <;> simp [initLogged, State.setLevel, filters]
    | mpi a b =>
      refine key ⟨s.level, s.handlers.map (· ++ filters rank size [.mpi a b])⟩ ?_ ?_ (fun n => rfl) rfl
      · cases a <;> cases b <;> simp [init, initMpi, he, filters]
      · simpa using hs
    | debug cls l a b =>
      refine key (initLogged cls l ⟨s.level, s.handlers.map (· ++ filters rank size [.debug cls l a b])⟩) ?_ ?_ ?_ ?_
      · simp [init, initMpi, he, filters, bind, Except.bind, pure, Except.pure]
      · cases l <;> simpa [initLogged, State.setLevel] using hs
      · intro n
        cases l with
        | none => rfl
        | some l =>
          by_cases h : n = cls <;> simp [initLogged, State.setLevel, taskLevels, last, h, eq_comm]
          simp [Ne.symm h]
      · cases l <;> rfl

/-! ### Effective levels -/

theorem effective_spec (given : List (Name × Int)) (level : Name → Int) (h : ∀ n, level n = (last given n).getD 0) (m : Name) :
    IsLevel given m.reverse (effectiveRev level m) := by
  induction m with
  | nil =>
    simp only [effectiveRev, List.reverse_nil]
    have h0 := h []
    cases hl : last given [] with
    | none =>
      rw [hl] at h0
      refine .inr ⟨h0, fun q hq => ?_⟩
      rw [List.prefix_nil.1 hq]
      exact .inl hl
    | some l =>
      rw [hl] at h0
      simp only [Option.getD_some] at h0
      rw [h0]
      by_cases hz : l = 0
      · subst hz
        refine .inr ⟨rfl, fun q hq => ?_⟩
        rw [List.prefix_nil.1 hq]
        exact .inr hl
      · refine .inl ⟨[], List.prefix_rfl, hl, hz, fun q hq hlen => ?_⟩
        rw [List.prefix_nil.1 hq] at hlen
        simp at hlen
  | cons x up ih =>
    simp only [effectiveRev]
    split
    · rename_i hne
      have h0 := h (x :: up).reverse
      cases hl : last given (x :: up).reverse with
      | none => rw [hl] at h0; exact absurd h0 hne
      | some l =>
        rw [hl] at h0
        simp only [Option.getD_some] at h0
        rw [h0] at hne ⊢
        refine .inl ⟨_, List.prefix_rfl, hl, hne, fun q hq hlen => ?_⟩
        have := hq.length_le
        omega
    · rename_i hz
      have hz' : last given (x :: up).reverse = none ∨ last given (x :: up).reverse = some 0 := by
        have h0 := h (x :: up).reverse
        cases hl : last given (x :: up).reverse with
        | none => exact .inl rfl
        | some l =>
          rw [hl] at h0
          simp only [Option.getD_some] at h0
          right
          rw [← h0]
          by_cases hc : level (x :: up).reverse = 0
          · rw [hc]
          · exact absurd hc hz
      rw [List.reverse_cons] at hz' ⊢
      rcases ih with ⟨p, hp, hl, hne, hq⟩ | ⟨hl, hq⟩
      · refine .inl ⟨p, hp.trans (List.prefix_append _ _), hl, hne, fun q hq' hlen => ?_⟩
        rcases List.prefix_concat_iff.1 hq' with rfl | hq'
        · exact hz'
        · exact hq q hq' hlen
      · refine .inr ⟨hl, fun q hq' => ?_⟩
        rcases List.prefix_concat_iff.1 hq' with rfl | hq'
        · exact hz'
        · exact hq q hq'

theorem isLevel_unique {given : List (Name × Int)} {n : Name} {l l' : Int} (h : IsLevel given n l) (h' : IsLevel given n l') : l = l' := by
  rcases h with ⟨p, hp, hl, hne, hq⟩ | ⟨rfl, hq⟩
  · rcases h' with ⟨p', hp', hl', hne', hq'⟩ | ⟨rfl, hq'⟩
    · have e : p.length = p'.length := by
        rcases Nat.lt_trichotomy p.length p'.length with h | h | h
        · rcases hq p' hp' h with h | h
          · rw [h] at hl'; cases hl'
          · rw [h] at hl'; exact absurd (Option.some.inj hl').symm hne'
        · exact h
        · rcases hq' p hp h with h | h
          · rw [h] at hl; cases hl
          · rw [h] at hl; exact absurd (Option.some.inj hl).symm hne
      have : p = p' := by
        rcases List.prefix_or_prefix_of_prefix hp hp' with h | h
        · exact h.eq_of_length e
        · exact (h.eq_of_length e.symm).symm
      subst this
      rw [hl] at hl'
      exact Option.some.inj hl'
    · rcases hq' p hp with h | h
      · rw [h] at hl; cases hl
      · rw [h] at hl; exact absurd (Option.some.inj hl).symm hne
  · rcases h' with ⟨p', hp', hl', hne', hq'⟩ | ⟨rfl, hq'⟩
    · rcases hq p' hp' with h | h
      · rw [h] at hl'; cases hl'
      · rw [h] at hl'; exact absurd (Option.some.inj hl').symm hne'
    · rfl

/-! ### Filters -/

theorem passes_iff (rank size : Nat) (fs : List Filter) (h : ∀ f ∈ fs, f.addInfo = true ∧ f.rank = rank ∧ f.size = size) (r : Record) :
    passes fs r = true ↔ ∀ f ∈ fs, Reaches rank r (f.level0, f.levelAll) := by
  induction fs generalizing r with
  | nil => simp [passes]
  | cons f fs ih =>
    obtain ⟨h1, h2, h3⟩ := h f (by simp)
    have ih := ih (fun g hg => h g (by simp [hg]))
    have hr : ∀ f', Reaches rank (f.filter r).1 f' ↔ Reaches rank r f' := by
      intro f'
      unfold Reaches rankOf Filter.filter
      cases hk : r.rank <;> simp [hk, h1, h2]
    have hf : (f.filter r).2 = true ↔ Reaches rank r (f.level0, f.levelAll) := by
      unfold Reaches rankOf Filter.filter
      cases hk : r.rank with
      | none =>
        simp only [Option.isNone_none, h1, Bool.and_self, if_true, h2, Option.getD_none]
        by_cases hz : rank = 0 <;> simp [hz]
      | some k =>
        simp only [hk, Option.isNone_some, Bool.false_and, Option.getD_some]
        by_cases hz : k = 0 <;> simp [hz, hk]
    simp only [passes, List.forall_mem_cons]
    by_cases hc : (f.filter r).2 = true
    · rw [if_pos hc, ih]
      simp only [hr]
      exact ⟨fun h => ⟨hf.1 hc, h⟩, fun h => h.2⟩
    · rw [if_neg hc]
      simp only [Bool.false_eq_true, false_iff]
      exact fun h => hc (hf.2 h.1)

end Verif.Log
