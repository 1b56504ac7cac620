import Verif.Runner.ScriptProps

/-!
# C86: the options of `run`
-/
namespace Verif.Runner

/-! ### The options of `run` -/

theorem token_cases (a : Text) (h : a ≠ "--profiler".toList) :
    (token a = .profile ∧ a = "--profile".toList) ∨ (token a = .psutil ∧ a = "--psutil".toList) ∨ (token a = .abort ∧ a = "--mpi-abort".toList) ∨
      (token a = .noAbort ∧ a = "--no-mpi-abort".toList) ∨
      ((∃ v, token a = .profilerIs v ∧ a = "--profiler=".toList ++ v) ∨ token a = .unknown ∨ token a = .arg) ∧ a ≠ "--profile".toList ∧ a ≠ "--psutil".toList ∧ a ≠ "--mpi-abort".toList ∧
        a ≠ "--no-mpi-abort".toList := by
  unfold token
  split
  · exact .inl ⟨rfl, ‹_›⟩
  split
  · exact .inr (.inl ⟨rfl, ‹_›⟩)
  split
  · exact .inr (.inr (.inl ⟨rfl, ‹_›⟩))
  split
  · exact .inr (.inr (.inr (.inl ⟨rfl, ‹_›⟩)))
  refine .inr (.inr (.inr (.inr ⟨?_, ‹_›, ‹_›, ‹_›, ‹_›⟩)))
  split
  · next v hv =>
    refine .inl ⟨v, rfl, ?_⟩
    unfold valueOf at hv
    split at hv
    · next hpre =>
      obtain ⟨t, ht⟩ := List.isPrefixOf_iff_prefix.1 hpre
      rw [← ht, List.drop_left] at hv
      rw [← ht, Option.some.inj hv]
    · cases hv
  · split
    · exact .inr (.inl rfl)
    · exact .inr (.inr rfl)

/-- Whether the last of the two options that occurs says to abort; `b` if neither occurs. -/
def lastAbort (b : Bool) : List Text → Bool
  | [] => b
  | a :: rest => lastAbort (if a = "--mpi-abort".toList then true else if a = "--no-mpi-abort".toList then false else b) rest

theorem parse_options (args : List Text) (hn : "--profiler".toList ∉ args) (o : RunOpts) (pos : List Text) (r : RunOpts × List Text) (h : parseArgs o pos args = .ok r) :
    r.1.mpiAbort = lastAbort o.mpiAbort args ∧ (r.1.profile = true ↔ o.profile = true ∨ "--profile".toList ∈ args) ∧ (r.1.psutil = true ↔ o.psutil = true ∨ "--psutil".toList ∈ args) := by
  have d1 : "--profile".toList ≠ "--mpi-abort".toList := by decide +kernel
  have d2 : "--profile".toList ≠ "--no-mpi-abort".toList := by decide +kernel
  have d3 : "--psutil".toList ≠ "--mpi-abort".toList := by decide +kernel
  have d4 : "--psutil".toList ≠ "--no-mpi-abort".toList := by decide +kernel
  have d5 : "--profile".toList ≠ "--psutil".toList := by decide +kernel
  have d6 : "--no-mpi-abort".toList ≠ "--mpi-abort".toList := by decide +kernel
  induction args generalizing o pos with
  | nil =>
    rw [parseArgs] at h
    cases h
    simp [lastAbort]
  | cons a rest ih =>
    have hn' := fun h' => hn (List.mem_cons_of_mem _ h')
    have ha : a ≠ "--profiler".toList := fun e => hn (e ▸ List.mem_cons_self)
    rw [parseArgs.eq_def] at h
    simp only at h
    rcases token_cases a ha with ⟨e, ea⟩ | ⟨e, ea⟩ | ⟨e, ea⟩ | ⟨e, ea⟩ | ⟨⟨v, e, ev⟩ | e | e, n1, n2, n3, n4⟩
    · rw [e] at h
      obtain ⟨h1, h2, h3⟩ := ih hn' _ _ h
      refine ⟨?_, ?_, ?_⟩
      · rw [lastAbort, ea, if_neg d1, if_neg d2]; exact h1
      · rw [h2, ea]; simp only [List.mem_cons, true_or, or_true]
      · rw [h3, ea, List.mem_cons]; simp only [d5.symm, false_or]
    · rw [e] at h
      obtain ⟨h1, h2, h3⟩ := ih hn' _ _ h
      refine ⟨?_, ?_, ?_⟩
      · rw [lastAbort, ea, if_neg d3, if_neg d4]; exact h1
      · rw [h2, ea, List.mem_cons]; simp only [d5, false_or]
      · rw [h3, ea]; simp only [List.mem_cons, true_or, or_true]
    · rw [e] at h
      obtain ⟨h1, h2, h3⟩ := ih hn' _ _ h
      refine ⟨?_, ?_, ?_⟩
      · rw [lastAbort, ea, if_pos rfl]; exact h1
      · rw [h2, ea, List.mem_cons]; simp only [d1, false_or]
      · rw [h3, ea, List.mem_cons]; simp only [d3, false_or]
    · rw [e] at h
      obtain ⟨h1, h2, h3⟩ := ih hn' _ _ h
      refine ⟨?_, ?_, ?_⟩
      · rw [lastAbort, ea, if_neg d6, if_pos rfl]; exact h1
      · rw [h2, ea, List.mem_cons]; simp only [d2, false_or]
      · rw [h3, ea, List.mem_cons]; simp only [d4, false_or]
    · rw [e] at h
      simp only at h
      cases hc : choose v with
      | none => rw [hc] at h; cases h
      | some c =>
        rw [hc] at h
        obtain ⟨h1, h2, h3⟩ := ih hn' _ _ h
        refine ⟨?_, ?_, ?_⟩
        · rw [lastAbort, if_neg n3, if_neg n4]; exact h1
        · rw [h2, List.mem_cons]; simp only [n1.symm, false_or]
        · rw [h3, List.mem_cons]; simp only [n2.symm, false_or]
    · rw [e] at h
      cases h
    · rw [e] at h
      obtain ⟨h1, h2, h3⟩ := ih hn' _ _ h
      refine ⟨?_, ?_, ?_⟩
      · rw [lastAbort, if_neg n3, if_neg n4]; exact h1
      · rw [h2, List.mem_cons]; simp only [n1.symm, false_or]
      · rw [h3, List.mem_cons]; simp only [n2.symm, false_or]

/-- **C86** What `run` does with its options, if the profiler is given with `=`: it profiles exactly if `--profile` occurs, uses `psutil` exactly if `--psutil` occurs, and aborts unless the last of `--mpi-abort` and
`--no-mpi-abort` is the latter. -/
theorem C86_options (args : List Text) (hn : "--profiler".toList ∉ args) (r : RunOpts) (h : parseRun args = .ok r) :
    (r.profile = true ↔ "--profile".toList ∈ args) ∧ (r.psutil = true ↔ "--psutil".toList ∈ args) ∧ r.mpiAbort = lastAbort true args := by
  unfold parseRun at h
  split at h
  · cases h
  · next o c hp =>
    cases h
    obtain ⟨h1, h2, h3⟩ := parse_options args hn _ _ _ hp
    exact ⟨by simpa using h2, by simpa using h3, h1⟩
  · cases h

example : ∃ r, parseRun ["--psutil".toList, "--no-mpi-abort".toList, "c.yaml".toList] = .ok r ∧ r.mpiAbort = false ∧ r.psutil = true ∧ r.profile = false :=
  ⟨⟨"c.yaml".toList, false, "cprofile".toList, false, true⟩, by decide +kernel, rfl, rfl, rfl⟩

theorem parse_unknown (args : List Text) (hn : "--profiler".toList ∉ args) (a : Text) (ha : a ∈ args) (hu : token a = .unknown) (o : RunOpts) (pos : List Text) : parseArgs o pos args = .error .usage := by
  induction args generalizing o pos with
  | nil => cases ha
  | cons b rest ih =>
    have hn' := fun h' => hn (List.mem_cons_of_mem _ h')
    have hb : b ≠ "--profiler".toList := fun e => hn (e ▸ List.mem_cons_self)
    rw [parseArgs.eq_def]
    simp only
    rcases List.mem_cons.1 ha with rfl | ha
    · rw [hu]
    · rcases token_cases b hb with ⟨e, _⟩ | ⟨e, _⟩ | ⟨e, _⟩ | ⟨e, _⟩ | ⟨⟨v, e, _⟩ | e | e, _⟩
      · rw [e]; exact ih hn' ha _ _
      · rw [e]; exact ih hn' ha _ _
      · rw [e]; exact ih hn' ha _ _
      · rw [e]; exact ih hn' ha _ _
      · rw [e]
        simp only
        cases choose v with
        | none => rfl
        | some c => exact ih hn' ha _ _
      · rw [e]
      · rw [e]; exact ih hn' ha _ _

/-- **C86** An option that `run` does not have, wherever it occurs, is an error. -/
theorem C86_unknown (args : List Text) (hn : "--profiler".toList ∉ args) (a : Text) (ha : '-' :: a ∈ args) (h0 : a ≠ [])
    (hk : '-' :: a ∉ ["--profile".toList, "--psutil".toList, "--mpi-abort".toList, "--no-mpi-abort".toList]) (hv : ¬ "--profiler=".toList <+: '-' :: a) : parseRun args = .error .usage := by
  have hu : token ('-' :: a) = .unknown := by
    simp only [List.mem_cons, List.not_mem_nil, or_false, not_or] at hk
    have h5 : '-' :: a ≠ "--profiler".toList := fun e => hn (e ▸ ha)
    unfold token
    rw [if_neg hk.1, if_neg hk.2.1, if_neg hk.2.2.1, if_neg hk.2.2.2, if_neg h5]
    have : valueOf "--profiler=".toList ('-' :: a) = none := by
      unfold valueOf
      rw [if_neg (by rwa [List.isPrefixOf_iff_prefix])]
    rw [this]
    simp [h0]
  unfold parseRun
  rw [parse_unknown args hn _ ha hu]

example : parseRun ["c.yaml".toList, "--profil".toList] = .error .usage :=
  C86_unknown _ (by decide +kernel) "-profil".toList (by decide +kernel) (by decide +kernel) (by decide +kernel) (by decide +kernel)


end Verif.Runner
