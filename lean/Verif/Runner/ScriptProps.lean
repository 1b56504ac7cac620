import Verif.Runner.Words
import Mathlib.Tactic.Common

/-!
# C86: job scripts
-/
namespace Verif.Runner

/-! ### Modules -/

/-- The names that a value gives. -/
def named : Option Names → List Text
  | none => []
  | some (.str s) => if s = [] then [] else [s]
  | some (.list l) => l

theorem tuple_named (n : Option Names) : Names.tuple n = named n := by
  rcases n with _ | ⟨_ | ⟨c, s⟩⟩ | l <;> simp [Names.tuple, named]

/-- **C86** (partial) If modules are asked for, the commands of the script are: remove all modules, use the paths, load the modules, each in the order given. If neither modules nor paths are given there are none.

Missing: see `C86_purge_violated`. -/
theorem C86_modules_partial (modlist modpath : Option Names) (hm : ∀ x ∈ named modlist, '\n' ∉ x) (hp : ∀ x ∈ named modpath, '\n' ∉ x) :
    (named modlist ≠ [] → commands (moduleText modlist modpath) =
      "module --force purge".toList :: (named modpath).map ("module use ".toList ++ ·) ++ (named modlist).map ("module load ".toList ++ ·)) ∧
    (named modlist = [] → named modpath = [] → commands (moduleText modlist modpath) = []) := by
  have purge : ∀ t, commands ("module --force purge\n".toList ++ t) = "module --force purge".toList :: commands t := by
    intro t
    rw [show "module --force purge\n".toList ++ t = "module --force purge".toList ++ '\n' :: t by rfl, commands_append, commands_line _ (by decide +kernel) (by decide +kernel)]
    rfl
  have use := commands_join "module use ".toList (by decide +kernel) (by decide +kernel) (named modpath)
  have load := commands_join "module load ".toList (by decide +kernel) (by decide +kernel) (named modlist)
  simp only [moduleText, tuple_named]
  constructor
  · intro h
    rw [if_pos h]
    have hne : ∀ t : Text, t ++ "\nmodule load ".toList ++ joinText "\nmodule load ".toList (named modlist) ≠ [] := by
      intro t
      simp
    rw [if_pos (hne _), purge]
    have e : ∀ t : Text, t ++ "\nmodule load ".toList ++ joinText "\nmodule load ".toList (named modlist) =
        t ++ '\n' :: ("module load ".toList ++ joinText ('\n' :: "module load ".toList) (named modlist)) := by
      intro t
      rw [List.append_assoc]
      rfl
    rw [e, commands_append, load h hm]
    by_cases h2 : named modpath = []
    · simp [h2, commands, textLines]
    · rw [if_pos h2]
      have := use h2 hp
      rw [show "\nmodule use ".toList = '\n' :: "module use ".toList by rfl, this]
      rfl
  · intro h1 h2
    simp [h1, h2, commands, textLines]

example : commands (moduleText (some (.list ["python".toList, "hdf5".toList])) (some (.str "/mods".toList))) =
    ["module --force purge".toList, "module use /mods".toList, "module load python".toList, "module load hdf5".toList] :=
  (C86_modules_partial (some (.list ["python".toList, "hdf5".toList])) (some (.str "/mods".toList)) (by decide +kernel) (by decide +kernel)).1 (by decide +kernel)

/-- **C86** (violated) The environment is to be the current one if no modules are asked for; but with a path for modules all modules are removed. -/
theorem C86_purge_violated (p : Text) (h0 : p ≠ []) (hp : '\n' ∉ p) : commands (moduleText none (some (.str p))) = ["module --force purge".toList, "module use ".toList ++ p] := by
  have hn : named (some (.str p)) = [p] := by simp [named, h0]
  have e : moduleText none (some (.str p)) = "module --force purge\n".toList ++ ("module use ".toList ++ p) := by
    unfold moduleText
    rw [tuple_named, tuple_named, hn]
    have h1 : [p] ≠ [] := List.cons_ne_nil _ _
    have h2 : ¬ (named none ≠ []) := fun h => h rfl
    have h3 : "module use ".toList ++ p ≠ [] := List.append_ne_nil_of_right_ne_nil _ h0
    generalize "module use ".toList = u at h3 ⊢
    generalize "module --force purge\n".toList = v
    generalize "\nmodule use ".toList = w
    generalize "\nmodule load ".toList = z
    simp only [if_pos h1, if_neg h2, joinText, if_pos h3]
  rw [e, show "module --force purge\n".toList ++ ("module use ".toList ++ p) = "module --force purge".toList ++ '\n' :: ("module use ".toList ++ p) by rfl, commands_append,
    commands_line _ (by decide +kernel) (by decide +kernel), commands_line _ (by simp) (by simp [hp])]
  rfl

example : commands (moduleText none (some (.str "/mods".toList))) = ["module --force purge".toList, "module use /mods".toList] := C86_purge_violated _ (by decide +kernel) (by decide +kernel)

/-- **C86** A virtual environment that is not there is a `ValueError`; otherwise its script is sourced, and nothing if none is given. -/
theorem C86_venv (expand : Text → Text) (found : Text → Bool) (v : Text) :
    (found (expand (v ++ "/bin/activate".toList)) = false → venvText expand found (some v) = .error .valueError) ∧
    (found (expand (v ++ "/bin/activate".toList)) = true → venvText expand found (some v) = .ok (expand (v ++ "/bin/activate".toList))) ∧
    venvText expand found none = .ok "/dev/null".toList := by
  refine ⟨fun h => ?_, fun h => ?_, rfl⟩
  · rw [venvText, h]
    rfl
  · rw [venvText, h]
    rfl

example : venvText id (fun t => t = "/env/bin/activate".toList) (some "/env".toList) = .ok "/env/bin/activate".toList := by decide +kernel

/-! ### The command -/

theorem token_profile : token "--profile".toList = .profile := by
  unfold token
  rw [if_pos rfl]

theorem token_psutil : token "--psutil".toList = .psutil := by
  unfold token
  rw [if_neg (by decide +kernel), if_pos rfl]

theorem token_profiler (v : Text) : token ("--profiler=".toList ++ v) = .profilerIs v := by
  have hv : valueOf "--profiler=".toList ("--profiler=".toList ++ v) = some v := by
    unfold valueOf
    rw [if_pos (List.isPrefixOf_iff_prefix.2 (List.prefix_append _ _)), List.drop_left]
  have hne : ∀ t : Text, t.length < 11 ∨ t[10]? ≠ some '=' → "--profiler=".toList ++ v ≠ t := by
    rintro t ht rfl
    rcases ht with ht | ht
    · simp at ht
      omega
    · exact ht rfl
  unfold token
  rw [if_neg (hne _ (by decide +kernel)), if_neg (hne _ (by decide +kernel)), if_neg (hne _ (by decide +kernel)), if_neg (hne _ (by decide +kernel)), if_neg (hne _ (by decide +kernel)), hv]

theorem token_arg (c : Char) (r : Text) (hc : c ≠ '-') : token (c :: r) = .arg := by
  have hv : valueOf "--profiler=".toList (c :: r) = none := by
    unfold valueOf
    rw [if_neg]
    rw [List.isPrefixOf_iff_prefix]
    rintro ⟨t, ht⟩
    exact hc (List.cons.inj ht).1.symm
  have hne : ∀ t : Text, t.head? = some '-' → c :: r ≠ t := by
    rintro t ht rfl
    exact hc (Option.some.inj ht)
  unfold token
  rw [if_neg (hne _ rfl), if_neg (hne _ rfl), if_neg (hne _ rfl), if_neg (hne _ rfl), if_neg (hne _ rfl), hv]
  simp [hc]

theorem parse_flag_profile (o : RunOpts) (pos rest : List Text) : parseArgs o pos ("--profile".toList :: rest) = parseArgs { o with profile := true } pos rest := by
  rw [parseArgs.eq_def]
  simp only [token_profile]

theorem parse_flag_psutil (o : RunOpts) (pos rest : List Text) : parseArgs o pos ("--psutil".toList :: rest) = parseArgs { o with psutil := true } pos rest := by
  rw [parseArgs.eq_def]
  simp only [token_psutil]

theorem parse_profiler (o : RunOpts) (pos rest : List Text) (v : Text) :
    parseArgs o pos (("--profiler=".toList ++ v) :: rest) =
      match choose v with
      | none => .error .usage
      | some c => parseArgs { o with profiler := c } pos rest := by
  rw [parseArgs.eq_def]
  simp only [token_profiler]
  rfl

theorem parse_argument (o : RunOpts) (pos rest : List Text) (c : Char) (r : Text) (hc : c ≠ '-') : parseArgs o pos ((c :: r) :: rest) = parseArgs o (pos ++ [c :: r]) rest := by
  rw [parseArgs.eq_def]
  simp only [token_arg c r hc]

theorem word_append (p v : Text) (h0 : p ≠ []) (hp : ∀ c ∈ p, c ≠ ' ' ∧ c ≠ '\t' ∧ c ≠ '\n') (hv : Word v) : Word (p ++ v) := by
  refine ⟨by simp [h0], fun c hc => ?_⟩
  rcases List.mem_append.1 hc with hc | hc
  · exact hp c hc
  · exact hv.2 c hc

theorem toLower_blank (c : Char) (h : c = ' ' ∨ c = '\t' ∨ c = '\n') : c.toLower = c := by
  rcases h with rfl | rfl | rfl <;> decide

theorem word_of_lower (p q : Text) (h : p.map Char.toLower = q) (hq : Word q) : Word p := by
  subst h
  refine ⟨fun h => hq.1 (by rw [h]; rfl), fun c hc => ?_⟩
  have := hq.2 c.toLower (List.mem_map_of_mem hc)
  refine ⟨fun h => ?_, fun h => ?_, fun h => ?_⟩
  · exact this.1 (by rw [toLower_blank c (.inl h), h])
  · exact this.2.1 (by rw [toLower_blank c (.inr (.inl h)), h])
  · exact this.2.2 (by rw [toLower_blank c (.inr (.inr h)), h])

theorem choose_some (v : Text) (h : v.map Char.toLower = "cprofile".toList ∨ v.map Char.toLower = "pyinstrument".toList) :
    ∃ c, choose v = some c ∧ c.map Char.toLower = v.map Char.toLower := by
  unfold choose
  rcases h with h | h <;> rw [h]
  · exact ⟨"cProfile".toList, by decide +kernel, by decide +kernel⟩
  · exact ⟨"pyinstrument".toList, by decide +kernel, by decide +kernel⟩

theorem choose_none (v : Text) (h1 : v.map Char.toLower ≠ "cprofile".toList) (h2 : v.map Char.toLower ≠ "pyinstrument".toList) : choose v = none := by
  unfold choose
  rw [List.find?_eq_none]
  intro c hc
  simp only [List.mem_cons, List.not_mem_nil, or_false] at hc
  rcases hc with rfl | rfl
  · simpa using fun h : _ = _ => h1 (h.symm.trans (by decide +kernel))
  · simpa using fun h : _ = _ => h2 (h.symm.trans (by decide +kernel))

/-- The words of the `slurm` command. -/
theorem slurm_words (invoke args : Text) (a : Asked) (config log : Text) (hi : Word invoke) (hl : Word log) (hp : a.profile = true → Word a.profiler) :
    words (slurmLine invoke args a config log) = invoke :: words args ++ ["caput-pipeline".toList, "run".toList] ++
      ((if a.profile then ["--profile".toList, "--profiler=".toList ++ a.profiler] else []) ++ (if a.psutil then ["--psutil".toList] else []) ++ words config) ++ ["&>".toList, log] := by
  have hc : words "caput-pipeline run".toList = ["caput-pipeline".toList, "run".toList] := by decide +kernel
  have hr : words "&>".toList = ["&>".toList] := by decide +kernel
  have e1 : words (profileOpt a) ++ words (profilerOpt a) = if a.profile then ["--profile".toList, "--profiler=".toList ++ a.profiler] else [] := by
    unfold profileOpt profilerOpt
    cases h : a.profile with
    | false => rfl
    | true =>
      rw [if_pos rfl, if_pos rfl, if_pos rfl, show words "--profile".toList = ["--profile".toList] by decide +kernel, words_word]
      · rfl
      · exact word_append _ _ (by decide +kernel) (by decide +kernel) (hp h)
  have e2 : words (psutilOpt a) = if a.psutil then ["--psutil".toList] else [] := by
    unfold psutilOpt
    cases a.psutil <;> decide
  unfold slurmLine
  rw [words_append, words_append, words_append, words_append, words_append, words_append, words_append, words_append, words_word _ hi, words_word _ hl, hc, hr, ← e1, e2]
  simp only [List.append_assoc, List.cons_append, List.nil_append]

theorem parse_opts (a : Asked) (rest : List Text) (hp : a.profile = true → ∃ c, choose a.profiler = some c ∧ c.map Char.toLower = a.profiler.map Char.toLower) :
    ∃ p, p.map Char.toLower = (if a.profile then a.profiler.map Char.toLower else "cprofile".toList) ∧
      parseArgs ⟨[], false, "cProfile".toList, true, false⟩ [] ((if a.profile then ["--profile".toList, "--profiler=".toList ++ a.profiler] else []) ++ (if a.psutil then ["--psutil".toList] else []) ++ rest) =
        parseArgs ⟨[], a.profile, p, true, a.psutil⟩ [] rest := by
  cases h : a.profile with
  | false =>
    refine ⟨"cProfile".toList, show "cProfile".toList.map Char.toLower = "cprofile".toList by decide +kernel, ?_⟩
    cases a.psutil with
    | false => rfl
    | true => exact parse_flag_psutil _ _ _
  | true =>
    obtain ⟨c, hc, hl⟩ := hp h
    refine ⟨c, hl, ?_⟩
    simp only [if_true, List.cons_append, List.nil_append]
    rw [parse_flag_profile, parse_profiler, hc]
    cases a.psutil with
    | false => rfl
    | true => exact parse_flag_psutil _ _ _

/-- **C86** (partial) If the path of the job has no blank, the words of the `slurm` script's command are that which starts processes, its arguments, `caput-pipeline run` and the words after it; and from these `run` reads
the configuration of the job, whether to profile, the profiler, and whether to use `psutil`, as they were asked for.

Missing: see `C86_blank_violated`, `C86_default_violated`, `C86_pbs_violated`. -/
theorem C86_run_partial (invoke args : Text) (a : Asked) (config log : Text) (hi : Word invoke) (hc : Word ('/' :: config)) (hl : Word log)
    (hp : a.profile = true → a.profiler.map Char.toLower = "cprofile".toList ∨ a.profiler.map Char.toLower = "pyinstrument".toList) :
    ∃ opts, words (slurmLine invoke args a ('/' :: config) log) = invoke :: words args ++ ["caput-pipeline".toList, "run".toList] ++ opts ++ ["&>".toList, log] ∧
      parseRun opts = .ok ⟨'/' :: config, a.profile, if a.profile then a.profiler.map Char.toLower else "cprofile".toList, true, a.psutil⟩ := by
  have hw : a.profile = true → Word a.profiler := by
    intro h
    rcases hp h with h | h
    · exact word_of_lower _ _ h ⟨by decide +kernel, by decide +kernel⟩
    · exact word_of_lower _ _ h ⟨by decide +kernel, by decide +kernel⟩
  refine ⟨_, slurm_words invoke args a _ log hi hl hw, ?_⟩
  rw [words_word _ hc]
  obtain ⟨p, h1, h2⟩ := parse_opts a [('/' :: config)] fun h => choose_some _ (hp h)
  unfold parseRun
  rw [h2, parse_argument _ _ _ _ _ (by decide +kernel), parseArgs]
  simp only [List.nil_append]
  rw [h1]

example : ∃ opts, words (slurmLine "srun".toList [] ⟨true, "cProfile".toList, true⟩ "/work/job/config.yaml".toList "/work/job/jobout.log".toList) =
    "srun".toList :: words [] ++ ["caput-pipeline".toList, "run".toList] ++ opts ++ ["&>".toList, "/work/job/jobout.log".toList] ∧
    parseRun opts = .ok ⟨"/work/job/config.yaml".toList, true, "cprofile".toList, true, true⟩ :=
  C86_run_partial "srun".toList [] ⟨true, "cProfile".toList, true⟩ "work/job/config.yaml".toList "/work/job/jobout.log".toList ⟨by decide +kernel, by decide +kernel⟩ ⟨by decide +kernel, by decide +kernel⟩ ⟨by decide +kernel, by decide +kernel⟩ (by decide +kernel)

/-- **C86** (violated) If there is a blank in the directory of the job, `run` is given two files, which it does not take. -/
theorem C86_blank_violated (invoke args : Text) (a : Asked) (x y log : Text) (hi : Word invoke) (hl : Word log) (hx : Word ('/' :: x)) (hy : Word y) (hd : y.head? ≠ some '-')
    (hp : a.profile = true → a.profiler.map Char.toLower = "cprofile".toList ∨ a.profiler.map Char.toLower = "pyinstrument".toList) :
    ∃ opts, words (slurmLine invoke args a ('/' :: x ++ ' ' :: y) log) = invoke :: words args ++ ["caput-pipeline".toList, "run".toList] ++ opts ++ ["&>".toList, log] ∧
      parseRun opts = .error .usage := by
  have hw : a.profile = true → Word a.profiler := by
    intro h
    rcases hp h with h | h
    · exact word_of_lower _ _ h ⟨by decide +kernel, by decide +kernel⟩
    · exact word_of_lower _ _ h ⟨by decide +kernel, by decide +kernel⟩
  refine ⟨_, slurm_words invoke args a _ log hi hl hw, ?_⟩
  rw [words_append, words_word _ hx, words_word _ hy]
  obtain ⟨c, r, rfl⟩ := List.exists_cons_of_ne_nil hy.1
  obtain ⟨p, h1, h2⟩ := parse_opts a ([('/' :: x)] ++ [c :: r]) fun h => choose_some _ (hp h)
  unfold parseRun
  rw [h2, List.cons_append, List.nil_append, parse_argument _ _ _ _ _ (by decide +kernel), parse_argument _ _ _ _ _ (fun h => hd (by rw [h]; rfl)), parseArgs]
  rfl

example : ∃ opts, words (slurmLine "srun".toList [] ⟨false, [], false⟩ "/my work/job/config.yaml".toList "log".toList) =
    "srun".toList :: words [] ++ ["caput-pipeline".toList, "run".toList] ++ opts ++ ["&>".toList, "log".toList] ∧ parseRun opts = .error .usage :=
  C86_blank_violated "srun".toList [] ⟨false, [], false⟩ "my".toList "work/job/config.yaml".toList "log".toList ⟨by decide +kernel, by decide +kernel⟩ ⟨by decide +kernel, by decide +kernel⟩ ⟨by decide +kernel, by decide +kernel⟩ ⟨by decide +kernel, by decide +kernel⟩
    (by decide +kernel) (by decide +kernel)

/-- **C86** (violated) If a profile is asked for, and the profiler is left at its default, `run` does not take the option. -/
theorem C86_default_violated (invoke args : Text) (psutil : Bool) (config log : Text) (hi : Word invoke) (hl : Word log) :
    ∃ opts, words (slurmLine invoke args ⟨true, defaultProfiler, psutil⟩ config log) = invoke :: words args ++ ["caput-pipeline".toList, "run".toList] ++ opts ++ ["&>".toList, log] ∧
      parseRun opts = .error .usage := by
  refine ⟨_, slurm_words invoke args ⟨true, defaultProfiler, psutil⟩ config log hi hl fun _ => show Word defaultProfiler from ⟨by decide +kernel, by decide +kernel⟩, ?_⟩
  unfold parseRun
  simp only [if_true, List.cons_append, List.nil_append]
  rw [parse_flag_profile, parse_profiler, choose_none _ (by decide +kernel) (by decide +kernel)]

example : ∃ opts, words (slurmLine "srun".toList [] ⟨true, defaultProfiler, false⟩ "/work/job/config.yaml".toList "log".toList) =
    "srun".toList :: words [] ++ ["caput-pipeline".toList, "run".toList] ++ opts ++ ["&>".toList, "log".toList] ∧ parseRun opts = .error .usage :=
  C86_default_violated _ _ _ _ _ ⟨by decide +kernel, by decide +kernel⟩ ⟨by decide +kernel, by decide +kernel⟩

/-- **C86** (violated) With the `pbs` script the pipeline is run without a profiler, whatever was asked for. -/
theorem C86_pbs_violated (invoke args : Text) (a : Asked) (config log : Text) (hi : Word invoke) (hc : Word ('/' :: config)) (hl : Word log) :
    ∃ opts, words (pbsLine invoke args a ('/' :: config) log) = invoke :: words args ++ ["caput-pipeline".toList, "run".toList] ++ opts ++ ["&>".toList, log] ∧
      parseRun opts = .ok ⟨'/' :: config, false, "cprofile".toList, true, false⟩ := by
  refine ⟨['/' :: config], ?_, ?_⟩
  · unfold pbsLine
    rw [words_append, words_append, words_append, words_append, words_append, words_word _ hi, words_word _ hl, words_word _ hc,
      show words "caput-pipeline run".toList = ["caput-pipeline".toList, "run".toList] by decide +kernel, show words "&>".toList = ["&>".toList] by decide +kernel]
    simp only [List.append_assoc, List.cons_append, List.nil_append]
  · unfold parseRun
    rw [parse_argument _ _ _ _ _ (by decide +kernel), parseArgs]
    simp only [List.nil_append, show "cProfile".toList.map Char.toLower = "cprofile".toList by decide +kernel]

example : ∃ opts, words (pbsLine "mpirun".toList [] ⟨true, "cProfile".toList, true⟩ "/work/job/config.yaml".toList "log".toList) =
    "mpirun".toList :: words [] ++ ["caput-pipeline".toList, "run".toList] ++ opts ++ ["&>".toList, "log".toList] ∧
    parseRun opts = .ok ⟨"/work/job/config.yaml".toList, false, "cprofile".toList, true, false⟩ :=
  C86_pbs_violated _ _ _ "work/job/config.yaml".toList _ ⟨by decide +kernel, by decide +kernel⟩ ⟨by decide +kernel, by decide +kernel⟩ ⟨by decide +kernel, by decide +kernel⟩

/-- **C86** `run` takes its options in any case of letters for the profiler, and refuses a profiler that it does not know, an option that it does not know, and more than one file, or none. -/
theorem C86_reads (v : Text) (rest : List Text) :
    (v.map Char.toLower ≠ "cprofile".toList → v.map Char.toLower ≠ "pyinstrument".toList → parseRun (("--profiler=".toList ++ v) :: rest) = .error .usage) ∧
      parseRun [] = .error .usage := by
  constructor
  · intro h1 h2
    unfold parseRun
    rw [parse_profiler, choose_none _ h1 h2]
  · rfl

example : parseRun ["--profiler=gprof".toList, "/c.yaml".toList] = .error .usage := (C86_reads "gprof".toList _).1 (by decide +kernel) (by decide +kernel)

/-! ### The script -/

/-- The other commands of a script. -/
def plain (cs : List Cmd) : List Text :=
  cs.filterMap fun c => match c with
    | .cmd t => some t
    | .status _ => none

theorem shell_ok (ok : Text → Bool) (cs : List Cmd) (s : Option Status) (h : ∀ t ∈ plain cs, ok t = true) (a b : List Cmd) (st : Status) (hcs : cs = a ++ .status st :: b) (hb : ∀ x, .status x ∉ b) :
    shell ok cs s = (plain cs, some st) := by
  have tail : ∀ (b : List Cmd) (s : Option Status), (∀ x, .status x ∉ b) → (∀ t ∈ plain b, ok t = true) → shell ok b s = (plain b, s) := by
    intro b
    induction b with
    | nil => exact fun _ _ _ => rfl
    | cons c b ih =>
      intro s hb ho
      cases c with
      | status x => exact absurd List.mem_cons_self (hb x)
      | cmd t =>
        have ht : ok t = true := ho t (by simp [plain])
        rw [shell, if_pos ht, ih s (fun x hx => hb x (List.mem_cons_of_mem _ hx)) fun t' ht' => ho t' (by simp only [plain, List.filterMap_cons]; exact List.mem_cons_of_mem _ ht')]
        rfl
  subst hcs
  induction a generalizing s with
  | nil =>
    rw [List.nil_append, shell, tail b _ hb fun t ht => h t (by simpa [plain] using ht)]
    simp [plain]
  | cons c a ih =>
    cases c with
    | status x =>
      rw [List.cons_append, shell, ih _ fun t ht => h t (by simpa [plain] using ht)]
      simp [plain]
    | cmd t =>
      have ht : ok t = true := h t (by simp [plain])
      rw [List.cons_append, shell, if_pos ht, ih _ fun t ht => h t (by simp only [plain, List.cons_append, List.filterMap_cons]; exact List.mem_cons_of_mem _ ht)]
      simp [plain]

theorem shell_fail (ok : Text → Bool) (cs : List Cmd) (s : Option Status) (a : List Text) (t : Text) (b : List Text) (hcs : plain cs = a ++ t :: b) (ha : ∀ x ∈ a, ok x = true) (ht : ok t = false) :
    shell ok cs s = (a ++ [t], some .crashed) := by
  induction cs generalizing s a with
  | nil => simp [plain] at hcs
  | cons c cs ih =>
    cases c with
    | status x =>
      rw [shell]
      exact ih _ a (by simpa [plain] using hcs) ha
    | cmd u =>
      have hcs : u :: plain cs = a ++ t :: b := by simpa [plain] using hcs
      cases a with
      | nil =>
        obtain ⟨rfl, _⟩ := List.cons.inj hcs
        rw [shell, if_neg (by simp [ht])]
        rfl
      | cons v a =>
        obtain ⟨rfl, h⟩ := List.cons.inj hcs
        rw [shell, if_pos (ha u List.mem_cons_self), ih s a h fun x hx => ha x (List.mem_cons_of_mem _ hx)]
        rfl

/-- **C86** The `slurm` script runs: the commands for modules, the script of the virtual environment, the change of directory, the pipeline; and then, with a temporary directory, those that move the results. If
all of them succeed the status is `FINISHED`. The first that fails is the last that is run, and the status is then `CRASHED`. -/
theorem C86_status (ok : Text → Bool) (modules venv workdir line finaldir : Text) (temp : Bool) (s : Option Status) :
    let all := commands modules ++ ["source ".toList ++ venv, "cd ".toList ++ workdir, line] ++
      if temp then ["mkdir -p $(dirname ".toList ++ finaldir ++ ")".toList, "mv ".toList ++ workdir ++ ' ' :: finaldir] else []
    ((∀ t ∈ all, ok t = true) → shell ok (slurmCmds modules venv workdir line finaldir temp) s = (all, some .finished)) ∧
      ∀ a t b, all = a ++ t :: b → (∀ x ∈ a, ok x = true) → ok t = false → shell ok (slurmCmds modules venv workdir line finaldir temp) s = (a ++ [t], some .crashed) := by
  intro all
  have hall : plain (slurmCmds modules venv workdir line finaldir temp) = all := by
    have hm : ∀ l : List Text, plain (l.map .cmd) = l := by
      intro l
      simp [plain, List.filterMap_map]
      induction l with
      | nil => rfl
      | cons x l ih => simp [ih]
    have happ : ∀ x y, plain (x ++ y) = plain x ++ plain y := fun x y => List.filterMap_append
    unfold slurmCmds
    rw [happ, happ, happ, hm]
    cases temp <;> simp [plain, all]
  constructor
  · intro h
    rw [← hall] at h ⊢
    refine shell_ok ok _ s h ([.status .running] ++ (commands modules).map .cmd ++ [.cmd ("source ".toList ++ venv), .cmd ("cd ".toList ++ workdir), .cmd line])
      (if temp then [.cmd ("mkdir -p $(dirname ".toList ++ finaldir ++ ")".toList), .cmd ("mv ".toList ++ workdir ++ ' ' :: finaldir)] else []) .finished ?_ ?_
    · unfold slurmCmds
      simp only [List.append_assoc, List.cons_append, List.nil_append]
    · intro x
      cases temp <;> simp
  · intro a t b h ha ht
    exact shell_fail ok _ s a t b (hall.trans h) ha ht

example : shell (fun t => t ≠ "run".toList) (slurmCmds [] "/dev/null".toList "/work".toList "run".toList "/work".toList false) none =
    (["source /dev/null".toList, "cd /work".toList, "run".toList], some .crashed) :=
  (C86_status (fun t => t ≠ "run".toList) [] "/dev/null".toList "/work".toList "run".toList "/work".toList false none).2 ["source /dev/null".toList, "cd /work".toList] "run".toList [] (by decide +kernel) (by decide +kernel) (by decide +kernel)

/-! ### Submitting -/

/-- **C86** (partial) Without an address for mail the job is submitted without options. With one, and a type of mail that the queue system has, the options give the address and the type; other types are a `ValueError`.

Missing: see `C86_mailtype_violated`. -/
theorem C86_submit_partial (command : Text) (e t : Text) (he : Word e) :
    (∀ mail mailtype, submitCommand command mail none mailtype = .ok [command, "jobscript.sh".toList]) ∧
    (t ∈ slurmMail.types → submitCommand command (some slurmMail) (some e) (some t) = .ok [command, "--mail-user=".toList ++ e, "--mail-type=".toList ++ t, "jobscript.sh".toList]) ∧
    (t ∈ pbsMail.types → submitCommand command (some pbsMail) (some e) (some t) = .ok [command, "-M".toList, e, "-m".toList, t, "jobscript.sh".toList]) ∧
    (∀ m : Mail, t ∉ m.types → submitCommand command (some m) (some e) (some t) = .error .valueError) := by
  refine ⟨fun _ _ => rfl, fun h => ?_, fun h => ?_, fun m h => ?_⟩
  · rw [submitCommand]
    simp only [h, if_true]
    have ht : Word ("--mail-type=".toList ++ t) := by
      simp only [slurmMail, List.mem_cons, List.not_mem_nil, or_false] at h
      rcases h with rfl | rfl | rfl | rfl | rfl <;> exact ⟨by decide +kernel, by decide +kernel⟩
    have he' : Word ("--mail-user=".toList ++ e) := word_append _ _ (by decide +kernel) (by decide +kernel) he
    rw [show slurmMail.options e t = ("--mail-user=".toList ++ e) ++ ' ' :: ("--mail-type=".toList ++ t) by rfl, words_append, words_word _ ht, words_word _ he']
    rfl
  · rw [submitCommand]
    simp only [h, if_true]
    have ht : Word t := by
      simp only [pbsMail, List.map_cons, List.map_nil, List.mem_cons, List.not_mem_nil, or_false] at h
      rcases h with rfl | rfl | rfl | rfl | rfl | rfl | rfl | rfl | rfl | rfl | rfl | rfl | rfl | rfl | rfl <;> exact ⟨by decide +kernel, by decide +kernel⟩
    rw [show pbsMail.options e t = "-M".toList ++ ' ' :: (e ++ ' ' :: ("-m".toList ++ ' ' :: t)) by rfl, words_append, words_append, words_append, words_word _ ht, words_word _ he]
    rfl
  · rw [submitCommand]
    simp only [h, if_false]

example : submitCommand "sbatch".toList (some slurmMail) (some "me@x.org".toList) (some "END".toList) =
    .ok ["sbatch".toList, "--mail-user=me@x.org".toList, "--mail-type=END".toList, "jobscript.sh".toList] :=
  (C86_submit_partial "sbatch".toList "me@x.org".toList "END".toList ⟨by decide +kernel, by decide +kernel⟩).2.1 (by decide +kernel)

/-- **C86** (violated) An address without a type of mail is only warned about, but then nothing is submitted: it is a `ValueError`. -/
theorem C86_mailtype_violated (command e : Text) (m : Mail) : submitCommand command (some m) (some e) none = .error .valueError := rfl

example : submitCommand "sbatch".toList (some slurmMail) (some "me@x.org".toList) none = .error .valueError := C86_mailtype_violated _ _ _

end Verif.Runner
