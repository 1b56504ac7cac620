import Verif.Build.Lint
import Verif.Build.DocProps

/-!
# C123: checking configuration files
-/
namespace Verif.Build

open Verif.Config (Val Cfg Class Obj)

/-! ### Lemmas -/

theorem setLevels_isOk (W : World) (o : Obj) :
    (∃ e, setLevels W true o = .error e ∧ setLevels W false o = .error e) ∨ ∃ l l', setLevels W true o = .ok l ∧ setLevels W false o = .ok l' := by
  unfold setLevels
  split
  · right
    split <;> split
    · split <;> exact ⟨_, _, rfl, rfl⟩
    · split <;> exact ⟨_, _, rfl, rfl⟩
    · split <;> exact ⟨_, _, rfl, rfl⟩
    · exact ⟨_, _, rfl, rfl⟩
  · exact .inl ⟨_, rfl, rfl⟩
  · exact .inl ⟨_, rfl, rfl⟩

/-- What is common to the two ways of reading a document. -/
def Manager.same (m : Manager) : Obj × String × Cfg × List Task := (m.obj, m.keyMatch, m.base, m.tasks)

theorem finish_same (W : World) (doc : Doc) (d : Cfg) (o : Obj) :
    (finishManager W true doc d o).map Manager.same = (finishManager W false doc d o).map Manager.same := by
  unfold finishManager
  rcases setLevels_isOk W o with ⟨e, h1, h2⟩ | ⟨l, l', h1, h2⟩
  · rw [h1, h2]
  · rw [h1, h2]
    cases option W o "versions" with
    | error e => rfl
    | ok vs =>
      cases option W o "save_config" with
      | error e => rfl
      | ok sv =>
        cases option W o "task_specs" with
        | error e => rfl
        | ok v =>
          cases v with
          | list specs =>
            simp only
            cases specsOf doc.lines 0 specs with
            | error e => rfl
            | ok ss =>
              simp only
              cases setupTasks W d _ ss <;> rfl
          | _ => rfl

theorem fromYaml_same (W : World) (doc : Doc) : (fromYaml W true doc).map Manager.same = (fromYaml W false doc).map Manager.same := by
  unfold fromYaml
  split
  · split
    · rfl
    · simp only
      split
      · rfl
      · exact finish_same W doc _ _
    · rfl
  · rfl

/-- The file names no environment. -/
def NoVenv (doc : Doc) : Prop := ∀ d c, doc.val = .dict d → d.lookup "cluster" = some (.dict c) → c.lookup "venv" = none

theorem venv_keeps (doc : Doc) (h : NoVenv doc) (v : Python) (dirs : List String) (added : String → List String) (path path' : List String)
    (hl : loadVenv doc.val v dirs added path = .ok path') : path' = path := by
  unfold loadVenv at hl
  split at hl
  · rename_i d hd
    split at hl
    · exact (Except.ok.inj hl).symm
    · rename_i c hc
      rw [h d c hd hc] at hl
      exact (Except.ok.inj hl).symm
    · cases hl
  · cases hl

theorem importAll_same (M : Machine) (path : List String) (ms : List String) (loaded : List (String × Attrs)) (m : String) :
    importIn M ⟨path, importAll M path ms loaded⟩ m = importIn M ⟨path, loaded⟩ m := by
  induction ms generalizing loaded with
  | nil => rfl
  | cons x ms ih =>
    rw [importAll]
    split
    · rename_i a ha
      rw [ih]
      by_cases hx : m = x
      · subst hx
        rw [ha]
        simp [importIn]
      · simp [importIn, List.lookup_cons, beq_eq_false_iff_ne.2 hx]
    · exact ih loaded

/-! ### Properties -/

/-- **C123** A document that is only checked gives the same tasks, with the same parameters, or the same error, as one that is to be run. -/
theorem C123_like_run (W : World) (doc : Doc) :
    (∀ m, fromYaml W true doc = .ok m → ∃ m', fromYaml W false doc = .ok m' ∧ m'.tasks = m.tasks ∧ m'.base = m.base ∧ m'.obj = m.obj) ∧
      (∀ m, fromYaml W false doc = .ok m → ∃ m', fromYaml W true doc = .ok m' ∧ m'.tasks = m.tasks ∧ m'.base = m.base ∧ m'.obj = m.obj) ∧
      ∀ e, fromYaml W true doc = .error e ↔ fromYaml W false doc = .error e := by
  have h := fromYaml_same W doc
  cases h1 : fromYaml W true doc <;> cases h2 : fromYaml W false doc <;> rw [h1, h2] at h <;> simp only [Except.map] at h
  · simp only [reduceCtorEq, false_implies, implies_true, true_and]
    cases h
    exact fun e => Iff.rfl
  · cases h
  · cases h
  · rename_i a b
    have h' : Manager.same a = Manager.same b := Except.ok.inj h
    simp only [Manager.same, Prod.mk.injEq] at h'
    refine ⟨fun m hm => ⟨b, rfl, ?_⟩, fun m hm => ⟨a, rfl, ?_⟩, fun e => by simp⟩
    · cases hm
      exact ⟨h'.2.2.2.symm, h'.2.2.1.symm, h'.1.symm⟩
    · cases hm
      exact ⟨h'.2.2.2, h'.2.2.1, h'.1⟩

/-- **C123** (partial) A file that names no environment, checked in a fresh process, is accepted exactly if `run` could set up its pipeline; the section `cluster` may be missing or be a mapping.

Missing: see `C123_run_violated` and `C123_cluster_violated`. -/
theorem C123_accepts_partial (B : World) (M : Machine) (s : Proc) (doc : Doc) (d : Cfg) (hd : doc.val = .dict d) (hc : ∀ v, d.lookup "cluster" = some v → ∃ c, v = .dict c) (hv : NoVenv doc) :
    (lintConfig B M s [doc] = none ↔ ∃ m, setUp B M s doc = .ok m) ∧ ∀ e, lintConfig B M s [doc] = some e ↔ setUp B M s doc = .error e := by
  have hl : loadVenv doc.val M.python M.dirs M.added s.path = .ok s.path := by
    rw [hd]
    unfold loadVenv
    cases h : d.lookup "cluster" with
    | none => simp [h]
    | some v =>
      obtain ⟨c, rfl⟩ := hc v h
      simp [h, hv d c hd h]
  obtain ⟨h1, h2, h3⟩ := C123_like_run (worldIn B M s) doc
  simp only [lintConfig, lintOne, hl, setUp]
  cases h : fromYaml (worldIn B M s) true doc with
  | error e =>
    have := (h3 e).1 h
    simp [this]
  | ok m =>
    obtain ⟨m', hm, _⟩ := h1 m h
    simp [hm]

/-- **C123** (partial) If no file names an environment, the list is accepted exactly if each file is accepted when it is checked alone in a fresh process.

Missing: see `C123_path_violated` and `C123_modules_violated`. -/
theorem C123_each_partial (B : World) (M : Machine) (s : Proc) (docs : List Doc) (hv : ∀ doc ∈ docs, NoVenv doc) :
    lintConfig B M s docs = none ↔ ∀ doc ∈ docs, lintConfig B M s [doc] = none := by
  induction docs generalizing s with
  | nil => simp [lintConfig]
  | cons doc docs ih =>
    cases h : lintOne B M s doc with
    | error e => simp [lintConfig, h]
    | ok s' =>
      have hw : ∀ x ∈ docs, lintConfig B M s' [x] = lintConfig B M s [x] := by
        intro x _
        unfold lintOne at h
        split at h
        · cases h
        · rename_i path hp
          have hp' := venv_keeps doc (hv doc (by simp)) _ _ _ _ _ hp
          subst hp'
          split at h
          · cases h
          · cases h
            have hwd : ∀ path', path' = s.path → worldIn B M ⟨path', importAll M s.path ((entriesOf doc).filterMap (moduleOf B)) s.loaded⟩ = worldIn B M ⟨path', s.loaded⟩ := by
              intro path' hpp
              subst hpp
              unfold worldIn
              congr 1
              funext m
              exact importAll_same M s.path _ s.loaded m
            simp only [lintConfig, lintOne]
            cases hlx : loadVenv x.val M.python M.dirs M.added s.path with
            | error e => rfl
            | ok px =>
              have hpx := venv_keeps x (hv x (by simp [*])) _ _ _ _ _ hlx
              simp only
              rw [hwd px hpx]
              cases fromYaml (worldIn B M ⟨px, s.loaded⟩) true x <;> rfl
      simp only [lintConfig, h, List.mem_cons, forall_eq_or_imp]
      rw [ih s' (fun x hx => hv x (by simp [hx]))]
      constructor
      · intro hx
        exact ⟨trivial, fun x hxm => (hw x hxm).symm.trans (hx x hxm)⟩
      · intro hx x hxm
        exact (hw x hxm).trans (hx.2 x hxm)

/-- **C123** The error that is told is that of the first wrong file, checked after those before it. -/
theorem C123_first_error (B : World) (M : Machine) (s : Proc) (docs : List Doc) (e : Err) :
    lintConfig B M s docs = some e ↔
      ∃ good bad rest, docs = good ++ bad :: rest ∧ lintConfig B M s good = none ∧ lintConfig B M s (good ++ [bad]) = some e := by
  induction docs generalizing s with
  | nil => simp [lintConfig]
  | cons doc docs ih =>
    constructor
    · intro h
      cases hd : lintOne B M s doc with
      | error e' =>
        simp only [lintConfig, hd, Option.some.injEq] at h
        subst h
        exact ⟨[], doc, docs, rfl, rfl, by simp [lintConfig, hd]⟩
      | ok s' =>
        simp only [lintConfig, hd] at h
        obtain ⟨g, b, r, h1, h2, h3⟩ := (ih s').1 h
        exact ⟨doc :: g, b, r, by simp [h1], by simp [lintConfig, hd, h2], by simp [lintConfig, hd, h3]⟩
    · rintro ⟨g, b, r, h1, h2, h3⟩
      cases g with
      | nil =>
        simp only [List.nil_append, List.cons.injEq] at h1
        obtain ⟨rfl, rfl⟩ := h1
        simp only [List.nil_append, lintConfig] at h3 ⊢
        cases hd : lintOne B M s doc with
        | error e' => rw [hd] at h3; exact h3
        | ok s' => rw [hd] at h3; cases h3
      | cons x g =>
        simp only [List.cons_append, List.cons.injEq] at h1
        obtain ⟨rfl, rfl⟩ := h1
        simp only [List.cons_append, lintConfig] at h2 h3 ⊢
        cases hd : lintOne B M s doc with
        | error e' => rw [hd] at h2; cases h2
        | ok s' =>
          rw [hd] at h2 h3
          exact (ih s').2 ⟨g, b, r, rfl, h2, h3⟩

/-- **C123** Checking a file whose tasks are all local ones imports nothing: the files after it are checked with the modules that were there before. -/
theorem C123_local (B : World) (M : Machine) (s s' : Proc) (doc : Doc) (h : lintOne B M s doc = .ok s')
    (hl : ∀ e ∈ entriesOf doc, ∀ t, e.lookup "type" = some (.str t) → B.locals t ≠ none) : s'.loaded = s.loaded := by
  have hm : (entriesOf doc).filterMap (moduleOf B) = [] := by
    rw [List.filterMap_eq_nil_iff]
    intro e he
    unfold moduleOf
    split
    · rename_i t ht
      split
      · rfl
      · rename_i hn
        exact absurd hn (hl e he t ht)
    · rfl
  unfold lintOne at h
  split at h
  · cases h
  · split at h
    · cases h
    · cases h
      rw [hm]
      rfl

/-! ### What the code does not do -/

/-- **C123** (violated) Files after a wrong one are not checked: nothing that is told depends on them. -/
theorem C123_rest_violated (B : World) (M : Machine) (s : Proc) (docs rest : List Doc) (e : Err) (h : lintConfig B M s docs = some e) :
    lintConfig B M s (docs ++ rest) = some e := by
  obtain ⟨g, b, r, rfl, h2, h3⟩ := (C123_first_error B M s docs e).1 h
  exact (C123_first_error B M s _ e).2 ⟨g, b, r ++ rest, by simp, h2, h3⟩

/-- A file with one task, with an environment or without. -/
def lintDoc (venv : Option String) (type : String) : Doc :=
  ⟨.dict (("pipeline", .dict [("tasks", .list [.dict [("type", .str type)]])]) ::
    match venv with
    | none => []
    | some b => [("cluster", .dict [("venv", .str b)])]), fun _ => (none, none)⟩

/-- A module with one class. -/
def oneTask (n : String) : Attrs := fun c => if c = n then some (.task n []) else none

/-- Two environments: in the first the module `mine` has the class `Old` only, in the second it has the class `New` only; it is not found elsewhere. The first has also the module `also`. -/
def exMachine : Machine where
  python := ⟨3, 9, 0, []⟩
  dirs := ["/one", "/two"]
  added := fun p => [p]
  find := fun path m =>
    if m = "mine" then
      if path.head? = some "/one/lib/python3.9/site-packages" then .ok (oneTask "Old")
      else if path.head? = some "/two/lib/python3.9/site-packages" then .ok (oneTask "New")
      else if path.contains "/one/lib/python3.9/site-packages" then .ok (oneTask "Old")
      else .error .notFound
    else if m = "also" ∧ path.contains "/one/lib/python3.9/site-packages" then .ok (oneTask "Old")
    else .error .notFound

def exFresh : Proc := ⟨["/usr"], []⟩

/-- **C123** (violated) The environment of a file stays for those after it: a file that is wrong on its own is accepted after a file with an environment that has what it lacks. -/
theorem C123_path_violated :
    lintConfig exWorld exMachine exFresh [lintDoc none "also.Old"] ≠ none ∧ lintConfig exWorld exMachine exFresh [lintDoc (some "/one") "mine.Old", lintDoc none "also.Old"] = none ∧
      ∃ e, setUp exWorld exMachine exFresh (lintDoc none "also.Old") = .error e :=
  ⟨fun h => (by cases h), rfl, _, rfl⟩

/-- **C123** (violated) Modules stay imported: a file that is right on its own is refused after a file whose environment has another version of the same module. -/
theorem C123_modules_violated :
    lintConfig exWorld exMachine exFresh [lintDoc (some "/two") "mine.New"] = none ∧
      lintConfig exWorld exMachine exFresh [lintDoc (some "/one") "mine.Old", lintDoc (some "/two") "mine.New"] ≠ none :=
  ⟨rfl, fun h => (by cases h)⟩

/-- **C123** (violated) A file is accepted with the environment that it names, but `run` does not activate it, and cannot set up the pipeline. -/
theorem C123_run_violated :
    lintConfig exWorld exMachine exFresh [lintDoc (some "/one") "mine.Old"] = none ∧ ∃ e, setUp exWorld exMachine exFresh (lintDoc (some "/one") "mine.Old") = .error e :=
  ⟨rfl, _, rfl⟩

/-- **C123** (violated) A file whose section `cluster` is there but empty is refused with a `TypeError` that tells nothing about the file, although `run` sets up its pipeline. -/
theorem C123_cluster_violated (B : World) (M : Machine) (s : Proc) (doc : Doc) (d : Cfg) (hd : doc.val = .dict d) (hc : d.lookup "cluster" = some .none) (rest : List Doc) :
    lintConfig B M s (doc :: rest) = some .typeError := by
  simp [lintConfig, lintOne, hd, loadVenv, hc]

example : (∃ m, setUp exWorld exMachine exFresh ⟨.dict [("pipeline", .dict []), ("cluster", .none)], fun _ => (none, none)⟩ = .ok m) ∧
    lintConfig exWorld exMachine exFresh [⟨.dict [("pipeline", .dict []), ("cluster", .none)], fun _ => (none, none)⟩] = some .typeError :=
  ⟨⟨_, rfl⟩, C123_cluster_violated _ _ _ _ _ rfl rfl _⟩

/-! ### Cases -/

example : ∃ s', lintOne exWorld exMachine exFresh (lintDoc (some "/one") "Local") = .ok s' ∧ s'.loaded = [] ∧ s'.path = ["/one/lib/python3.9/site-packages", "/usr"] := ⟨_, rfl, rfl, rfl⟩

theorem exYaml_noVenv : NoVenv exYaml := by
  intro d c h1 h2
  cases h1
  cases h2

example : lintConfig exWorld exMachine exFresh [lintDoc none "mine.Old"] = some (.config none) := rfl

example : (lintConfig exWorld ⟨⟨3, 9, 0, []⟩, [], fun _ => [], fun _ m => exWorld.module m⟩ exFresh [exYaml, exYaml] = none) ∧
    ∃ m, setUp exWorld ⟨⟨3, 9, 0, []⟩, [], fun _ => [], fun _ m => exWorld.module m⟩ exFresh exYaml = .ok m := by
  have h1 : lintConfig exWorld ⟨⟨3, 9, 0, []⟩, [], fun _ => [], fun _ m => exWorld.module m⟩ exFresh [exYaml] = none := rfl
  refine ⟨(C123_each_partial _ _ _ _ ?_).2 ?_, ((C123_accepts_partial _ _ _ exYaml _ rfl ?_ exYaml_noVenv).1).1 h1⟩
  · intro x hx
    simp only [List.mem_cons, List.not_mem_nil, or_false, or_self] at hx
    subst hx
    exact exYaml_noVenv
  · intro x hx
    simp only [List.mem_cons, List.not_mem_nil, or_false, or_self] at hx
    subst hx
    exact h1
  · intro v hv
    cases hv

example : ∃ m', fromYaml exWorld false exYaml = .ok m' ∧ m'.tasks.length = 1 := by
  obtain ⟨m, hm⟩ : ∃ m, fromYaml exWorld true exYaml = .ok m ∧ m.tasks.length = 1 := ⟨_, rfl, rfl⟩
  obtain ⟨m', h, ht, _⟩ := (C123_like_run exWorld exYaml).1 m hm.1
  exact ⟨m', h, by rw [ht]; exact hm.2⟩

example : lintConfig exWorld exMachine exFresh ([lintDoc (some "/one") "mine.Old", lintDoc none "no.Such"] ++ [lintDoc none "mine.Bad"]) = some (.config none) :=
  C123_rest_violated _ _ _ _ _ _ rfl

end Verif.Build
