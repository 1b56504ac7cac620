import Verif.Tasks.Jobs
import Mathlib.Data.List.Forall2
import Mathlib.Data.List.Nodup

/-!
# C46: job submission never clobbers a job it should not, and templates give one run per combination
-/
namespace Verif.Tasks

/-! ## Lemmas -/

theorem occurs_iff (p s : List Char) : occurs p s = true ↔ ∃ a b, s = a ++ p ++ b := by
  induction s with
  | nil =>
    simp only [occurs, List.isPrefixOf_iff_prefix, List.prefix_nil]
    constructor
    · rintro rfl; exact ⟨[], [], rfl⟩
    · rintro ⟨a, b, h⟩
      have := congrArg List.length h
      simp at this
      exact List.length_eq_zero_iff.1 (by omega)
  | cons c cs ih =>
    simp only [occurs, Bool.or_eq_true, List.isPrefixOf_iff_prefix, ih]
    constructor
    · rintro (⟨b, hb⟩ | ⟨a, b, hb⟩)
      · exact ⟨[], b, by simp [hb]⟩
      · exact ⟨c :: a, b, by simp [hb]⟩
    · rintro ⟨a, b, h⟩
      cases a with
      | nil => exact Or.inl ⟨b, by simpa using h.symm⟩
      | cons x a =>
        simp at h
        exact Or.inr ⟨a, b, by simpa using h.2⟩

theorem product_mem {α : Type} (vs : List (List α)) (a : List α) :
    a ∈ product vs ↔ List.Forall₂ (· ∈ ·) a vs := by
  induction vs generalizing a with
  | nil => simp [product]
  | cons v vs ih =>
    simp only [product, List.mem_flatMap, List.mem_map]
    constructor
    · rintro ⟨x, hx, r, hr, rfl⟩
      exact List.Forall₂.cons hx ((ih r).1 hr)
    · intro h
      cases h with
      | cons hx hr => exact ⟨_, hx, _, (ih _).2 hr, rfl⟩

theorem product_nodup {α : Type} (vs : List (List α)) (h : ∀ v ∈ vs, v.Nodup) : (product vs).Nodup := by
  induction vs with
  | nil => simp [product]
  | cons v vs ih =>
    have ihn := ih (fun w hw => h w (by simp [hw]))
    have hv := h v (by simp)
    simp only [product]
    clear h ih
    induction v with
    | nil => simp
    | cons x xs ihx =>
      rw [List.nodup_cons] at hv
      rw [List.flatMap_cons, List.nodup_append]
      refine ⟨ihn.map (fun a b h => by simpa using h), ihx hv.2, ?_⟩
      intro a ha b hb hab
      subst hab
      simp only [List.mem_map] at ha
      obtain ⟨r, _, rfl⟩ := ha
      simp only [List.mem_flatMap, List.mem_map] at hb
      obtain ⟨y, hy, r', _, he⟩ := hb
      simp at he
      exact hv.1 (he.1 ▸ hy)

theorem product_length {α : Type} (vs : List (List α)) :
    (product vs).length = (vs.map List.length).prod := by
  induction vs with
  | nil => simp [product]
  | cons v vs ih =>
    simp only [product, List.length_flatMap, List.length_map, ih, List.map_cons, List.prod_cons]
    induction v with
    | nil => simp
    | cons x xs ihx => simp [Nat.add_mul, Nat.add_comm]

/-! ## Job directories -/

/-- C46. With `never`, an existing job in the working directory is left alone and nothing is submitted. -/
theorem C46_never_partial (a : QArgs) (w : World) (ha : a.overwrite = .never) (hw : w.work ≠ none) :
    queueJob a w = (.skipped, w) := by
  unfold queueJob
  cases h : w.work with
  | none => exact absurd h hw
  | some j => simp [leaveAlone, ha]

/-- C46. With `failed`, a job in the working directory whose status says `FINISHED` is left alone. -/
theorem C46_failed_partial (a : QArgs) (w : World) (j : JobDir) (s before after : List Char)
    (ha : a.overwrite = .failed) (hw : w.work = some j) (hs : j.status = some s)
    (hf : s = before ++ "FINISHED".toList ++ after) : queueJob a w = (.skipped, w) := by
  have : occurs "FINISHED".toList s = true := (occurs_iff _ _).2 ⟨before, after, hf⟩
  simp only [queueJob, hw, leaveAlone, ha, hs, this, if_true]

/-- C46. Otherwise the job is prepared from the new configuration, and submitted if asked for. -/
theorem C46_proceeds_partial (a : QArgs) (w : World) (hs : a.scriptOk = true) (hm : a.mailOk = true)
    (hw : ∀ j, w.work = some j → a.overwrite ≠ .never ∧
      (a.overwrite = .failed → ∀ s, j.status = some s → ¬ ∃ x y, s = x ++ "FINISHED".toList ++ y)) :
    (queueJob a w).1 = (if a.submit then .submitted else .prepared) ∧
    (queueJob a w).2.submitted = w.submitted ++ (if a.submit then [a.config] else []) ∧
    (queueJob a w).2.final = w.final ∧
    ∃ j, (queueJob a w).2.work = some j ∧ j.config = a.config ∧ j.script = some a.config ∧
      ∀ j0, w.work = some j0 → j.status = j0.status := by
  unfold queueJob
  cases h : w.work with
  | none =>
    cases hsub : a.submit <;> simp [fillDir, hs, hm, hsub]
  | some j =>
    obtain ⟨h1, h2⟩ := hw j h
    have hl : leaveAlone a.overwrite j = false := by
      unfold leaveAlone
      cases ho : a.overwrite with
      | never => exact absurd ho h1
      | other => rfl
      | failed =>
        cases hst : j.status with
        | none => rfl
        | some s =>
          simp only
          rw [Bool.eq_false_iff]
          intro hc
          exact h2 ho s hst ((occurs_iff _ _).1 hc)
    simp only [hl]
    cases hsub : a.submit <;> simp [fillDir, hs, hm, hsub]

theorem fillDir_submitted (a : QArgs) (w : World) (j : JobDir) :
    (fillDir a w j).2.submitted.length ≤ w.submitted.length + 1 := by
  unfold fillDir
  split
  · split
    · split <;> simp
    · simp
  · simp

theorem fillDir_work (a : QArgs) (w : World) (j : JobDir) : (fillDir a w j).2.work ≠ none := by
  unfold fillDir
  split
  · split
    · split <;> simp
    · simp
  · simp

/-- The invariant of histories without a temporary directory: nothing is submitted before there is a job,
and then once at most. -/
theorem once_inv (ops : List JobOp) (w : World) (ho : ∀ a, JobOp.queue a ∈ ops → a.overwrite = .never)
    (h : w.submitted.length ≤ 1 ∧ (w.work = none → w.submitted = [])) :
    (w.run false ops).submitted.length ≤ 1 ∧ ((w.run false ops).work = none → (w.run false ops).submitted = []) := by
  induction ops generalizing w with
  | nil => exact h
  | cons op ops ih =>
    apply ih (w.step false op) (fun a ha => ho a (by simp [ha]))
    have hst : ∀ s, (w.setStatus s).submitted = w.submitted ∧ ((w.setStatus s).work = none → w.work = none) := by
      intro s
      unfold World.setStatus
      cases hw : w.work <;> simp [hw]
    cases op with
    | queue a =>
      simp only [World.step]
      cases hw : w.work with
      | some j =>
        rw [C46_never_partial a w (ho a (by simp)) (by simp [hw])]
        exact h
      | none =>
        have he := h.2 hw
        unfold queueJob
        rw [hw]
        simp only
        refine ⟨?_, fun hc => absurd hc (fillDir_work _ _ _)⟩
        have := fillDir_submitted a w ⟨a.config, none, none⟩
        rw [he] at this
        simpa using this
    | start => exact ⟨by rw [World.step, (hst _).1]; exact h.1, fun hc => by
        rw [World.step] at hc ⊢; rw [(hst _).1]; exact h.2 ((hst _).2 hc)⟩
    | crash => exact ⟨by rw [World.step, (hst _).1]; exact h.1, fun hc => by
        rw [World.step] at hc ⊢; rw [(hst _).1]; exact h.2 ((hst _).2 hc)⟩
    | finish =>
      simp only [World.step, World.move]
      exact ⟨by simp only [Bool.false_eq_true, if_false, (hst _).1]; exact h.1, fun hc => by
        simp only [Bool.false_eq_true, if_false] at hc ⊢
        rw [(hst _).1]; exact h.2 ((hst _).2 hc)⟩

/-- C46. Without a temporary directory and with `never` throughout, whatever happens to the job, it is
submitted at most once. -/
theorem C46_once_partial (ops : List JobOp) (ho : ∀ a, JobOp.queue a ∈ ops → a.overwrite = .never) :
    ((⟨none, none, []⟩ : World).run false ops).submitted.length ≤ 1 :=
  (once_inv ops ⟨none, none, []⟩ ho (by simp)).1

/-- C46. Without a temporary directory, once a job has finished, no number of calls with `never` or
`failed` changes it or submits anything. -/
theorem C46_finished_stays_partial (w : World) (calls : List QArgs) (hw : w.work ≠ none)
    (ho : ∀ a ∈ calls, a.overwrite ≠ .other) :
    (w.step false .finish).run false (calls.map .queue) = w.step false .finish := by
  induction calls with
  | nil => rfl
  | cons a calls ih =>
    have hq : (w.step false .finish).step false (.queue a) = w.step false .finish := by
      simp only [World.step, World.move, Bool.false_eq_true, if_false]
      cases hj : w.work with
      | none => exact absurd hj hw
      | some j =>
        have : leaveAlone a.overwrite { j with status := some ("FINISHED".toList ++ ['\n']) } = true := by
          have ha := ho a (by simp)
          cases hov : a.overwrite with
          | never => rfl
          | other => exact absurd hov ha
          | failed =>
            simp only [leaveAlone]
            exact (occurs_iff _ _).2 ⟨[], ['\n'], by simp⟩
        simp only [World.setStatus, hj, queueJob, this]
        rfl
    simp only [List.map_cons, World.run, List.foldl_cons]
    rw [hq]
    exact ih (fun b hb => ho b (by simp [hb]))

/-- C46 fails for running jobs: `failed` takes a job that is running for one that failed; its configuration is
overwritten and it is submitted again. -/
theorem C46_running_violated :
    ((⟨none, none, []⟩ : World).run false
      [.queue ⟨.failed, 1, true, true, true⟩, .start, .queue ⟨.failed, 2, true, true, true⟩]) =
      ⟨some ⟨2, some 2, some "RUNNING\n".toList⟩, none, [1, 2]⟩ := by decide +kernel

/-- C46 fails with a temporary directory: a finished job is moved away, so `never` submits it again. -/
theorem C46_temporary_violated :
    ((⟨none, none, []⟩ : World).run true
      [.queue ⟨.never, 1, true, true, true⟩, .start, .finish, .queue ⟨.never, 1, true, true, true⟩]).submitted =
      [1, 1] := by decide +kernel

/-- C46 fails after an error: if the mail type is invalid, nothing is submitted, but the directory stays and
the corrected call does nothing. -/
theorem C46_retry_violated (w : World) (c : Nat) (hw : w.work = none) :
    (queueJob ⟨.never, c, true, true, false⟩ w).1 = .valueError ∧
    queueJob ⟨.never, c, true, true, true⟩ (queueJob ⟨.never, c, true, true, false⟩ w).2 =
      (.skipped, (queueJob ⟨.never, c, true, true, false⟩ w).2) ∧
    (queueJob ⟨.never, c, true, true, false⟩ w).2.submitted = w.submitted := by
  simp [queueJob, hw, fillDir, leaveAlone]

example : ((⟨none, none, []⟩ : World).run false
    [.queue ⟨.never, 1, true, true, true⟩, .start, .crash, .queue ⟨.failed, 2, true, true, true⟩, .start, .finish,
     .queue ⟨.failed, 3, true, true, true⟩]) =
    ⟨some ⟨2, some 2, some "FINISHED\n".toList⟩, none, [1, 2]⟩ := by decide +kernel

/-! ## Templates -/

/-- One `--var` option, as written by the user. -/
def option (name : List Char) (vals : List (List Char)) : List Char :=
  name ++ '=' :: (List.intersperse [','] vals).flatten

theorem splitEq_option (name rest : List Char) (h : '=' ∉ name) :
    splitEq (name ++ '=' :: rest) = some (name, rest) := by
  induction name with
  | nil => simp [splitEq]
  | cons c cs ih =>
    simp only [List.mem_cons, not_or] at h
    simp only [List.cons_append, splitEq]
    rw [if_neg (fun e => h.1 e.symm), ih h.2]
    rfl

theorem splitComma_append (v rest : List Char) (h : ',' ∉ v) :
    splitComma (v ++ ',' :: rest) = v :: splitComma rest := by
  induction v with
  | nil => simp [splitComma]
  | cons c cs ih =>
    simp only [List.mem_cons, not_or] at h
    simp only [List.cons_append, splitComma]
    rw [if_neg (fun e => h.1 e.symm), ih h.2]

theorem splitComma_last (v : List Char) (h : ',' ∉ v) : splitComma v = [v] := by
  induction v with
  | nil => rfl
  | cons c cs ih =>
    simp only [List.mem_cons, not_or] at h
    simp only [splitComma]
    rw [if_neg (fun e => h.1 e.symm), ih h.2]

theorem splitComma_joined (vals : List (List Char)) (hne : vals ≠ []) (h : ∀ v ∈ vals, ',' ∉ v) :
    splitComma (List.intersperse [','] vals).flatten = vals := by
  match vals with
  | [] => exact absurd rfl hne
  | [v] => simpa using splitComma_last v (h v (by simp))
  | v :: w :: rest =>
    have ih := splitComma_joined (w :: rest) (by simp) (fun u hu => h u (by simp [hu]))
    simp only [List.intersperse_cons_cons, List.flatten_cons, List.singleton_append]
    rw [splitComma_append v _ (h v (by simp)), ih]

theorem assignVar_new (d : List (List Char × List (List Char))) (k : List Char) (v : List (List Char))
    (h : k ∉ d.map (·.1)) : assignVar d k v = d ++ [(k, v)] := by
  induction d with
  | nil => rfl
  | cons e d ih =>
    obtain ⟨k', v'⟩ := e
    simp only [List.map_cons, List.mem_cons, not_or] at h
    simp only [assignVar]
    rw [if_neg (fun e => h.1 e.symm), ih h.2]
    rfl

theorem parseVars_options (d e : List (List Char × List (List Char)))
    (hn : ∀ p ∈ e, '=' ∉ p.1 ∧ p.2 ≠ [] ∧ ∀ v ∈ p.2, ',' ∉ v)
    (hd : ((d ++ e).map (·.1)).Nodup) :
    parseVars d (e.map fun p => option p.1 p.2) = some (d ++ e) := by
  induction e generalizing d with
  | nil => simp [parseVars]
  | cons p e ih =>
    obtain ⟨k, vs⟩ := p
    obtain ⟨h1, h2, h3⟩ := hn (k, vs) (by simp)
    rw [List.map_cons, parseVars]
    simp only
    rw [option, splitEq_option k _ h1]
    simp only
    rw [splitComma_joined vs h2 h3, assignVar_new]
    · have := ih (d ++ [(k, vs)]) (fun q hq => hn q (by simp [hq])) (by simpa using hd)
      simpa using this
    · rw [List.map_append, List.nodup_append] at hd
      intro hk
      exact hd.2.2 k hk k (by simp) rfl

/-- C46. For variables with different names, each with some values: there is a run for every choice of one
value per variable, and no other run. -/
theorem C46_runs_partial (e : List (List Char × List (List Char)))
    (hn : ∀ p ∈ e, '=' ∉ p.1 ∧ p.2 ≠ [] ∧ ∀ v ∈ p.2, ',' ∉ v) (hd : (e.map (·.1)).Nodup) :
    ∃ runs, fromTemplate (e.map fun p => option p.1 p.2) = some runs ∧
      runs.length = (e.map fun p => p.2.length).prod ∧
      ∀ r, r ∈ runs ↔ List.Forall₂ (fun (x : List Char × List Char) p => x.1 = p.1 ∧ x.2 ∈ p.2) r e := by
  refine ⟨runsOf e, ?_, ?_, ?_⟩
  · unfold fromTemplate
    rw [parseVars_options [] e hn (by simpa using hd)]
    simp
  · simp only [runsOf, List.length_map, product_length, List.map_map]
    rfl
  · intro r
    simp only [runsOf, List.mem_map, product_mem]
    clear hn hd
    induction e generalizing r with
    | nil => simp
    | cons p e ih =>
      constructor
      · rintro ⟨vs, hvs, rfl⟩
        cases hvs with
        | cons hx hr =>
          simp only [List.map_cons, List.zip_cons_cons]
          exact List.Forall₂.cons ⟨rfl, hx⟩ ((ih _).1 ⟨_, hr, rfl⟩)
      · intro h
        cases h with
        | @cons x _ l _ hx hr =>
          obtain ⟨vs, hvs, rfl⟩ := (ih _).2 hr
          refine ⟨x.2 :: vs, List.Forall₂.cons hx.2 hvs, ?_⟩
          simp only [List.map_cons, List.zip_cons_cons, ← hx.1]

/-- C46. If moreover the values of each variable are different, no run is repeated. -/
theorem C46_runs_distinct_partial (e : List (List Char × List (List Char)))
    (hn : ∀ p ∈ e, '=' ∉ p.1 ∧ p.2 ≠ [] ∧ ∀ v ∈ p.2, ',' ∉ v) (hd : (e.map (·.1)).Nodup)
    (hv : ∀ p ∈ e, p.2.Nodup) :
    ∃ runs, fromTemplate (e.map fun p => option p.1 p.2) = some runs ∧ runs.Nodup := by
  refine ⟨runsOf e, ?_, ?_⟩
  · unfold fromTemplate
    rw [parseVars_options [] e hn (by simpa using hd)]
    simp
  · unfold runsOf
    apply List.Nodup.map_on
    · intro a ha b hb hab
      have la := (product_mem _ _).1 ha |>.length_eq
      have lb := (product_mem _ _).1 hb |>.length_eq
      have h2 := congrArg (List.map Prod.snd) hab
      rw [List.map_snd_zip (by simp_all), List.map_snd_zip (by simp_all)] at h2
      exact h2
    · apply product_nodup
      intro v hv'
      obtain ⟨p, hp, rfl⟩ := List.mem_map.1 hv'
      exact hv p hp

/-- C46 fails for a variable given twice: the values given first are lost. -/
theorem C46_repeated_variable_violated :
    fromTemplate ["a=1".toList, "a=2".toList] = some [[("a".toList, "2".toList)]] := by decide +kernel

/-- C46 fails for a value given twice: the same run is made twice. -/
theorem C46_repeated_value_violated :
    fromTemplate ["a=1,1".toList] = some [[("a".toList, "1".toList)], [("a".toList, "1".toList)]] := by
  decide +kernel

example : fromTemplate ["a=1,2".toList, "b=x,y".toList] = some
    [[("a".toList, "1".toList), ("b".toList, "x".toList)], [("a".toList, "1".toList), ("b".toList, "y".toList)],
     [("a".toList, "2".toList), ("b".toList, "x".toList)], [("a".toList, "2".toList), ("b".toList, "y".toList)]] := by
  decide +kernel

/-- C46. Called with the four other arguments that a run needs, `template_run` starts all runs of the template, in order. -/
theorem C46_template_run_partial (runs : List (List (List Char × List Char))) : templateRun 4 runs = (runs, false) := by
  induction runs with
  | nil => rfl
  | cons r rs ih => simp [templateRun, takes, ih]

example : templateRun 4 [[("a".toList, "1".toList)], [("a".toList, "2".toList)]] = ([[("a".toList, "1".toList)], [("a".toList, "2".toList)]], false) := C46_template_run_partial _

/-- C46 fails for the command `template-run` if the jobs are not submitted: it starts none of the runs, and stops with a `TypeError`, since it passes none of these arguments. -/
theorem C46_template_run_violated (vars : List (List Char)) (r : List (List Char × List Char)) (rs : List (List (List Char × List Char))) (h : fromTemplate vars = some (r :: rs)) :
    cliTemplateRun vars = some ([], true) := by
  simp [cliTemplateRun, h, templateRun, takes]

example : cliTemplateRun ["a=1,2".toList] = some ([], true) :=
  C46_template_run_violated _ [("a".toList, "1".toList)] [[("a".toList, "2".toList)]] (by decide +kernel)

end Verif.Tasks
