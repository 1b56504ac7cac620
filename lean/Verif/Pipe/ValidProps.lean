import Verif.Pipe.ValidSpec
import Verif.Pipe.Spec

/-! # C25: validation of the wiring -/
namespace Verif.Pipe

theorem hasDuplicate_iff (l : List Atom) : hasDuplicate l = false ↔ l.Nodup := by
  unfold hasDuplicate
  rw [decide_eq_false_iff_not, not_not]
  constructor
  · intro h
    rw [← List.dedup_eq_self]
    exact (List.dedup_sublist l).eq_of_length h
  · intro h
    rw [h.dedup]

theorem inValues_named (v : Val) : inValues v = named v := by
  cases v with
  | one a => cases a <;> rfl
  | _ => rfl

theorem checkInputs_ok (outs : List Atom) (ts : List TaskSpec) :
    checkInputs outs ts = .ok () ↔
      ∀ t ∈ ts, ∀ k, k ∈ named t.inp ∨ k ∈ named t.req → k ∈ outs := by
  induction ts with
  | nil => simp [checkInputs]
  | cons t ts ih =>
    simp only [checkInputs, inValues_named]
    by_cases h : (named t.inp ++ named t.req).all (fun v => decide (v ∈ outs)) = true
    · rw [if_pos h, ih]
      have h' : ∀ k, k ∈ named t.inp ∨ k ∈ named t.req → k ∈ outs := by
        simpa [List.all_eq_true, or_imp, forall_and] using h
      constructor
      · intro hr u hu
        rcases List.mem_cons.1 hu with rfl | hu
        · exact h'
        · exact hr u hu
      · exact fun hr u hu => hr u (List.mem_cons_of_mem _ hu)
    · rw [if_neg h]
      constructor
      · intro hc; split at hc <;> simp at hc
      · intro hr
        exfalso
        apply h
        rw [List.all_eq_true]
        intro v hv
        rw [decide_eq_true_eq]
        exact hr t (by simp) v (List.mem_append.1 hv)

theorem checkInputs_err (outs : List Atom) (ts : List TaskSpec) (h : ∀ t ∈ ts, t.hasType = true)
    (hn : checkInputs outs ts ≠ .ok ()) : checkInputs outs ts = .error .config := by
  induction ts with
  | nil => exact absurd rfl hn
  | cons t ts ih =>
    simp only [checkInputs] at hn ⊢
    split
    · rename_i hc
      rw [if_pos hc] at hn
      exact ih (fun u hu => h u (by simp [hu])) hn
    · rw [if_pos (h t (by simp))]

/-- Acceptance without any hypothesis, in terms of the values as written. -/
theorem validate_ok (ts : List TaskSpec) : validateInputs ts = .ok () ↔
    (ts.flatMap fun t => outValues t.out).Nodup ∧
      ∀ t ∈ ts, ∀ k, k ∈ named t.inp ∨ k ∈ named t.req → ∃ u ∈ ts, k ∈ outValues u.out := by
  unfold validateInputs
  by_cases h : hasDuplicate (ts.flatMap fun t => outValues t.out) = true
  · rw [if_pos h]
    have : ¬ (ts.flatMap fun t => outValues t.out).Nodup := by
      rw [← hasDuplicate_iff, h]; simp
    simp [this]
  · rw [if_neg h]
    rw [Bool.not_eq_true, hasDuplicate_iff] at h
    rw [checkInputs_ok]
    simp only [List.mem_flatMap]
    exact ⟨fun hr => ⟨h, hr⟩, fun hr => hr.2⟩

theorem named_of_not_null {v : Val} (h : v ≠ .one .null) : outValues v = named v := by
  cases v with
  | one a => cases a with
    | null => exact absurd rfl h
    | _ => rfl
  | _ => rfl

theorem wiring_iff (ts : List TaskSpec) (hnull : ∀ t ∈ ts, t.out ≠ .one .null) :
    validateInputs ts = .ok () ↔ WiringOk ts := by
  rw [validate_ok, List.nodup_flatMap]
  unfold WiringOk
  have e : ∀ t ∈ ts, outValues t.out = named t.out := fun t ht => named_of_not_null (hnull t ht)
  constructor
  · rintro ⟨⟨h1, h2⟩, h3⟩
    refine ⟨fun t ht => by rw [← e t ht]; exact h1 t ht, ?_, ?_⟩
    · refine List.Pairwise.imp_of_mem ?_ h2
      intro t u ht hu hd k hk hk'
      rw [← e t ht] at hk
      rw [← e u hu] at hk'
      exact hd hk hk'
    · intro t ht k hk
      obtain ⟨u, hu, hk'⟩ := h3 t ht k hk
      exact ⟨u, hu, by rw [← e u hu]; exact hk'⟩
  · rintro ⟨h1, h2, h3⟩
    refine ⟨⟨fun t ht => by rw [e t ht]; exact h1 t ht, ?_⟩, ?_⟩
    · refine List.Pairwise.imp_of_mem ?_ h2
      intro t u ht hu hd k hk hk'
      simp only [e t ht, e u hu] at hk hk'
      exact hd k hk hk'
    · intro t ht k hk
      obtain ⟨u, hu, hk'⟩ := h3 t ht k hk
      exact ⟨u, hu, by rw [e u hu]; exact hk'⟩

/-- **C25.** Validation accepts a task list exactly when the wiring is right, and raises a configuration
error otherwise. Missing from the full statement: tasks that say `out: null` outright (see
`C25_null_output_violated`); tasks without a `type` get a configuration error only if their own inputs
are right (see `C25_no_type_violated`). -/
theorem C25_validation_partial (ts : List TaskSpec) (hnull : ∀ t ∈ ts, t.out ≠ .one .null)
    (htype : ∀ t ∈ ts, t.hasType = true) :
    (WiringOk ts → validateInputs ts = .ok ()) ∧
      (¬ WiringOk ts → validateInputs ts = .error .config) := by
  refine ⟨(wiring_iff ts hnull).2, fun h => ?_⟩
  have hne : validateInputs ts ≠ .ok () := fun hc => h ((wiring_iff ts hnull).1 hc)
  unfold validateInputs at hne ⊢
  split
  · rfl
  · rename_i hd
    rw [if_neg hd] at hne
    exact checkInputs_err _ _ htype hne

/-- A task for the examples: any number of arguments. -/
def exTask (inp out req : Val) : TaskSpec :=
  ⟨true, inp, out, req, ⟨0, 0, true⟩, ⟨0, 0, true⟩, none, true, none, 0⟩

example : validateInputs [exTask .absent (.one (.str "a")) .absent,
    exTask (.one (.str "a")) (.many [.str "b", .str "c"]) .absent,
    exTask (.many [.str "b", .str "c"]) .absent (.one (.str "a"))] = .ok () := by decide
example : validateInputs [exTask .absent (.one (.str "a")) .absent,
    exTask (.one (.str "b")) .absent .absent] = .error .config := by decide

/-! ## The tasks that are set up -/

theorem addTask_ok {t : TaskSpec} {c : Cfg} (h : addTask t = .ok c) :
    t.hasType = true ∧ setupKeys t = some c := by
  unfold addTask at h
  split at h
  · simp at h
  · split at h
    · simp at h
    · rename_i hb
      cases hs : setupKeys t with
      | none => rw [hs] at h; simp at h
      | some d =>
        rw [hs] at h
        simp only [Except.ok.injEq] at h
        subst h
        exact ⟨by simpa using hb, rfl⟩

theorem addTasks_ok {ts : List TaskSpec} {cs : List Cfg} (h : addTasks ts = .ok cs) :
    List.Forall₂ (fun t c => t.hasType = true ∧ setupKeys t = some c) ts cs := by
  induction ts generalizing cs with
  | nil =>
    simp only [addTasks, Except.ok.injEq] at h
    subst h
    exact List.Forall₂.nil
  | cons t ts ih =>
    simp only [addTasks] at h
    cases ht : addTask t with
    | error e => rw [ht] at h; simp at h
    | ok c =>
      rw [ht] at h
      simp only at h
      cases hr : addTasks ts with
      | error e => rw [hr] at h; simp at h
      | ok cs' =>
        rw [hr] at h
        simp only [Except.ok.injEq] at h
        subst h
        exact List.Forall₂.cons (addTask_ok ht) (ih hr)

theorem mapM_asKey (l : List Atom) (ks : List Key) (h : l.mapM asKey = some ks) :
    l = ks.map Atom.str := by
  induction l generalizing ks with
  | nil =>
    simp only [List.mapM_nil, pure, Option.some.injEq] at h
    subst h; rfl
  | cons a l ih =>
    simp only [List.mapM_cons, Option.bind_eq_bind, Option.bind_eq_some_iff, pure,
      Option.some.injEq] at h
    obtain ⟨k, hk, ks', hks, rfl⟩ := h
    cases a with
    | str s =>
      simp only [asKey, Option.some.injEq] at hk
      subst hk
      simp [ih ks' hks]
    | _ => simp [asKey] at hk

theorem formatKeys_named {v : Val} {ks : List Key} {b : Bool} (h : formatKeys v = some (ks, b)) :
    named v = ks.map Atom.str ∧ (b = true → ks.length = 1) := by
  cases v with
  | absent =>
    simp only [formatKeys, Option.some.injEq, Prod.mk.injEq] at h
    obtain ⟨rfl, rfl⟩ := h
    simp [named]
  | one a =>
    cases a with
    | null =>
      simp only [formatKeys, Option.some.injEq, Prod.mk.injEq] at h
      obtain ⟨rfl, rfl⟩ := h
      simp [named]
    | str s =>
      simp only [formatKeys, asKey, Option.map_some, Option.some.injEq, Prod.mk.injEq] at h
      obtain ⟨rfl, rfl⟩ := h
      simp [named]
    | other n => simp [formatKeys, asKey] at h
  | many l =>
    simp only [formatKeys, Option.map_eq_some_iff, Prod.mk.injEq] at h
    obtain ⟨ks', hk, rfl, rfl⟩ := h
    exact ⟨mapM_asKey l ks' hk, by simp⟩

/-- What a successful `_setup_keys` means. -/
theorem setupKeys_ok {t : TaskSpec} {c : Cfg} (h : setupKeys t = some c) :
    named t.req = c.reqKeys.map Atom.str ∧ named t.inp = c.inKeys.map Atom.str ∧
      named t.out = c.outKeys.map Atom.str ∧ (c.bareOut = true → c.outKeys.length = 1) ∧
      arityOk t.setup c.reqKeys.length = true ∧ arityOk t.next c.inKeys.length = true ∧
      t.userValidate = true := by
  unfold setupKeys at h
  simp only [Option.bind_eq_bind, Option.bind_eq_some_iff] at h
  obtain ⟨r, hr, i, hi, o, ho, h⟩ := h
  obtain ⟨r1, r2⟩ := r
  obtain ⟨i1, i2⟩ := i
  obtain ⟨o1, o2⟩ := o
  split at h
  · simp at h
  split at h
  · simp at h
  split at h
  · simp at h
  rename_i a1 a2 a3
  simp only [Option.some.injEq] at h
  subst h
  refine ⟨(formatKeys_named hr).1, (formatKeys_named hi).1, (formatKeys_named ho).1,
    (formatKeys_named ho).2, by simpa using a1, by simpa using a2, by simpa using a3⟩

theorem named_sub (v : Val) (a : Atom) (h : a ∈ named v) : a ∈ outValues v := by
  cases v with
  | one a => cases a <;> simp_all [named, outValues]
  | _ => exact h

theorem forall₂_exists_left {β γ : Type} {R : β → γ → Prop} {l : List β} {m : List γ}
    (h : List.Forall₂ R l m) (c : γ) (hc : c ∈ m) : ∃ t ∈ l, R t c := by
  induction h with
  | nil => simp at hc
  | cons h1 _ ih =>
    rcases List.mem_cons.1 hc with rfl | hc
    · exact ⟨_, by simp, h1⟩
    · obtain ⟨t, ht, hr⟩ := ih hc
      exact ⟨t, by simp [ht], hr⟩

theorem forall₂_exists_right {β γ : Type} {R : β → γ → Prop} {l : List β} {m : List γ}
    (h : List.Forall₂ R l m) (t : β) (ht : t ∈ l) : ∃ c ∈ m, R t c := by
  induction h with
  | nil => simp at ht
  | cons h1 _ ih =>
    rcases List.mem_cons.1 ht with rfl | ht
    · exact ⟨_, by simp, h1⟩
    · obtain ⟨c, hc, hr⟩ := ih ht
      exact ⟨c, by simp [hc], hr⟩

theorem pairwise_forall₂ {β γ : Type} {R : β → γ → Prop} {P : β → β → Prop} {Q : γ → γ → Prop}
    {l : List β} {m : List γ} (h : List.Forall₂ R l m) (hp : l.Pairwise P)
    (hpq : ∀ t c u d, R t c → R u d → P t u → Q c d) : m.Pairwise Q := by
  induction h with
  | nil => exact List.Pairwise.nil
  | cons h1 h2 ih =>
    rw [List.pairwise_cons] at hp ⊢
    refine ⟨fun d hd => ?_, ih hp.2⟩
    obtain ⟨u, hu, hr⟩ := forall₂_exists_left h2 d hd
    exact hpq _ _ _ _ h1 hr (hp.1 u hu)

/-- **C25.** Whatever is set up without an error is rightly wired: no product key has two producers,
every key a task waits for has one, the number of keys fits the arguments of the hooks. -/
theorem C25_setup_sound (ts : List TaskSpec) (cfgs : List Cfg) (h : setupTasks ts = .ok cfgs) :
    ConnectedCfgs cfgs ∧ WellFormed cfgs ∧ cfgs.length = ts.length ∧
      ∀ (i : Nat) (t : TaskSpec) (c : Cfg), ts[i]? = some t → cfgs[i]? = some c →
        t.setup.args ≤ c.reqKeys.length + t.setup.defaults ∧
        t.next.args ≤ c.inKeys.length + t.next.defaults ∧
        (c.reqKeys.length ≤ t.setup.args ∨ t.setup.varargs = true) ∧
        (c.inKeys.length ≤ t.next.args ∨ t.next.varargs = true) := by
  unfold setupTasks at h
  cases hv : validateInputs ts with
  | error e => rw [hv] at h; simp at h
  | ok u =>
    rw [hv] at h
    simp only at h
    have hf := addTasks_ok h
    obtain ⟨hnd, hin⟩ := (validate_ok ts).1 (by rw [hv])
    rw [List.nodup_flatMap] at hnd
    have hinj : ∀ a b : Key, Atom.str a = Atom.str b → a = b := fun a b hab => by simpa using hab
    have hsub : ∀ t c, t.hasType = true ∧ setupKeys t = some c → ∀ k, k ∈ c.outKeys →
        Atom.str k ∈ outValues t.out := by
      intro t c hc k hk
      apply named_sub
      rw [(setupKeys_ok hc.2).2.2.1]
      exact List.mem_map_of_mem hk
    refine ⟨⟨?_, ?_, ?_⟩, ?_, hf.length_eq.symm, ?_⟩
    · intro c hc
      obtain ⟨t, ht, hr⟩ := forall₂_exists_left hf c hc
      have h1 := (setupKeys_ok hr.2).2.2.1
      have h2 := hnd.1 t ht
      by_cases hnull : t.out = .one .null
      · rw [hnull] at h1
        have : c.outKeys = [] := by simpa [named] using h1
        rw [this]; exact List.nodup_nil
      · rw [named_of_not_null hnull, h1] at h2
        exact List.Nodup.of_map _ h2
    · refine pairwise_forall₂ hf hnd.2 ?_
      intro t c u d hr hr' hd k hk hk'
      exact hd (hsub t c hr k hk) (hsub u d hr' k hk')
    · intro c hc k hk
      obtain ⟨t, ht, hr⟩ := forall₂_exists_left hf c hc
      have hk' : Atom.str k ∈ named t.inp ∨ Atom.str k ∈ named t.req := by
        rcases hk with hk | hk
        · left; rw [(setupKeys_ok hr.2).2.1]; exact List.mem_map_of_mem hk
        · right; rw [(setupKeys_ok hr.2).1]; exact List.mem_map_of_mem hk
      obtain ⟨u, hu, hku⟩ := hin t ht _ hk'
      obtain ⟨d, hd, hr'⟩ := forall₂_exists_right hf u hu
      refine ⟨d, hd, ?_⟩
      have hkn : Atom.str k ∈ named u.out := by
        by_cases hnull : u.out = .one .null
        · rw [hnull] at hku; simp [outValues] at hku
        · rw [← named_of_not_null hnull]; exact hku
      rw [(setupKeys_ok hr'.2).2.2.1, List.mem_map] at hkn
      obtain ⟨k', hk', e⟩ := hkn
      rw [← hinj _ _ e]; exact hk'
    · intro c hc hb
      obtain ⟨t, ht, hr⟩ := forall₂_exists_left hf c hc
      exact (setupKeys_ok hr.2).2.2.2.1 hb
    · intro i t c hi hc
      have hr := (List.forall₂_iff_get.1 hf).2
      obtain ⟨h1, e1⟩ := List.getElem?_eq_some_iff.1 hi
      obtain ⟨h2, e2⟩ := List.getElem?_eq_some_iff.1 hc
      have := hr i h1 h2
      simp only [List.get_eq_getElem, e1, e2] at this
      obtain ⟨-, -, -, -, a1, a2, -⟩ := setupKeys_ok this.2
      unfold arityOk at a1 a2
      simp only [Bool.and_eq_true, Bool.not_eq_true', decide_eq_false_iff_not, Bool.or_eq_true,
        decide_eq_true_eq] at a1 a2
      refine ⟨by omega, by omega, a1.2, a2.2⟩

example : setupTasks [exTask .absent (.one (.str "a")) .absent,
    exTask (.one (.str "a")) .absent (.one (.str "a"))] =
    .ok [⟨[], [], ["a"], true, none, 0⟩, ⟨["a"], ["a"], [], false, none, 0⟩] := by decide

/-- The keys of a task are names, their number fits the arguments of its hooks, and its own check accepts it. -/
def Fits (t : TaskSpec) : Prop :=
  (∀ a, a ∈ named t.req ∨ a ∈ named t.inp ∨ a ∈ named t.out → ∃ s, a = .str s) ∧
  (t.setup.args ≤ (named t.req).length + t.setup.defaults ∧ ((named t.req).length ≤ t.setup.args ∨ t.setup.varargs = true)) ∧
  (t.next.args ≤ (named t.inp).length + t.next.defaults ∧ ((named t.inp).length ≤ t.next.args ∨ t.next.varargs = true)) ∧
  t.userValidate = true

theorem mapM_strs (l : List Atom) (h : ∀ a ∈ l, ∃ s, a = .str s) : ∃ ks, l.mapM asKey = some ks := by
  induction l with
  | nil => exact ⟨[], rfl⟩
  | cons a l ih =>
    obtain ⟨s, rfl⟩ := h a (by simp)
    obtain ⟨ks, hk⟩ := ih fun b hb => h b (by simp [hb])
    exact ⟨s :: ks, by simp [List.mapM_cons, asKey, hk]⟩

theorem formatKeys_strs (v : Val) (h : ∀ a ∈ named v, ∃ s, a = .str s) : ∃ ks b, formatKeys v = some (ks, b) := by
  cases v with
  | absent => exact ⟨_, _, rfl⟩
  | one a =>
    cases a with
    | null => exact ⟨_, _, rfl⟩
    | str s => exact ⟨_, _, rfl⟩
    | other n =>
      obtain ⟨s, hs⟩ := h (.other n) (by simp [named])
      cases hs
  | many l =>
    obtain ⟨ks, hk⟩ := mapM_strs l h
    exact ⟨ks, false, by simp [formatKeys, hk]⟩

theorem arityOk_iff (a : Arity) (n : Nat) : arityOk a n = true ↔ a.args ≤ n + a.defaults ∧ (n ≤ a.args ∨ a.varargs = true) := by
  unfold arityOk
  simp only [Bool.and_eq_true, Bool.not_eq_true', decide_eq_false_iff_not, Bool.or_eq_true, decide_eq_true_eq]
  constructor
  · rintro ⟨h1, h2⟩
    exact ⟨by omega, h2⟩
  · rintro ⟨h1, h2⟩
    exact ⟨by omega, h2⟩

theorem setupKeys_iff (t : TaskSpec) : (∃ c, setupKeys t = some c) ↔ Fits t := by
  constructor
  · rintro ⟨c, hc⟩
    obtain ⟨h1, h2, h3, -, h4, h5, h6⟩ := setupKeys_ok hc
    rw [arityOk_iff] at h4 h5
    refine ⟨fun a ha => ?_, ?_, ?_, h6⟩
    · rw [h1, h2, h3] at ha
      simp only [List.mem_map] at ha
      rcases ha with ⟨s, -, rfl⟩ | ⟨s, -, rfl⟩ | ⟨s, -, rfl⟩ <;> exact ⟨s, rfl⟩
    · rw [h1, List.length_map]
      exact h4
    · rw [h2, List.length_map]
      exact h5
  · rintro ⟨h1, h2, h3, h4⟩
    obtain ⟨r, rb, hr⟩ := formatKeys_strs t.req fun a ha => h1 a (.inl ha)
    obtain ⟨i, ib, hi⟩ := formatKeys_strs t.inp fun a ha => h1 a (.inr (.inl ha))
    obtain ⟨o, ob, ho⟩ := formatKeys_strs t.out fun a ha => h1 a (.inr (.inr ha))
    rw [(formatKeys_named hr).1, List.length_map, ← arityOk_iff] at h2
    rw [(formatKeys_named hi).1, List.length_map, ← arityOk_iff] at h3
    exact ⟨_, by simp [setupKeys, hr, hi, ho, h2, h3, h4]; rfl⟩

theorem addTasks_iff (ts : List TaskSpec) (htype : ∀ t ∈ ts, t.hasType = true ∧ t.build = none) :
    ((∀ t ∈ ts, Fits t) → ∃ cfgs, addTasks ts = .ok cfgs) ∧ ((¬ ∀ t ∈ ts, Fits t) → addTasks ts = .error .config) := by
  induction ts with
  | nil => exact ⟨fun _ => ⟨[], rfl⟩, fun h => absurd (by simp) h⟩
  | cons t ts ih =>
    obtain ⟨i1, i2⟩ := ih fun u hu => htype u (by simp [hu])
    obtain ⟨h1, h2⟩ := htype t (by simp)
    have hadd : addTask t = match setupKeys t with
        | none => .error .config
        | some c => .ok c := by
      unfold addTask
      rw [h2, h1]
      rfl
    unfold addTasks
    rw [hadd]
    cases hk : setupKeys t with
    | none =>
      refine ⟨fun h => ?_, fun _ => rfl⟩
      obtain ⟨c, hc⟩ := (setupKeys_iff t).2 (h t (by simp))
      rw [hk] at hc
      cases hc
    | some c =>
      have ht := (setupKeys_iff t).1 ⟨c, hk⟩
      constructor
      · intro h
        obtain ⟨cs, hcs⟩ := i1 fun u hu => h u (by simp [hu])
        exact ⟨c :: cs, by simp only [hcs]⟩
      · intro h
        have : ¬ ∀ u ∈ ts, Fits u := fun hall => h (by
          intro u hu
          rcases List.mem_cons.1 hu with rfl | hu
          · exact ht
          · exact hall u hu)
        simp only [i2 this]

/-- **C25.** Tasks that can be made are set up exactly if the wiring is right, all keys are names, their numbers fit the arguments of
the hooks (which need not be given if they have defaults), and the tasks accept it; otherwise there is a configuration error. Missing:
`out: null` and tasks without a type, as in `C25_validation_partial`. -/
theorem C25_setup_exact_partial (ts : List TaskSpec) (hnull : ∀ t ∈ ts, t.out ≠ .one .null)
    (htype : ∀ t ∈ ts, t.hasType = true ∧ t.build = none) :
    ((∃ cfgs, setupTasks ts = .ok cfgs) ↔ WiringOk ts ∧ ∀ t ∈ ts, Fits t) ∧
    ((¬ ∃ cfgs, setupTasks ts = .ok cfgs) → setupTasks ts = .error .config) := by
  obtain ⟨v1, v2⟩ := C25_validation_partial ts hnull fun t ht => (htype t ht).1
  obtain ⟨a1, a2⟩ := addTasks_iff ts htype
  unfold setupTasks
  by_cases hw : WiringOk ts
  · rw [v1 hw]
    simp only
    by_cases hf : ∀ t ∈ ts, Fits t
    · exact ⟨⟨fun _ => ⟨hw, hf⟩, fun _ => a1 hf⟩, fun h => absurd (a1 hf) h⟩
    · rw [a2 hf]
      exact ⟨⟨fun ⟨_, h⟩ => (by cases h), fun h => absurd h.2 hf⟩, fun _ => rfl⟩
  · rw [v2 hw]
    exact ⟨⟨fun ⟨_, h⟩ => (by cases h), fun h => absurd h.1 hw⟩, fun _ => rfl⟩

/-- A hook with an argument that has a default and is not given. -/
example : Fits { exTask .absent (.one (.str "a")) .absent with setup := ⟨1, 1, false⟩ } ∧
    ¬ Fits { exTask .absent (.one (.str "a")) .absent with setup := ⟨1, 0, false⟩ } := by
  constructor
  · refine ⟨fun a ha => ?_, by simp [exTask, named], by simp [exTask, named], rfl⟩
    simp [exTask, named] at ha
    exact ⟨_, ha⟩
  · rintro ⟨-, h, -⟩
    simp [exTask, named] at h

/-- **C25.** No hook of any task runs unless the wiring is right: in a run that is started at all every
key a task consumes is produced by a task. -/
theorem C25_before_any_hook {α : Type} (keyOk : Key → Bool) (ts : List TaskSpec) (ρ : Nat → Ret α)
    (n : Nat) (log : List (Event α)) (hnull : ∀ t ∈ ts, t.out ≠ .one .null)
    (h : launch keyOk ts ρ n = .ok log) : WiringOk ts := by
  rw [← wiring_iff ts hnull]
  unfold launch setupTasks at h
  cases hv : validateInputs ts with
  | error e => rw [hv] at h; simp at h
  | ok u => rfl

example : launch (fun _ => true) [exTask .absent (.one (.str "a")) .absent,
    exTask (.one (.str "a")) .absent .absent] (fun _ => (Ret.none : Ret Nat)) 1 =
    .ok [⟨0, .setup, [], .none⟩] := by rfl

/-- `out: null` means no output, but two tasks that say so are rejected as producing the same key. -/
theorem C25_null_output_violated : ∃ ts : List TaskSpec, WiringOk ts ∧
    (∀ t ∈ ts, t.hasType = true) ∧ validateInputs ts = .error .config := by
  refine ⟨[exTask .absent (.one .null) .absent, exTask .absent (.one .null) .absent], ?_, ?_, ?_⟩
  · simp [WiringOk, exTask, named]
  · simp [exTask]
  · decide

/-- A task without a `type` and with an unknown input ends in a `KeyError` raised by the formatting of
the message, not in a configuration error. -/
theorem C25_no_type_violated : ∃ ts : List TaskSpec, ¬ WiringOk ts ∧
    (∀ t ∈ ts, t.out ≠ .one .null) ∧ validateInputs ts = .error .keyError := by
  refine ⟨[{ exTask (.one (.str "a")) .absent .absent with hasType := false }], ?_, ?_, ?_⟩
  · simp [WiringOk, exTask, named]
  · simp [exTask]
  · decide

/-- The message speaks of "another task", but a task may consume its own output. -/
theorem C25_own_output_accepted : setupTasks [exTask (.one (.str "a")) (.one (.str "a")) .absent] =
    .ok [⟨[], ["a"], ["a"], true, none, 0⟩] := by decide

end Verif.Pipe
