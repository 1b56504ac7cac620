import Verif.Build.Props

/-!
# C84: documents, options of the pipeline, and the environment in which they are checked
-/
namespace Verif.Build

open Verif.Config (Val Cfg Class Obj Decl Compare getAttr MostDerived readConfig readAll truth)

/-! ### Lemmas -/

theorem fromYaml_ok (W : World) (lint : Bool) (doc : Doc) (m : Manager) (h : fromYaml W lint doc = .ok m) :
    ∃ d p, doc.val = .dict d ∧ d.lookup "pipeline" = some (.dict p) ∧ readConfig [managerClass W] (fun _ => none) p = (m.obj, none) ∧ finishManager W lint doc d m.obj = .ok m := by
  unfold fromYaml at h
  split at h
  · rename_i d hd
    split at h
    · cases h
    · rename_i p hp
      simp only at h
      split at h
      · cases h
      · rename_i hr
        have hobj : m.obj = (readConfig [managerClass W] (fun _ => none) p).1 := by
          unfold finishManager at h
          split at h
          · simp only at h
            split at h
            · cases h
            · split at h
              · cases h
              · cases h
                rfl
          all_goals cases h
        exact ⟨d, p, hd, hp, Prod.ext hobj.symm hr, by rw [hobj]; exact h⟩
    · cases h
  · cases h

theorem option_given (W : World) (p : Cfg) (o : Obj) (h : readConfig [managerClass W] (fun _ => none) p = (o, none)) (a : String) (d : Decl) (hd : MostDerived [managerClass W] a d) (v : Val)
    (hv : p.lookup (d.key.getD a) = some v) : ∃ w, d.conv v = .ok w ∧ option W o a = .ok w := by
  obtain ⟨w, h1, h2⟩ := Config.C26_value [managerClass W] _ o p _ _ h a d hd v hv
  exact ⟨w, h1, by rw [option, h2]⟩

theorem option_absent (W : World) (p : Cfg) (o : Obj) (h : readConfig [managerClass W] (fun _ => none) p = (o, none)) (a : String) (d : Decl) (hd : MostDerived [managerClass W] a d)
    (huniq : ∀ x ∈ managerClass W, x.1 = a → x.2.key = d.key) (hv : p.lookup (d.key.getD a) = none) :
    option W o a = match d.default with
      | none => .ok .none
      | some v => d.conv v := by
  have h1 := Config.C26_default_partial [managerClass W] (fun _ => none) p (.flag false) true a d hd rfl (by
    intro x hx hxa
    rw [huniq x (by simpa using hx) hxa]
    exact hv)
  rw [h] at h1
  rw [option, show getAttr [managerClass W] o a = _ from h1]
  rfl

/-- The value of a switch. -/
def switch (p : Cfg) (k : String) (otherwise : Bool) : Bool :=
  match p.lookup k with
  | none => otherwise
  | some v => truth v

theorem option_switch (W : World) (p : Cfg) (o : Obj) (h : readConfig [managerClass W] (fun _ => none) p = (o, none)) (k : String) (b : Bool)
    (hd : MostDerived [managerClass W] k { conv := fun v => .ok (.bool (truth v)), default := some (.bool b) })
    (huniq : ∀ x ∈ managerClass W, x.1 = k → x.2.key = none) : option W o k = .ok (.bool (switch p k b)) := by
  unfold switch
  cases hv : p.lookup k with
  | none =>
    rw [option_absent W p o h k _ hd huniq (by simpa using hv)]
    rfl
  | some v =>
    obtain ⟨w, h1, h2⟩ := option_given W p o h k _ hd v (by simpa using hv)
    cases h1
    exact h2

theorem derived (W : World) (pre post : Class) (a : String) (d : Decl) (h : managerClass W = pre ++ (a, d) :: post) (hp : ∀ x ∈ post, x.1 ≠ a) : MostDerived [managerClass W] a d :=
  ⟨pre, post, by simpa using h, hp⟩

theorem finish_ok (W : World) (lint : Bool) (doc : Doc) (d : Cfg) (o : Obj) (m : Manager) (h : finishManager W lint doc d o = .ok m) :
    ∃ vs save levels specs ss, option W o "versions" = .ok vs ∧ option W o "save_config" = .ok save ∧ setLevels W lint o = .ok levels ∧ option W o "task_specs" = .ok (.list specs) ∧
      specsOf doc.lines 0 specs = .ok ss ∧ m.base = [("versions", vs), ("pipeline_config", if truth save then doc.val else .none)] ∧ m.levels = levels ∧ m.keyMatch = defaultPattern ∧
      W.valid ss = none ∧ buildAll W d m.base ss = .ok m.tasks := by
  unfold finishManager at h
  split at h
  · rename_i vs save levels specs h1 h2 h3 h4
    simp only at h
    cases h5 : specsOf doc.lines 0 specs with
    | error e => rw [h5] at h; cases h
    | ok ss =>
      rw [h5] at h
      simp only at h
      unfold setupTasks at h
      cases h6 : W.valid ss with
      | some e => rw [h6] at h; cases h
      | none =>
        rw [h6] at h
        simp only at h
        cases h7 : buildAll W d [("versions", vs), ("pipeline_config", if truth save then doc.val else .none)] ss with
        | error e => rw [h7] at h; cases h
        | ok ts =>
          rw [h7] at h
          cases h
          exact ⟨vs, save, levels, specs, ss, h1, h2, h3, h4, h5, rfl, rfl, rfl, h6, h7⟩
  all_goals cases h

theorem specsOf_ok (lines : Nat → Option Nat × Option Nat) (i : Nat) (vs : List Val) (ss : List Spec) (h : specsOf lines i vs = .ok ss) :
    List.Forall₂ (fun v (s : Spec) => v = .dict s.entries) vs ss := by
  induction vs generalizing i ss with
  | nil => cases h; exact .nil
  | cons v vs ih =>
    cases v with
    | dict d =>
      rw [specsOf] at h
      cases h1 : specsOf lines (i + 1) vs with
      | error e => rw [h1] at h; cases h
      | ok ss' =>
        rw [h1] at h
        cases h
        exact .cons rfl (ih _ _ h1)
    | _ => simp [specsOf] at h

theorem forall_trans {α β γ : Type} {R : α → β → Prop} {S : β → γ → Prop} {T : α → γ → Prop} (h : ∀ a b c, R a b → S b c → T a c) {as : List α} {bs : List β} {cs : List γ}
    (h1 : List.Forall₂ R as bs) (h2 : List.Forall₂ S bs cs) : List.Forall₂ T as cs := by
  induction h1 generalizing cs with
  | nil => cases h2; exact .nil
  | cons hr _ ih =>
    cases h2 with
    | cons hs h2 => exact .cons (h _ _ _ hr hs) (ih h2)

/-! ### The document -/

/-- **C84** A document that is accepted is a mapping with a mapping `pipeline`, and the switches of the pipeline are as given there, or else off, except for `save_config`. -/
theorem C84_switches (W : World) (lint : Bool) (doc : Doc) (m : Manager) (h : fromYaml W lint doc = .ok m) :
    ∃ d p, doc.val = .dict d ∧ d.lookup "pipeline" = some (.dict p) ∧ option W m.obj "interactive" = .ok (.bool (switch p "interactive" false)) ∧
      option W m.obj "enable_breakpoints" = .ok (.bool (switch p "enable_breakpoints" false)) ∧ option W m.obj "save_config" = .ok (.bool (switch p "save_config" true)) := by
  obtain ⟨d, p, h1, h2, h3, h4⟩ := fromYaml_ok W lint doc m h
  refine ⟨d, p, h1, h2, option_switch W p m.obj h3 _ _ ?_ (by simp [managerClass]), option_switch W p m.obj h3 _ _ ?_ (by simp [managerClass]), option_switch W p m.obj h3 _ _ ?_ (by simp [managerClass])⟩
  · exact derived W [_, _, _] [_, _, _] _ _ rfl (by simp)
  · exact derived W [_, _, _, _] [_, _] _ _ rfl (by simp)
  · exact derived W [_, _, _, _, _, _] [] _ _ rfl (by simp)

/-- **C84** The tasks of a pipeline are made (C83) from the entries of its list `tasks`, in this order, with the groups of parameters of the document; without such a list there are none. -/
theorem C84_tasks (W : World) (hg : ∀ n t, W.globals n = some t → t = .other) (lint : Bool) (doc : Doc) (m : Manager) (h : fromYaml W lint doc = .ok m) :
    ∃ d p, doc.val = .dict d ∧ d.lookup "pipeline" = some (.dict p) ∧ (p.lookup "tasks" = none → m.tasks = []) ∧
      ∀ vs, p.lookup "tasks" = some (.list vs) → List.Forall₂ (fun v t => ∃ s : Spec, v = .dict s.entries ∧ Made W d m.base s t) vs m.tasks := by
  obtain ⟨d, p, h1, h2, h3, h4⟩ := fromYaml_ok W lint doc m h
  obtain ⟨vs, save, levels, specs, ss, _, _, _, f4, f5, _, _, _, _, f10⟩ := finish_ok W lint doc d m.obj m h4
  have hd : MostDerived [managerClass W] "task_specs" { key := some "tasks", conv := pyList, default := some (.list []) } := derived W [_] [_, _, _, _, _] _ _ rfl (by simp)
  refine ⟨d, p, h1, h2, fun habs => ?_, fun vs hvs => ?_⟩
  · have := option_absent W p m.obj h3 "task_specs" _ hd (by simp [managerClass]) habs
    rw [f4] at this
    cases this
    cases f5
    exact (Except.ok.inj f10).symm
  · obtain ⟨w, hw, hw'⟩ := option_given W p m.obj h3 "task_specs" _ hd (.list vs) hvs
    cases hw
    rw [f4] at hw'
    cases hw'
    exact forall_trans (fun v s t hv ht => ⟨s, hv, ht⟩) (specsOf_ok _ _ _ _ f5) (C83_tasks W hg d m.base ss m.tasks f10)

theorem versionsOf_ok (W : World) (l : List Val) (r : Cfg) (h : versionsOf W l = .ok r) :
    ∃ names : List String, l = names.map .str ∧ (∀ n ∈ names, ∃ v, W.version n = .ok (some v) ∧ r.lookup n = some (.str v)) ∧ ∀ n, n ∉ names → r.lookup n = none := by
  induction l generalizing r with
  | nil => cases h; exact ⟨[], rfl, by simp, by simp⟩
  | cons x l ih =>
    cases x with
    | str n =>
      rw [versionsOf] at h
      split at h
      · cases h
      · cases h
      · cases h
      · rename_i v hv
        cases h1 : versionsOf W l with
        | error e => rw [h1] at h; cases h
        | ok r' =>
          rw [h1] at h
          cases h
          obtain ⟨names, hn, ha, hb⟩ := ih r' h1
          refine ⟨n :: names, by rw [hn]; rfl, ?_, ?_⟩
          · intro q hq
            by_cases hin : q ∈ names
            · obtain ⟨w, hw, hw'⟩ := ha q hin
              exact ⟨w, hw, by rw [merge_lookup, hw']; rfl⟩
            · have hqn : q = n := by
                rcases List.mem_cons.1 hq with h | h
                · exact h
                · exact absurd h hin
              subst hqn
              exact ⟨v, hv, by rw [merge_lookup, hb q hin]; simp [List.lookup]⟩
          · intro q hq
            simp only [List.mem_cons, not_or] at hq
            rw [merge_lookup, hb q hq.2]
            simp [List.lookup, beq_eq_false_iff_ne.2 hq.1]
    | _ => simp [versionsOf] at h

/-- **C84** All tasks are given the versions of exactly the modules named, and the whole document unless this is switched off. -/
theorem C84_given (W : World) (lint : Bool) (doc : Doc) (m : Manager) (h : fromYaml W lint doc = .ok m) :
    ∃ d p, doc.val = .dict d ∧ d.lookup "pipeline" = some (.dict p) ∧ m.base.lookup "pipeline_config" = some (if switch p "save_config" true then doc.val else .none) ∧
      ∃ vs, m.base.lookup "versions" = some (.dict vs) ∧
        ∀ names : List String, (p.lookup "save_versions" = none ∧ names = [] ∨ (∃ n, p.lookup "save_versions" = some (.str n) ∧ names = [n]) ∨ p.lookup "save_versions" = some (.list (names.map .str))) →
          (∀ n ∈ names, ∃ v, W.version n = .ok (some v) ∧ vs.lookup n = some (.str v)) ∧ ∀ n, n ∉ names → vs.lookup n = none := by
  obtain ⟨d, p, h1, h2, h3, h4⟩ := fromYaml_ok W lint doc m h
  obtain ⟨vs, save, levels, specs, ss, f1, f2, f3, f4, f5, f6, f7, f8, f9, f10⟩ := finish_ok W lint doc d m.obj m h4
  have hsave := option_switch W p m.obj h3 "save_config" true (derived W [_, _, _, _, _, _] [] _ _ rfl (by simp)) (by simp [managerClass])
  have hd : MostDerived [managerClass W] "versions" { key := some "save_versions", conv := getVersions W, default := some (.list []) } := derived W [_, _, _, _, _] [_] _ _ rfl (by simp)
  rw [f2] at hsave
  cases hsave
  refine ⟨d, p, h1, h2, by rw [f6]; rfl, ?_⟩
  have strInj : ∀ a b : List String, a.map Val.str = b.map Val.str → a = b := fun a b hab => (List.map_inj_right (fun _ _ => Val.str.inj)).1 hab
  cases hv : p.lookup "save_versions" with
  | none =>
    have := option_absent W p m.obj h3 "versions" _ hd (by simp [managerClass]) hv
    rw [f1] at this
    cases this
    refine ⟨[], by rw [f6]; rfl, fun names hn => ?_⟩
    rcases hn with ⟨_, rfl⟩ | ⟨n, hn, _⟩ | hn
    · simp
    · cases hn
    · cases hn
  | some v =>
    obtain ⟨w, hw, hw'⟩ := option_given W p m.obj h3 "versions" _ hd v hv
    rw [f1] at hw'
    cases hw'
    simp only [getVersions] at hw
    split at hw
    · rename_i n
      cases hr : versionsOf W [.str n] with
      | error e => rw [hr] at hw; cases hw
      | ok r =>
        rw [hr] at hw
        cases hw
        obtain ⟨names, ha, hb⟩ := versionsOf_ok W _ r hr
        refine ⟨r, by rw [f6]; rfl, fun names' hn => ?_⟩
        rcases hn with ⟨hn, _⟩ | ⟨n', hn, rfl⟩ | hn
        · cases hn
        · cases hn
          have : [n] = names := strInj _ _ ha
          rw [this]
          exact hb
        · cases hn
    · rename_i l
      cases hr : versionsOf W l with
      | error e => rw [hr] at hw; cases hw
      | ok r =>
        rw [hr] at hw
        cases hw
        obtain ⟨names, ha, hb⟩ := versionsOf_ok W _ r hr
        refine ⟨r, by rw [f6]; rfl, fun names' hn => ?_⟩
        rcases hn with ⟨hn, _⟩ | ⟨n', hn, _⟩ | hn
        · cases hn
        · cases hn
        · cases hn
          rw [strInj _ _ ha]
          exact hb
    · cases hw

theorem specsOf_builds (lines : Nat → Option Nat × Option Nat) (i : Nat) (es : List Cfg) : ∃ ss, specsOf lines i (es.map .dict) = .ok ss ∧ ss.map (·.entries) = es := by
  induction es generalizing i with
  | nil => exact ⟨[], rfl, rfl⟩
  | cons e es ih =>
    obtain ⟨ss, h1, h2⟩ := ih (i + 1)
    exact ⟨⟨(lines i).1, e, (lines i).2⟩ :: ss, by rw [List.map_cons, specsOf, h1], by rw [List.map_cons, h2]⟩

/-- **C84** A pipeline is made from every document whose options can be converted, whose list of tasks has mappings only and is valid, and whose tasks can be made. -/
theorem C84_builds (W : World) (lint : Bool) (doc : Doc) (d p : Cfg) (es : List Cfg) (V : Val) (hdoc : doc.val = .dict d) (hp : d.lookup "pipeline" = some (.dict p))
    (htasks : p.lookup "tasks" = some (.list (es.map .dict))) (hup : W.upper "WARNING" = "WARNING") (hlog : ∀ v, p.lookup "logging" = some v → ∃ l, Config.loggingConv W.upper v = .ok (.dict l))
    (hver : getVersions W ((p.lookup "save_versions").getD (.list [])) = .ok V) (hvalid : ∀ ss : List Spec, ss.map (·.entries) = es → W.valid ss = none)
    (hbuild : ∀ ss : List Spec, ss.map (·.entries) = es → ∃ ts, buildAll W d [("versions", V), ("pipeline_config", if switch p "save_config" true then doc.val else .none)] ss = .ok ts) :
    ∃ m, fromYaml W lint doc = .ok m := by
  have hr : (readConfig [managerClass W] (fun _ => none) p).2 = none := by
    unfold readConfig
    have := readAll_fine p [managerClass W].flatten (fun _ => none) (by
      intro x hx v hv
      simp only [managerClass, List.flatten_cons, List.flatten_nil, List.append_nil, List.mem_cons, List.not_mem_nil, or_false] at hx
      rcases hx with rfl | rfl | rfl | rfl | rfl | rfl | rfl
      · obtain ⟨l, hl⟩ := hlog v hv
        exact ⟨_, hl⟩
      · have : v = .list (es.map .dict) := by
          exact (Option.some.inj ((show p.lookup "tasks" = some v from hv).symm.trans htasks))
        subst this
        exact ⟨_, rfl⟩
      · exact ⟨_, rfl⟩
      · exact ⟨_, rfl⟩
      · exact ⟨_, rfl⟩
      · rw [show p.lookup "save_versions" = some v from hv] at hver
        exact ⟨_, hver⟩
      · exact ⟨_, rfl⟩)
    simp only [this]
    rfl
  generalize hro : (readConfig [managerClass W] (fun _ => none) p).1 = o at *
  have h3 : readConfig [managerClass W] (fun _ => none) p = (o, none) := Prod.ext hro hr
  have hsave := option_switch W p o h3 "save_config" true (derived W [_, _, _, _, _, _] [] _ _ rfl (by simp)) (by simp [managerClass])
  have hv : option W o "versions" = .ok V := by
    have hd : MostDerived [managerClass W] "versions" { key := some "save_versions", conv := getVersions W, default := some (.list []) } := derived W [_, _, _, _, _] [_] _ _ rfl (by simp)
    cases hv : p.lookup "save_versions" with
    | none =>
      rw [option_absent W p o h3 "versions" _ hd (by simp [managerClass]) hv]
      rw [hv] at hver
      exact hver
    | some v =>
      obtain ⟨w, hw, hw'⟩ := option_given W p o h3 "versions" _ hd v hv
      rw [hv] at hver
      rw [hw', ← hw]
      exact hver
  have hspecs : option W o "task_specs" = .ok (.list (es.map .dict)) := by
    have hd : MostDerived [managerClass W] "task_specs" { key := some "tasks", conv := pyList, default := some (.list []) } := derived W [_] [_, _, _, _, _] _ _ rfl (by simp)
    obtain ⟨w, hw, hw'⟩ := option_given W p o h3 "task_specs" _ hd _ htasks
    cases hw
    exact hw'
  have hlog' : ∃ l, option W o "logging" = .ok (.dict l) := by
    have hd : MostDerived [managerClass W] "logging" { conv := Config.loggingConv W.upper, default := some (.dict [("root", .str "WARNING")]) } := derived W [] [_, _, _, _, _, _] _ _ rfl (by simp)
    cases hv : p.lookup "logging" with
    | none =>
      refine ⟨[("root", .str "WARNING")], ?_⟩
      rw [option_absent W p o h3 "logging" _ hd (by simp [managerClass]) hv]
      have := (Config.C27_logging W.upper).2.1 [("root", "WARNING")] (by simp [hup])
      simpa [hup] using this
    | some v =>
      obtain ⟨w, hw, hw'⟩ := option_given W p o h3 "logging" _ hd v hv
      obtain ⟨l, hl⟩ := hlog v hv
      exact ⟨l, by rw [hw', ← hw]; exact hl⟩
  obtain ⟨l, hl⟩ := hlog'
  have hlev : ∃ levels, setLevels W lint o = .ok levels := by
    unfold setLevels
    rw [hl]
    simp only
    split
    · split
      · exact ⟨_, rfl⟩
      · exact ⟨_, rfl⟩
    · exact ⟨_, rfl⟩
  obtain ⟨levels, hlev⟩ := hlev
  obtain ⟨ss, s1, s2⟩ := specsOf_builds doc.lines 0 es
  obtain ⟨ts, hts⟩ := hbuild ss s2
  refine ⟨⟨o, defaultPattern, levels, [("versions", V), ("pipeline_config", if switch p "save_config" true then doc.val else .none)], ts⟩, ?_⟩
  have hfrom : fromYaml W lint doc = finishManager W lint doc d o := by
    unfold fromYaml
    simp only [hdoc, hp, h3]
  rw [hfrom]
  unfold finishManager
  have hts' : buildAll W d [("versions", V), ("pipeline_config", if truth (.bool (switch p "save_config" true)) then doc.val else .none)] ss = .ok ts := hts
  simp only [hv, hsave, hlev, hspecs, s1, setupTasks, hvalid ss s2, hts']
  rfl

/-! ### Levels of logging -/

theorem logging_set (W : World) (p : Cfg) (o : Obj) (h : readConfig [managerClass W] (fun _ => none) p = (o, none)) (v : Val) (hv : p.lookup "logging" = some v) :
    ∃ w, Config.loggingConv W.upper v = .ok w ∧ o "logging" = some w := by
  have h1 := (Config.readConfig_ok _ _ _ _ _ _ h).1
  change readAll p (fun _ => none) (("logging", { conv := Config.loggingConv W.upper, default := some (.dict [("root", .str "WARNING")]) }) :: (managerClass W).tail) = _ at h1
  rw [readAll] at h1
  simp only [Config.fromConfig, Config.keyOf, Option.getD_none, hv] at h1
  cases hc : Config.loggingConv W.upper v with
  | error e => rw [hc] at h1; simp at h1
  | ok w =>
    rw [hc] at h1
    simp only at h1
    refine ⟨w, rfl, ?_⟩
    have h2 := Config.readAll_other p (Config.Obj.set (fun _ => none) "logging" w) (managerClass W).tail "logging" (by simp [managerClass])
    rw [h1] at h2
    rw [show o "logging" = _ from h2]
    simp [Config.Obj.set]

theorem logging_unset (W : World) (p : Cfg) (o : Obj) (h : readConfig [managerClass W] (fun _ => none) p = (o, none)) (hv : p.lookup "logging" = none) : o "logging" = none := by
  have h1 := Config.readAll_other p (fun _ => none) [managerClass W].flatten "logging" (by
    intro x hx
    by_cases hxa : x.1 = "logging"
    · right
      simp only [managerClass, List.flatten_cons, List.flatten_nil, List.append_nil, List.mem_cons, List.not_mem_nil, or_false] at hx
      rcases hx with rfl | rfl | rfl | rfl | rfl | rfl | rfl
      · exact hv
      all_goals simp at hxa
    · exact .inl hxa)
  rw [(Config.readConfig_ok _ _ _ _ _ _ h).1] at h1
  exact h1

/-- What `_setup_logging` makes of the option. -/
theorem levels_cases (W : World) (lint : Bool) (p : Cfg) (o : Obj) (h : readConfig [managerClass W] (fun _ => none) p = (o, none)) (levels : Cfg) (hl : setLevels W lint o = .ok levels)
    (hup : W.upper "WARNING" = "WARNING") :
    (p.lookup "logging" = none → levels = [("root", .str "WARNING")]) ∧
      ∀ v l, p.lookup "logging" = some v → Config.loggingConv W.upper v = .ok (.dict l) →
        levels = if lint || !(l.map Prod.fst).contains "root" then merge [("root", .str "INFO")] l else l := by
  have hd : MostDerived [managerClass W] "logging" { conv := Config.loggingConv W.upper, default := some (.dict [("root", .str "WARNING")]) } := derived W [] [_, _, _, _, _, _] _ _ rfl (by simp)
  constructor
  · intro hv
    have h1 : option W o "logging" = .ok (.dict [("root", .str "WARNING")]) := by
      rw [option_absent W p o h "logging" _ hd (by simp [managerClass]) hv]
      have := (Config.C27_logging W.upper).2.1 [("root", "WARNING")] (by simp [hup])
      simpa [hup] using this
    unfold setLevels at hl
    rw [h1, logging_unset W p o h hv] at hl
    simp only at hl
    split at hl <;> exact (Except.ok.inj hl).symm
  · intro v l hv hc
    obtain ⟨w, hw, hw'⟩ := logging_set W p o h v hv
    rw [hc] at hw
    cases hw
    obtain ⟨w, hw, ho⟩ := option_given W p o h "logging" _ hd v hv
    have hw : w = .dict l := Except.ok.inj (hw.symm.trans hc)
    subst hw
    unfold setLevels at hl
    rw [ho, hw'] at hl
    simp only at hl
    split at hl
    · rename_i hc
      rw [if_pos hc]
      exact (Except.ok.inj hl).symm
    · rename_i hc
      rw [if_neg hc]
      exact (Except.ok.inj hl).symm

theorem lookup_map {β γ : Type} (f : β → γ) (l : List (String × β)) (k : String) : (l.map fun x => (x.1, f x.2)).lookup k = (l.lookup k).map f := by
  induction l with
  | nil => rfl
  | cons x l ih =>
    rw [List.map_cons, List.lookup_cons, List.lookup_cons, ih]
    split <;> rfl

theorem mapping_levels (W : World) (l : List (String × String)) (w : Val) (h : Config.loggingConv W.upper (.dict (l.map fun x => (x.1, .str x.2))) = .ok w) :
    w = .dict (l.map fun x => (x.1, .str (W.upper x.2))) := by
  by_cases hall : ∀ x ∈ l, W.upper x.2 ∈ ["DEBUG", "INFO", "WARNING", "ERROR", "NOTSET"]
  · rw [(Config.C27_logging W.upper).2.1 l hall] at h
    exact (Except.ok.inj h).symm
  · exfalso
    simp only [not_forall] at hall
    obtain ⟨x, hx, hno⟩ := hall
    obtain ⟨e, he⟩ := (Config.C27_logging W.upper).2.2 _ x.1 (.str x.2) (List.mem_map_of_mem (f := fun x : String × String => (x.1, Val.str x.2)) hx) (fun s hs => by cases hs; exact hno)
    rw [he] at h
    cases h

theorem root_contains {β : Type} (l : List (String × β)) (k : String) : (l.map Prod.fst).contains k = (l.lookup k).isSome := by
  rw [Bool.eq_iff_iff, List.contains_iff_mem, Option.isSome_iff_ne_none, ne_eq, lookup_none_iff, not_not]

/-- **C84** (partial) The levels of logging are those that are given for each module; the root has the level INFO if others are given, and WARNING if nothing is given at all. When a document is
only checked the root has at least the level INFO.

Missing: see `C84_lint_violated`. -/
theorem C84_levels_partial (W : World) (lint : Bool) (doc : Doc) (m : Manager) (h : fromYaml W lint doc = .ok m) (hup : W.upper "WARNING" = "WARNING") :
    ∃ d p, doc.val = .dict d ∧ d.lookup "pipeline" = some (.dict p) ∧ (p.lookup "logging" = none → m.levels = [("root", .str "WARNING")]) ∧
      (∀ s, p.lookup "logging" = some (.str s) → m.levels = [("root", .str (if lint then "INFO" else W.upper s))]) ∧
      ∀ l : List (String × String), p.lookup "logging" = some (.dict (l.map fun x => (x.1, .str x.2))) →
        (∀ k, k ≠ "root" → m.levels.lookup k = (l.lookup k).map fun s => .str (W.upper s)) ∧
        m.levels.lookup "root" = some (.str (if lint then "INFO" else ((l.lookup "root").map W.upper).getD "INFO")) := by
  obtain ⟨d, p, h1, h2, h3, h4⟩ := fromYaml_ok W lint doc m h
  obtain ⟨vs, save, levels, specs, ss, f1, f2, f3, f4, f5, f6, f7, f8, f9, f10⟩ := finish_ok W lint doc d m.obj m h4
  obtain ⟨l1, l2⟩ := levels_cases W lint p m.obj h3 levels f3 hup
  refine ⟨d, p, h1, h2, fun hn => by rw [f7, l1 hn], fun s hs => ?_, fun l hl => ?_⟩
  · obtain ⟨w, hw, _⟩ := logging_set W p m.obj h3 _ hs
    have hw' : Config.loggingConv W.upper (.str s) = .ok (.dict [("root", .str (W.upper s))]) := by
      simp only [Config.loggingConv, Config.checkLevel] at hw ⊢
      split at hw
      · rename_i hin
        rw [if_pos hin]
        rfl
      · cases hw
    rw [f7, l2 _ _ hs hw']
    cases lint <;> simp [merge]
  · obtain ⟨w, hw, _⟩ := logging_set W p m.obj h3 _ hl
    have := mapping_levels W l w hw
    subst this
    rw [f7, l2 _ _ hl hw, root_contains, lookup_map (fun s => Val.str (W.upper s))]
    have hk : ∀ k, k ≠ "root" → (merge [("root", .str "INFO")] (l.map fun x => (x.1, Val.str (W.upper x.2)))).lookup k = (l.lookup k).map fun s => .str (W.upper s) := fun k hk => by
      rw [merge_lookup, lookup_map (fun s => Val.str (W.upper s))]
      simp [List.lookup, beq_eq_false_iff_ne.2 hk]
    have hr : (merge [("root", .str "INFO")] (l.map fun x => (x.1, Val.str (W.upper x.2)))).lookup "root" = some (.str "INFO") := by
      rw [merge_lookup]
      simp [List.lookup]
    cases lint with
    | true => simpa using ⟨hk, hr⟩
    | false =>
      cases hlr : l.lookup "root" with
      | none => simpa using ⟨hk, hr⟩
      | some s =>
        simp only [Option.map_some, Option.isSome_some, Bool.not_true, Bool.or_false, Bool.false_eq_true, if_false, Option.getD_some]
        refine ⟨fun k _ => lookup_map (fun s => Val.str (W.upper s)) l k, ?_⟩
        rw [lookup_map (fun s => Val.str (W.upper s)), hlr]
        rfl

/-! ### What the documentation says but the code does not do -/

/-- **C84** (partial) A document that is not a mapping, or whose `pipeline` is not a mapping, is a configuration error.

Missing: see `C84_no_pipeline_violated`. -/
theorem C84_pipeline_error_partial (W : World) (lint : Bool) (doc : Doc) :
    ((∀ d, doc.val ≠ .dict d) → fromYaml W lint doc = .error (.config none)) ∧
      ∀ d v, doc.val = .dict d → d.lookup "pipeline" = some v → (∀ p, v ≠ .dict p) → fromYaml W lint doc = .error (.config none) := by
  constructor
  · intro h
    unfold fromYaml
    split
    · rename_i d hd
      exact absurd hd (h d)
    · rfl
  · intro d v hd hv hp
    unfold fromYaml
    simp only [hd, hv]

/-- **C84** (violated) A mapping without the key `pipeline` is a `KeyError`, not the configuration error that is meant for it. -/
theorem C84_no_pipeline_violated (W : World) (lint : Bool) (doc : Doc) (d : Cfg) (h : doc.val = .dict d) (hp : d.lookup "pipeline" = none) : fromYaml W lint doc = .error .keyError := by
  unfold fromYaml
  simp only [h, hp]

/-- **C84** (violated) The option `key_pattern` has no effect: keys are compared with the default pattern whatever is given. -/
theorem C84_key_pattern_violated :
    (∀ (W : World) (lint : Bool) (doc : Doc) (m : Manager), fromYaml W lint doc = .ok m → m.keyMatch = "[^\\W_]") ∧
      ∃ m, fromYaml { exWorld with str := fun v => match v with
        | .str s => s
        | _ => "?" } false ⟨.dict [("pipeline", .dict [("key_pattern", .str "^keep")])], fun _ => (none, none)⟩ = .ok m ∧
        option { exWorld with str := fun v => match v with
          | .str s => s
          | _ => "?" } m.obj "key_pattern" = .ok (.str "^keep") := by
  constructor
  · intro W lint doc m h
    obtain ⟨d, p, h1, h2, h3, h4⟩ := fromYaml_ok W lint doc m h
    obtain ⟨vs, save, levels, specs, ss, f1, f2, f3, f4, f5, f6, f7, f8, f9, f10⟩ := finish_ok W lint doc d m.obj m h4
    exact f8
  · exact ⟨_, rfl, rfl⟩

/-- **C84** (violated) Checking a document leaves the level DEBUG on for every module but the root, although it is said to disable logging below INFO. -/
theorem C84_lint_violated : ∃ m, fromYaml exWorld true ⟨.dict [("pipeline", .dict [("logging", .dict [("root", .str "DEBUG"), ("lib", .str "DEBUG")])])], fun _ => (none, none)⟩ = .ok m ∧
    m.levels.lookup "root" = some (.str "INFO") ∧ m.levels.lookup "lib" = some (.str "DEBUG") :=
  ⟨_, rfl, rfl, rfl⟩

/-- **C84** (violated) A module that has no version is an `AttributeError`; one that is not there is a configuration error. -/
theorem C84_version_violated (W : World) (lint : Bool) (doc : Doc) (d : Cfg) (n : String) (h : doc.val = .dict d) (hp : d.lookup "pipeline" = some (.dict [("save_versions", .str n)])) :
    (W.version n = .ok none → fromYaml W lint doc = .error .attributeError) ∧ (W.version n = .error .notFound → fromYaml W lint doc = .error (.config none)) := by
  constructor <;>
  · intro hv
    unfold fromYaml
    simp [h, hp, readConfig, managerClass, readAll, Config.fromConfig, Config.keyOf, List.lookup, getVersions, versionsOf, hv, Except.map, Config.wrapErr, lift]

/-- **C84** (violated) A misspelt option is ignored, also when a document is only checked: here the list of tasks. -/
theorem C84_misspelt_violated : ∃ m, fromYaml exWorld true ⟨.dict [("pipeline", .dict [("task", .list [.dict [("type", .str "no.such.Task")]])])], fun _ => (none, none)⟩ = .ok m ∧ m.tasks = [] ∧
    fromYaml exWorld true ⟨.dict [("pipeline", .dict [("tasks", .list [.dict [("type", .str "no.such.Task")]])])], fun _ => (none, none)⟩ = .error (.config none) :=
  ⟨_, rfl, rfl, rfl⟩

/-- **C84** (violated) If the configuration is not to be saved, a pipeline with a task that writes containers cannot be built: the property in which such a task keeps the configuration takes
mappings only, and it is given `None`. -/
theorem C84_save_config_violated : ∃ entries : Cfg,
    (∃ m, fromYaml exWorld false ⟨.dict [("pipeline", .dict [("tasks", .list [.dict entries])])], fun _ => (none, none)⟩ = .ok m ∧ m.tasks.length = 1) ∧
      fromYaml exWorld false ⟨.dict [("pipeline", .dict [("tasks", .list [.dict entries]), ("save_config", .bool false)])], fun _ => (none, none)⟩ = .error (.config none) :=
  ⟨[("type", .str "lib.io.Write")], ⟨_, rfl, rfl⟩, rfl⟩

/-! ### Cases -/

/-- A document with options, two groups, and one task. -/
def exYaml : Doc :=
  ⟨.dict (("pipeline", .dict [("interactive", .int 1), ("save_versions", .list [.str "lib"]), ("logging", .dict [("lib", .str "DEBUG")]), ("tasks", .list [.dict exSpec.entries])]) :: exDoc), fun _ => (none, none)⟩

theorem exYaml_ok : ∃ m, fromYaml exWorld false exYaml = .ok m ∧ m.tasks.length = 1 ∧ m.levels.lookup "root" = some (.str "INFO") ∧ m.levels.lookup "lib" = some (.str "DEBUG") :=
  ⟨_, rfl, rfl, rfl, rfl⟩

example : ∃ m, fromYaml exWorld false exYaml = .ok m ∧ option exWorld m.obj "interactive" = .ok (.bool true) ∧ option exWorld m.obj "save_config" = .ok (.bool true) := by
  obtain ⟨m, h, _⟩ := exYaml_ok
  obtain ⟨d, p, h1, h2, h3, _, h5⟩ := C84_switches exWorld false exYaml m h
  cases h1
  cases h2
  exact ⟨m, h, h3, h5⟩

example : ∃ m, fromYaml exWorld false exYaml = .ok m ∧ m.tasks.length = 1 := by
  obtain ⟨m, h, _⟩ := exYaml_ok
  obtain ⟨d, p, h1, h2, _, h4⟩ := C84_tasks exWorld exGlobals false exYaml m h
  cases h1
  cases h2
  have := h4 _ rfl
  generalize hm : m.tasks = ts at this
  cases this with
  | cons _ h5 =>
    cases h5
    exact ⟨m, h, by rw [hm]; rfl⟩

example : ∃ m vs, fromYaml exWorld false exYaml = .ok m ∧ m.base.lookup "versions" = some (.dict vs) ∧ vs.lookup "lib" = some (.str "1.0") ∧ vs.lookup "numpy" = none := by
  obtain ⟨m, h, _⟩ := exYaml_ok
  obtain ⟨d, p, h1, h2, _, vs, h3, h4⟩ := C84_given exWorld false exYaml m h
  cases h1
  cases h2
  obtain ⟨ha, hb⟩ := h4 ["lib"] (.inr (.inr rfl))
  obtain ⟨v, hv, hv'⟩ := ha "lib" (by simp)
  cases hv
  exact ⟨m, vs, h, h3, hv', hb "numpy" (by simp)⟩

example : ∃ m, fromYaml exWorld false exYaml = .ok m ∧ m.levels.lookup "root" = some (.str "INFO") ∧ m.levels.lookup "lib" = some (.str "DEBUG") := by
  obtain ⟨m, h, _⟩ := exYaml_ok
  obtain ⟨d, p, h1, h2, _, _, h3⟩ := C84_levels_partial exWorld false exYaml m h rfl
  cases h1
  cases h2
  obtain ⟨ha, hb⟩ := h3 [("lib", "DEBUG")] rfl
  exact ⟨m, h, hb, ha "lib" (by decide)⟩

example : ∃ m, fromYaml exWorld true exYaml = .ok m :=
  C84_builds exWorld true exYaml _ _ [exSpec.entries] (.dict [("lib", .str "1.0")]) rfl rfl rfl rfl (fun v hv => by cases hv; exact ⟨_, rfl⟩) rfl (fun _ _ => rfl) (by
    intro ss hss
    match ss, hss with
    | [⟨line, _, pl⟩], rfl => exact ⟨_, rfl⟩)

example : fromYaml exWorld false ⟨.dict exDoc, fun _ => (none, none)⟩ = .error .keyError := C84_no_pipeline_violated exWorld false _ exDoc rfl rfl

example : fromYaml exWorld false ⟨.dict [("pipeline", .list [])], fun _ => (none, none)⟩ = .error (.config none) :=
  (C84_pipeline_error_partial exWorld false _).2 _ _ rfl rfl (by simp)

example : fromYaml exWorld false ⟨.dict [("pipeline", .dict [("save_versions", .str "lib.io")])], fun _ => (none, none)⟩ = .error .attributeError :=
  (C84_version_violated exWorld false _ _ "lib.io" rfl rfl).1 rfl

/-! ### The virtual environment -/

theorem moveNew_spec (prev l done new : List String) (hd : ∀ x ∈ done, x ∈ prev) :
    moveNew prev l (done ++ l) new = (done ++ l.filter (fun x => decide (x ∈ prev)), new ++ l.filter (fun x => !decide (x ∈ prev))) := by
  induction l generalizing done new with
  | nil => simp [moveNew]
  | cons x l ih =>
    rw [moveNew]
    by_cases hx : x ∈ prev
    · rw [if_pos hx]
      have := ih (done ++ [x]) new (by
        intro y hy
        rcases List.mem_append.1 hy with hy | hy
        · exact hd y hy
        · rw [List.mem_singleton.1 hy]
          exact hx)
      simp only [List.append_assoc, List.singleton_append] at this
      rw [this]
      simp [hx]
    · rw [if_neg hx]
      have he : (done ++ x :: l).erase x = done ++ l := by
        rw [List.erase_append_right _ (fun h => hx (hd x h))]
        simp
      rw [he, ih done (new ++ [x]) hd]
      simp [hx]

/-- **C84** After a virtual environment is added to the path of modules, what is new comes first, and then all the rest; both in the order in which they were. -/
theorem C84_new_first (prev now : List String) : newFirst prev now = now.filter (fun x => !decide (x ∈ prev)) ++ now.filter (fun x => decide (x ∈ prev)) := by
  unfold newFirst
  have := moveNew_spec prev now [] [] (by simp)
  simp only [List.nil_append] at this
  rw [this]

example : newFirst ["a", "b"] ["a", "b", "v1", "v2"] = ["v1", "v2", "a", "b"] := by
  rw [C84_new_first]
  decide

/-- **C84** (partial) If the configuration names no environment the path of modules stays as it is; if there is no such directory the program stops; and otherwise the packages of the environment come before
all others. The directory of the packages is that of the version of Python that is running, if both parts of the version have one digit.

Missing: see `C84_venv_violated` and `C84_cluster_violated`. -/
theorem C84_venv_partial (d : Cfg) (v : Python) (dirs : List String) (added : String → List String) (path : List String) :
    (d.lookup "cluster" = none → loadVenv (.dict d) v dirs added path = .ok path) ∧
    (∀ c, d.lookup "cluster" = some (.dict c) → c.lookup "venv" = none → loadVenv (.dict d) v dirs added path = .ok path) ∧
    (∀ c b, d.lookup "cluster" = some (.dict c) → c.lookup "venv" = some (.str b) → b ∉ dirs → loadVenv (.dict d) v dirs added path = .error .exit) ∧
    ∀ c b a i, d.lookup "cluster" = some (.dict c) → c.lookup "venv" = some (.str b) → b ∈ dirs → v.major < 10 → v.minor < 10 → Nat.toDigits 10 v.major = [a] → Nat.toDigits 10 v.minor = [i] →
      (∀ x ∈ added (b ++ "/lib/python" ++ String.ofList [a, '.', i] ++ "/site-packages"), x ∉ path) →
      loadVenv (.dict d) v dirs added path = .ok (added (b ++ "/lib/python" ++ String.ofList [a, '.', i] ++ "/site-packages") ++ path) := by
  refine ⟨fun h => by simp [loadVenv, h], fun c h1 h2 => by simp [loadVenv, h1, h2], fun c b h1 h2 h3 => by simp [loadVenv, h1, h2, h3], ?_⟩
  intro c b a i h1 h2 h3 _ _ h4 h5 h6
  have hs : String.ofList (sitePackages v b.toList) = b ++ "/lib/python" ++ String.ofList [a, '.', i] ++ "/site-packages" := by
    unfold sitePackages Python.version
    rw [h4, h5]
    apply String.toList_injective
    simp
  simp only [loadVenv, h1, h2, if_pos h3, hs]
  rw [C84_new_first]
  have f1 : ∀ l : List String, (∀ x ∈ l, x ∉ path) → l.filter (fun x => !decide (x ∈ path)) = l ∧ l.filter (fun x => decide (x ∈ path)) = [] := by
    intro l hl
    constructor
    · rw [List.filter_eq_self]
      intro x hx
      simp [hl x hx]
    · rw [List.filter_eq_nil_iff]
      intro x hx
      simp [hl x hx]
  have f2 : path.filter (fun x => !decide (x ∈ path)) = [] ∧ path.filter (fun x => decide (x ∈ path)) = path := by
    constructor
    · rw [List.filter_eq_nil_iff]
      intro x hx
      simp [hx]
    · rw [List.filter_eq_self]
      intro x hx
      simp [hx]
  rw [List.filter_append, List.filter_append, f2.1, f2.2, (f1 _ h6).1, (f1 _ h6).2]
  simp

example : loadVenv (.dict [("cluster", .dict [("venv", .str "/env")])]) ⟨3, 9, 1, []⟩ ["/env"] (fun s => [s]) ["/usr"] = .ok ["/env/lib/python3.9/site-packages", "/usr"] :=
  (C84_venv_partial _ ⟨3, 9, 1, []⟩ _ _ _).2.2.2 _ "/env" '3' '9' rfl rfl (by simp) (by decide) (by decide) (by decide) (by decide) (by decide)

/-- **C84** (violated) With Python 3.10 to 3.19, the only versions of Python 3 that the package supports so far, the directory of packages is taken to be that of Python 3.1. -/
theorem C84_venv_violated (v : Python) (base : List Char) (h : v.major = 3) (h1 : 10 ≤ v.minor) (h2 : v.minor < 20) :
    sitePackages v base = base ++ "/lib/python3.1/site-packages".toList ∧ sitePackages v base ≠ base ++ "/lib/python3.".toList ++ Nat.toDigits 10 v.minor ++ "/site-packages".toList := by
  have hv : v.version.take 3 = "3.1".toList ∧ ∃ c, Nat.toDigits 10 v.minor = ['1', c] := by
    unfold Python.version
    rw [h]
    have : v.minor = 10 ∨ v.minor = 11 ∨ v.minor = 12 ∨ v.minor = 13 ∨ v.minor = 14 ∨ v.minor = 15 ∨ v.minor = 16 ∨ v.minor = 17 ∨ v.minor = 18 ∨ v.minor = 19 := by omega
    rcases this with h | h | h | h | h | h | h | h | h | h <;> rw [h] <;> exact ⟨rfl, _, rfl⟩
  obtain ⟨hv, c, hc⟩ := hv
  constructor
  · unfold sitePackages
    rw [hv]
    simp
  · unfold sitePackages
    rw [hv, hc]
    intro h
    have := congrArg List.length h
    simp at this

example : sitePackages ⟨3, 12, 4, " (main)".toList⟩ "/env".toList = "/env/lib/python3.1/site-packages".toList := (C84_venv_violated ⟨3, 12, 4, " (main)".toList⟩ "/env".toList rfl (by decide) (by decide)).1

/-- **C84** (violated) A configuration whose `cluster` is there but empty is a `TypeError`. -/
theorem C84_cluster_violated (d : Cfg) (v : Python) (dirs : List String) (added : String → List String) (path : List String) (h : d.lookup "cluster" = some .none) :
    loadVenv (.dict d) v dirs added path = .error .typeError := by
  simp [loadVenv, h]

example : loadVenv (.dict [("cluster", .none)]) ⟨3, 12, 4, []⟩ [] (fun _ => []) [] = .error .typeError := C84_cluster_violated _ _ _ _ _ rfl

/-- **C84** (violated) An environment that is not given as a string is a `TypeError`. -/
theorem C84_venv_type_violated (d c : Cfg) (w : Val) (v : Python) (dirs : List String) (added : String → List String) (path : List String) (h : d.lookup "cluster" = some (.dict c))
    (hw : c.lookup "venv" = some w) (hs : ∀ b, w ≠ .str b) : loadVenv (.dict d) v dirs added path = .error .typeError := by
  simp only [loadVenv, h, hw]

example : loadVenv (.dict [("cluster", .dict [("venv", .none)])]) ⟨3, 9, 1, []⟩ [] (fun _ => []) [] = .error .typeError :=
  C84_venv_type_violated _ _ _ _ _ _ _ rfl rfl (by simp)

end Verif.Build
