import Verif.Build.Lemmas

/-!
# C83: tasks are made as the configuration asks for
-/
namespace Verif.Build

open Verif.Config (Val Cfg Class Obj Decl Compare getAttr MostDerived readConfig readAll)

theorem forall_imp {α β : Type} {R S : α → β → Prop} (h : ∀ a b, R a b → S a b) {as : List α} {bs : List β} (hf : List.Forall₂ R as bs) : List.Forall₂ S as bs := by
  induction hf with
  | nil => exact .nil
  | cons hr _ ih => exact .cons (h _ _ hr) ih

theorem getTask_made (W : World) (hg : ∀ n t, W.globals n = some t → t = .other) (doc base : Cfg) (s : Spec) (t : Task) (h : getTask W doc base s = .ok t) : Made W doc base s t := by
  unfold getTask at h
  cases hk : s.entries.any (fun kv => !allowedKeys.contains kv.1) with
  | true => rw [hk] at h; simp at h
  | false =>
    rw [hk] at h
    simp only [Bool.false_eq_true, if_false] at h
    cases htype : s.entries.lookup "type" with
    | none => rw [htype] at h; cases h
    | some v =>
      rw [htype] at h
      simp only at h
      cases hf : findClass W v with
      | error e => rw [hf] at h; cases h
      | ok thing =>
        rw [hf] at h
        simp only at h
        cases hp : paramsOf W doc s with
        | error e => rw [hp] at h; cases h
        | ok params =>
          rw [hp] at h
          simp only at h
          cases thing with
          | other => cases h
          | task name cs =>
            simp only at h
            cases hr : (readConfig cs (fun _ => none) (merge params base) (.tolerate ["versions", "pipeline_config"]) true).2 with
            | some e => rw [hr] at h; cases h
            | none =>
              rw [hr] at h
              cases h
              have hgroups : ∀ gs, Groups doc s gs → (∀ k, (merge params base).lookup k = value gs base k) ∧ ∀ g ∈ gs, ∀ kv ∈ g, kv.1 ∈ (merge params base).map Prod.fst := by
                intro gs hgs
                obtain ⟨ps, h1, h2, h3, h4⟩ := paramsOf_ok W doc s gs hgs
                rw [hp] at h1
                cases h1
                refine ⟨fun k => by rw [merge_lookup, h2]; rfl, fun g hg' kv hkv => ?_⟩
                obtain ⟨kv', ha, hb⟩ := List.mem_map.1 (h4 g hg' kv hkv)
                rw [← hb]
                exact merge_key _ _ kv' (.inl ha)
              obtain ⟨path, rfl, hn⟩ := findClass_task W hg v name cs hf
              refine ⟨(specKeys_iff s).1 hk, ⟨path, htype, hn⟩, ?_, ?_, ?_⟩
              · intro gs hgs a d hd v hv
                exact Config.C26_value cs _ _ _ _ true (Prod.ext rfl hr) a d hd v (by rw [(hgroups gs hgs).1]; exact hv)
              · intro gs hgs a d hd habs
                exact Config.C26_default_partial cs _ _ _ true a d hd rfl (fun x hx hxa => by rw [(hgroups gs hgs).1]; exact habs x hx hxa)
              · intro gs hgs g hg' kv hkv
                by_contra hno
                refine Config.C26_unknown_reported cs (fun _ => none) (merge params base) (.tolerate ["versions", "pipeline_config"]) true (.inr ⟨_, rfl, by simp⟩) kv.1 ((hgroups gs hgs).2 g hg' kv hkv) ?_ ?_ hr
                · intro x hx he
                  exact hno (.inl ⟨x, hx, he⟩)
                · intro l hl hin
                  cases hl
                  simp at hin
                  exact hno (.inr hin)

/-- **C83** A pipeline that is built has one task for each entry of the task list, in this order, and each is what its entry asks for: of the class named, with its properties set from the
parameters, later groups before earlier ones, from what all tasks are given, or from their defaults. Nothing unknown is accepted. (No task is in the module that looks up names without dots.) -/
theorem C83_tasks (W : World) (hg : ∀ n t, W.globals n = some t → t = .other) (doc base : Cfg) (ss : List Spec) (ts : List Task) (h : buildAll W doc base ss = .ok ts) :
    List.Forall₂ (Made W doc base) ss ts :=
  forall_imp (fun s t h => getTask_made W hg doc base s t h) (buildAll_forall W doc base ss ts h)

theorem getTask_builds (W : World) (doc base : Cfg) (s : Spec) (path name : String) (cs : List Class) (gs : List Cfg) (hkeys : SpecKeys s)
    (htype : s.entries.lookup "type" = some (.str path)) (hn : Named W path (.task name cs)) (hgs : Groups doc s gs) (hknown : ∀ g ∈ gs, ∀ kv ∈ g, Known cs kv.1)
    (hbase : ∀ kv ∈ base, Known cs kv.1) (hconv : ∀ x ∈ cs.flatten, ∀ v, value gs base (x.2.key.getD x.1) = some v → ∃ w, x.2.conv v = .ok w) :
    ∃ o, getTask W doc base s = .ok ⟨name, cs, o⟩ := by
  obtain ⟨ps, h1, h2, h3, h4⟩ := paramsOf_ok W doc s gs hgs
  have hlook : ∀ k, (merge ps base).lookup k = value gs base k := fun k => by rw [merge_lookup, h2]; rfl
  have hr := Config.C26_no_other_error cs (fun _ => none) (merge ps base) (.tolerate ["versions", "pipeline_config"]) true (by
      intro kv hkv
      have hk : Known cs kv.1 := by
        rcases merge_mem _ _ kv hkv with hin | hin
        · obtain ⟨g, hg, hin⟩ := h3 kv hin
          exact hknown g hg kv hin
        · exact hbase kv hin
      rcases hk with hk | hk
      · exact .inl hk
      · right
        simpa [Compare.tolerated] using hk) (by simp) (fun x hx v hv => hconv x hx v (by rw [← hlook]; exact hv))
  refine ⟨(readConfig cs (fun _ => none) (merge ps base) (.tolerate ["versions", "pipeline_config"]) true).1, ?_⟩
  unfold getTask
  rw [(specKeys_iff s).2 hkeys]
  simp only [Bool.false_eq_true, if_false, htype, findClass_named W path _ hn, h1, hr]

/-- **C83** Every list of entries is built if each has only the keys it may have, names a class of tasks, its parameters are found and known, their values, with those that all tasks are given, can be converted,
and the task can be added. -/
theorem C83_builds (W : World) (doc base : Cfg) (ss : List Spec)
    (h : ∀ s ∈ ss, SpecKeys s ∧ ∃ path name cs gs, s.entries.lookup "type" = some (.str path) ∧ Named W path (.task name cs) ∧ Groups doc s gs ∧
      (∀ g ∈ gs, ∀ kv ∈ g, Known cs kv.1) ∧ (∀ kv ∈ base, Known cs kv.1) ∧ (∀ x ∈ cs.flatten, ∀ v, value gs base (x.2.key.getD x.1) = some v → ∃ w, x.2.conv v = .ok w) ∧
      ∀ o, W.add ⟨name, cs, o⟩ s = true) :
    ∃ ts, buildAll W doc base ss = .ok ts := by
  induction ss with
  | nil => exact ⟨[], rfl⟩
  | cons s ss ih =>
    obtain ⟨ts, hts⟩ := ih fun x hx => h x (List.mem_cons_of_mem _ hx)
    obtain ⟨hk, path, name, cs, gs, h1, h2, h3, h4, h5, h6, h7⟩ := h s List.mem_cons_self
    obtain ⟨o, ho⟩ := getTask_builds W doc base s path name cs gs hk h1 h2 h3 h4 h5 h6
    exact ⟨⟨name, cs, o⟩ :: ts, by rw [buildAll, ho]; simp [h7, hts]⟩

/-- What can be wrong with an entry of the task list. -/
inductive Mistake (W : World) (doc base : Cfg) (s : Spec) : Prop where
  /-- A key that an entry does not have. -/
  | key (h : ¬ SpecKeys s)
  /-- No class is named. -/
  | noType (h : SpecKeys s) (h : s.entries.lookup "type" = none)
  /-- There is no such module. -/
  | module (h : SpecKeys s) (path : String) (h : s.entries.lookup "type" = some (.str path)) (h : W.locals path = none) (m n : List Char) (h : path.toList = m ++ '.' :: n) (h : '.' ∉ n)
      (h : m ≠ []) (h : W.module (String.ofList m) = .error .notFound)
  /-- There is nothing of that name in the module. -/
  | member (h : SpecKeys s) (path : String) (h : s.entries.lookup "type" = some (.str path)) (h : W.locals path = none) (m n : List Char) (h : path.toList = m ++ '.' :: n) (h : '.' ∉ n)
      (h : m ≠ []) (attrs : String → Option Thing) (h : W.module (String.ofList m) = .ok attrs) (h : attrs (String.ofList n) = none)
  /-- The class is something that cannot be a name. -/
  | number (h : SpecKeys s) (i : Int) (h : s.entries.lookup "type" = some (.int i))
  /-- A group of parameters is not in the document. -/
  | group (h : SpecKeys s) (path : String) (h : s.entries.lookup "type" = some (.str path)) (t : Thing) (h : Named W path t) (ks : List String)
      (h : s.entries.lookup "params" = some (.list (ks.map .str)) ∨ ∃ k, ks = [k] ∧ s.entries.lookup "params" = some (.str k))
      (h : ∀ k ∈ ks, doc.lookup k = none ∨ ∃ g, doc.lookup k = some (.dict g)) (k : String) (h : k ∈ ks) (h : doc.lookup k = none)
  /-- A parameter, in a group that is named, is unknown to the class. -/
  | parameter (h : SpecKeys s) (path name : String) (cs : List Class) (h : s.entries.lookup "type" = some (.str path)) (h : Named W path (.task name cs)) (gs : List Cfg) (h : Groups doc s gs)
      (h : ∀ d, s.entries.lookup "params" ≠ some (.dict d)) (g : Cfg) (h : g ∈ gs) (kv : String × Val) (h : kv ∈ g) (h : ¬ Known cs kv.1)
      (h : ∀ x ∈ cs.flatten, ∀ v, value gs base (x.2.key.getD x.1) = some v → ∃ w, x.2.conv v = .ok w)

theorem addGroups_missing (W : World) (doc : Cfg) (ks : List String) (acc : Cfg) (h : ∀ k ∈ ks, doc.lookup k = none ∨ ∃ g, doc.lookup k = some (.dict g)) (k : String) (hk : k ∈ ks)
    (hn : doc.lookup k = none) : addGroups W doc (ks.map .str) acc = .error (.config none) := by
  induction ks generalizing acc with
  | nil => cases hk
  | cons q ks ih =>
    rw [List.map_cons, addGroups]
    rcases h q List.mem_cons_self with hq | ⟨g, hq⟩
    · simp [hq]
    · simp only [hq, groupOf]
      rcases List.mem_cons.1 hk with rfl | hk
      · rw [hn] at hq
        cases hq
      · exact ih _ (fun x hx => h x (List.mem_cons_of_mem _ hx)) hk

theorem unknown_config (cs : List Class) (o : Obj) (cfg : Cfg) (kv : String × Val) (hkv : kv ∈ cfg) (hno : ¬ Known cs kv.1)
    (hconv : ∀ x ∈ cs.flatten, ∀ v, cfg.lookup (x.2.key.getD x.1) = some v → ∃ w, x.2.conv v = .ok w) :
    (readConfig cs o cfg (.tolerate ["versions", "pipeline_config"]) true).2 = some .configError := by
  unfold readConfig
  simp only [readAll_fine cfg cs.flatten o hconv]
  rw [if_pos]
  simp only [Compare.truth, Config.hasUnused, Bool.and_eq_true, List.any_eq_true]
  refine ⟨rfl, kv, hkv, ?_⟩
  simp only [Bool.not_eq_true', ← Bool.not_eq_true, List.contains_iff_mem, List.mem_append, List.mem_map, Compare.tolerated]
  rintro (⟨x, hx, he⟩ | hin)
  · exact hno (.inl ⟨x, hx, he⟩)
  · simp at hin
    exact hno (.inr hin)

theorem getTask_mistake (W : World) (doc base : Cfg) (s : Spec) (hm : Mistake W doc base s) : getTask W doc base s = .error (.config none) := by
  cases hm with
  | key h =>
    unfold getTask
    rw [if_pos]
    rw [← specKeys_iff] at h
    simpa using h
  | noType hk h =>
    unfold getTask
    rw [(specKeys_iff s).2 hk]
    simp [h]
  | module hk path h1 h2 m n h3 h4 h5 h6 =>
    unfold getTask
    rw [(specKeys_iff s).2 hk]
    simp [h1, findClass, h2, importClass_dot W path m n h3 h4 h5, h6]
  | member hk path h1 h2 m n h3 h4 h5 attrs h6 h7 =>
    unfold getTask
    rw [(specKeys_iff s).2 hk]
    simp [h1, findClass, h2, importClass_dot W path m n h3 h4 h5, h6, h7]
  | number hk i h1 =>
    unfold getTask
    rw [(specKeys_iff s).2 hk]
    simp [h1, findClass]
  | group hk path h1 th h2 ks h3 h4 k h5 h6 =>
    have hp : paramsOf W doc s = .error (.config none) := by
      unfold paramsOf
      rcases h3 with h3 | ⟨q, rfl, h3⟩
      · rw [h3]
        exact addGroups_missing W doc ks [] h4 k h5 h6
      · rw [h3]
        exact addGroups_missing W doc [q] [] h4 k h5 h6
    unfold getTask
    rw [(specKeys_iff s).2 hk]
    simp [h1, findClass_named W path th h2, hp]
  | parameter hk path name cs h1 h2 gs h3 h4 g h5 kv h6 h7 h8 =>
    obtain ⟨ps, p1, p2, p3, p4⟩ := paramsOf_ok W doc s gs h3
    have hlook : ∀ k, (merge ps base).lookup k = value gs base k := fun k => by rw [merge_lookup, p2]; rfl
    obtain ⟨kv', ha, hb⟩ := List.mem_map.1 (p4 g h5 kv h6)
    obtain ⟨kv'', ha', hb'⟩ := List.mem_map.1 (merge_key ps base kv' (.inl ha))
    have hr := unknown_config cs (fun _ => none) (merge ps base) kv'' ha' (by rw [hb', hb]; exact h7) (fun x hx v hv => h8 x hx v (by rw [← hlook]; exact hv))
    have hloc : paramsLocation s = none := by
      unfold paramsLocation
      unfold Groups at h3
      split
      · rename_i hl
        rw [hl] at h3
        simp only at h3
        subst h3
        cases h5
      · rename_i d hl
        exact absurd hl (h4 d)
      · rfl
    unfold getTask
    rw [(specKeys_iff s).2 hk]
    simp [h1, findClass_named W path _ h2, p1, hr, hloc, lift]

/-- **C83** (partial) A mistake in an entry of the task list is a configuration error that tells the line where the entry starts, if the entry carries its line: an unexpected key, no class, a class that is not found in its module, a
group of parameters that is not in the document, or a parameter in such a group that the class does not have.

Missing: see the violations below. -/
theorem C83_mistake_partial (W : World) (doc base : Cfg) (pre post : List Spec) (s : Spec) (ts : List Task) (hpre : buildAll W doc base pre = .ok ts) (hm : Mistake W doc base s) :
    buildAll W doc base (pre ++ s :: post) = .error (.config s.line) := by
  rw [buildAll_error W doc base pre post s _ ts hpre (getTask_mistake W doc base s hm)]
  rfl

/-! ### Cases -/

/-- A task with two properties: one any value, one a number, called `size` in the configuration. -/
def exClasses : List Class := [[("in_path", { default := some (.str "x") })], [("n", { key := some "size", conv := Config.intConv, default := some (.int 3) })]]

/-- `dict(v)`, for a mapping. -/
def dictConv : Val → Except Config.Err Val
  | .dict d => .ok (.dict d)
  | _ => .error .typeError

/-- A task that wants the configuration as a mapping, as those that write containers do (tasklib/base.py:308). -/
def exWants : List Class := [[("pipeline_config", { conv := dictConv, default := some (.dict []) })]]

/-- A world with a module `lib.io` of three names, and a local task. -/
def exWorld : World where
  locals n := if n = "Local" then some (.task "Local" exClasses) else none
  globals n := if n = "importlib" then some .other else none
  module m := if m = "lib.io" then .ok fun n => if n = "Load" then some (.task "Load" exClasses) else if n = "Write" then some (.task "Write" exWants) else if n = "os" then some .other else none
    else .error .notFound
  update _ := .error .typeError
  valid _ := none
  add _ _ := true
  version m := if m = "lib" then .ok (some "1.0") else if m = "lib.io" then .ok none else .error .notFound
  upper s := s
  str _ := "?"

theorem exGlobals (n : String) (t : Thing) (h : exWorld.globals n = some t) : t = .other := by
  simp only [exWorld] at h
  split at h
  · simpa using h.symm
  · cases h

/-- A document with two groups of parameters. -/
def exDoc : Cfg := [("first", .dict [("in_path", .str "a"), ("size", .int 5)]), ("second", .dict [("size", .int 7)]), ("empty", .none)]

def exBase : Cfg := [("versions", .dict []), ("pipeline_config", .dict exDoc)]

/-- A good entry that takes its parameters from the two groups. -/
def exSpec : Spec := ⟨some 4, [("type", .str "lib.io.Load"), ("params", .list [.str "first", .str "second"])], some 0⟩

theorem exNamed : Named exWorld "lib.io.Load" (.task "Load" exClasses) :=
  .inr ⟨by simp [exWorld], "lib.io".toList, "Load".toList, _, rfl, by decide, by decide, rfl, rfl⟩

theorem exGroups : Groups exDoc exSpec [[("in_path", .str "a"), ("size", .int 5)], [("size", .int 7)]] :=
  .cons ⟨"first", rfl, rfl⟩ (.cons ⟨"second", rfl, rfl⟩ .nil)

theorem exBuilt : ∃ ts, buildAll exWorld exDoc exBase [exSpec] = .ok ts ∧ ts.length = 1 := by
  refine ⟨_, rfl, rfl⟩

/-- The later group sets the size. -/
example : ∃ ts, buildAll exWorld exDoc exBase [exSpec] = .ok ts ∧ List.Forall₂ (Made exWorld exDoc exBase) [exSpec] ts ∧
    value [[("in_path", .str "a"), ("size", .int 5)], [("size", .int 7)]] exBase "size" = some (.int 7) ∧ ts.map (fun t => getAttr t.classes t.obj "n") = [some (.ok (.int 7))] := by
  obtain ⟨ts, h, _⟩ := exBuilt
  refine ⟨ts, h, C83_tasks exWorld exGlobals exDoc exBase _ ts h, rfl, ?_⟩
  cases h
  rfl

example : ∃ ts, buildAll exWorld exDoc exBase [exSpec, exSpec] = .ok ts := by
  refine C83_builds exWorld exDoc exBase _ fun s hs => ?_
  have : s = exSpec := by simpa using hs
  subst this
  refine ⟨by simp [SpecKeys, exSpec], "lib.io.Load", "Load", exClasses, _, rfl, exNamed, exGroups, ?_, ?_, ?_, fun _ => rfl⟩
  · intro g hg kv hkv
    left
    simp only [List.mem_cons, List.not_mem_nil, or_false] at hg
    rcases hg with rfl | rfl <;> simp only [List.mem_cons, List.not_mem_nil, or_false] at hkv
    · rcases hkv with rfl | rfl
      · exact ⟨_, List.mem_cons_self, rfl⟩
      · exact ⟨_, List.mem_cons_of_mem _ List.mem_cons_self, rfl⟩
    · subst hkv
      exact ⟨_, List.mem_cons_of_mem _ List.mem_cons_self, rfl⟩
  · simp [Known, exBase]
  · intro x hx v hv
    simp only [exClasses, List.flatten_cons, List.flatten_nil, List.append_nil, List.singleton_append, List.mem_cons, List.not_mem_nil, or_false] at hx
    rcases hx with rfl | rfl
    · exact ⟨v, rfl⟩
    · have : v = .int 7 := by
        change some (Val.int 7) = some v at hv
        exact (Option.some.inj hv).symm
      subst this
      exact ⟨_, rfl⟩

/-- A misspelt group after a good entry. -/
example : buildAll exWorld exDoc exBase [exSpec, ⟨some 9, [("type", .str "lib.io.Load"), ("params", .list [.str "first", .str "secnd"])], some 0⟩] = .error (.config (some 9)) := by
  obtain ⟨ts, h, _⟩ := exBuilt
  exact C83_mistake_partial exWorld exDoc exBase [exSpec] [] _ ts h
    (.group (by simp [SpecKeys]) "lib.io.Load" rfl _ exNamed ["first", "secnd"] (.inl rfl) (by simp [exDoc, List.lookup]) "secnd" (by simp) rfl)

/-- A parameter that the class does not have. -/
example : buildAll exWorld exDoc exBase [⟨some 2, [("type", .str "lib.io.Write"), ("params", .str "first")], some 0⟩] = .error (.config (some 2)) :=
  C83_mistake_partial exWorld exDoc exBase [] [] _ [] rfl
    (.parameter (by simp [SpecKeys]) "lib.io.Write" "Write" exWants rfl (.inr ⟨by simp [exWorld], "lib.io".toList, "Write".toList, _, rfl, by decide, by decide, rfl, rfl⟩)
      [[("in_path", .str "a"), ("size", .int 5)]] ⟨_, rfl, rfl⟩ (by intro d; simp [List.lookup]) _ List.mem_cons_self ("size", .int 5) (by simp) (by simp [Known, exWants])
      (by
        intro x hx v hv
        simp only [exWants, List.flatten_cons, List.flatten_nil, List.append_nil, List.mem_cons, List.not_mem_nil, or_false] at hx
        subst hx
        have : v = .dict exDoc := (Option.some.inj (show some (Val.dict exDoc) = some v from hv)).symm
        subst this
        exact ⟨_, rfl⟩))

/-- **C83** (violated) A parameter that the class does not have, written in the entry itself, is reported without any line: the line is known, but lost when the error is passed on. -/
theorem C83_inline_violated : ∃ (W : World) (doc base : Cfg) (s : Spec) (d : Cfg), s.entries = [("type", .str "lib.io.Load"), ("params", .dict d)] ∧ Named W "lib.io.Load" (.task "Load" exClasses) ∧
    (∃ kv ∈ d, ¬ Known exClasses kv.1) ∧ buildAll W doc base [s] = .error (.config none) :=
  ⟨exWorld, exDoc, exBase, ⟨some 4, [("type", .str "lib.io.Load"), ("params", .dict [("sise", .int 1)])], some 6⟩, [("sise", .int 1)], rfl, exNamed, ⟨("sise", .int 1), by simp, by simp [Known, exClasses]⟩, rfl⟩

/-- **C83** (violated) The name of a class without a module, if it is not a local task, is a `KeyError` that tells nothing about the configuration. -/
theorem C83_name_violated (W : World) (doc base : Cfg) (s : Spec) (ss : List Spec) (path : String) (hs : SpecKeys s) (ht : s.entries.lookup "type" = some (.str path)) (hd : '.' ∉ path.toList)
    (hl : W.locals path = none) (hg : W.globals path = none) : buildAll W doc base (s :: ss) = .error .keyError := by
  have h : getTask W doc base s = .error .keyError := by
    unfold getTask
    rw [(specKeys_iff s).2 hs]
    simp [ht, findClass, hl, importClass_nodot W path hd, hg]
  rw [buildAll, h]
  rfl

example : buildAll exWorld exDoc exBase [⟨some 4, [("type", .str "Load")], some 0⟩] = .error .keyError :=
  C83_name_violated exWorld exDoc exBase _ [] "Load" (by simp [SpecKeys]) rfl (by decide) rfl rfl

/-- **C83** (violated) A group of parameters that is there but empty is a `TypeError`. -/
theorem C83_empty_group_violated (W : World) (doc base : Cfg) (s : Spec) (ss : List Spec) (path k : String) (t : Thing) (hs : SpecKeys s) (ht : s.entries.lookup "type" = some (.str path))
    (hn : Named W path t) (hp : s.entries.lookup "params" = some (.str k)) (hk : doc.lookup k = some .none) : buildAll W doc base (s :: ss) = .error .typeError := by
  have h : getTask W doc base s = .error .typeError := by
    unfold getTask
    rw [(specKeys_iff s).2 hs]
    simp [ht, findClass_named W path t hn, paramsOf, hp, addGroups, hk, groupOf]
  rw [buildAll, h]
  rfl

example : buildAll exWorld exDoc exBase [⟨some 4, [("type", .str "lib.io.Load"), ("params", .str "empty")], some 0⟩] = .error .typeError :=
  C83_empty_group_violated exWorld exDoc exBase _ [] "lib.io.Load" "empty" _ (by simp [SpecKeys]) rfl exNamed rfl rfl

/-- **C83** (violated) The name of something that is not a task is an `AttributeError`. -/
theorem C83_not_task_violated (W : World) (doc base : Cfg) (s : Spec) (ss : List Spec) (path : String) (gs : List Cfg) (hs : SpecKeys s) (ht : s.entries.lookup "type" = some (.str path))
    (hn : Named W path .other) (hg : Groups doc s gs) : buildAll W doc base (s :: ss) = .error .attributeError := by
  obtain ⟨ps, h1, _⟩ := paramsOf_ok W doc s gs hg
  have h : getTask W doc base s = .error .attributeError := by
    unfold getTask
    rw [(specKeys_iff s).2 hs]
    simp [ht, findClass_named W path .other hn, h1]
  rw [buildAll, h]
  rfl

example : buildAll exWorld exDoc exBase [⟨some 4, [("type", .str "lib.io.os")], some 0⟩] = .error .attributeError :=
  C83_not_task_violated exWorld exDoc exBase _ [] "lib.io.os" [] (by simp [SpecKeys]) rfl (.inr ⟨by simp [exWorld], "lib.io".toList, "os".toList, _, rfl, by decide, by decide, rfl, rfl⟩) rfl

/-- **C83** (violated) A class that is given as a list or a mapping is a `TypeError`: it is looked up among the local tasks before anything is checked. -/
theorem C83_unhashable_violated (W : World) (doc base : Cfg) (s : Spec) (ss : List Spec) (v : Val) (hs : SpecKeys s) (ht : s.entries.lookup "type" = some v)
    (hv : (∃ l, v = .list l) ∨ ∃ d, v = .dict d) : buildAll W doc base (s :: ss) = .error .typeError := by
  have hf : findClass W v = .error .typeError := by
    rcases hv with ⟨l, rfl⟩ | ⟨d, rfl⟩ <;> rfl
  have h : getTask W doc base s = .error .typeError := by
    unfold getTask
    rw [(specKeys_iff s).2 hs]
    simp [ht, hf]
  rw [buildAll, h]
  rfl

example : buildAll exWorld exDoc exBase [⟨none, [("type", .list [.str "lib.io.Load"])], none⟩] = .error .typeError :=
  C83_unhashable_violated exWorld exDoc exBase _ [] _ (by simp [SpecKeys]) rfl (.inl ⟨_, rfl⟩)

end Verif.Build
