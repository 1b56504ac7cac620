import Verif.Config.Deprecated
import Verif.Config.Props

/-!
# C126: warnings about deprecated properties
-/
namespace Verif.Config

/-- The classes without the marks. -/
def plain (classes : List DClass) : List Class := classes.map fun c => c.map fun x => (x.1, x.2.decl)

/-- A declaration is the one that counts for its attribute: no later one is of that attribute. -/
def Found (classes : List DClass) (a : Attr) (d : Dep) : Prop :=
  ∃ pre post, classes.flatten = pre ++ (a, d) :: post ∧ ∀ x ∈ post, x.1 ≠ a

/-- No attribute is declared twice. -/
def Once (classes : List DClass) : Prop := (classes.flatten.map Prod.fst).Nodup

/-- A configuration sets a property. -/
def Sets (cfg : Cfg) (x : Attr × Dep) : Prop := ∃ v, cfg.lookup (x.2.decl.key.getD x.1) = some v

instance (cfg : Cfg) (x : Attr × Dep) : Decidable (Sets cfg x) :=
  match h : cfg.lookup (x.2.decl.key.getD x.1) with
  | some v => .isTrue ⟨v, h⟩
  | none => .isFalse fun ⟨_, h'⟩ => by rw [h] at h'; cases h'

theorem plain_flatten (classes : List DClass) : (plain classes).flatten = classes.flatten.map fun x => (x.1, x.2.decl) := by
  unfold plain
  rw [List.map_flatten]

theorem lookupW_found (classes : List DClass) (a : Attr) (d : Dep) (h : Found classes a d) : lookupW classes a = some d := by
  obtain ⟨pre, post, hd, hpost⟩ := h
  unfold lookupW
  rw [hd, List.reverse_append, List.reverse_cons, List.append_assoc, List.find?_append, List.find?_eq_none.2]
  · simp
  · intro x hx
    have := hpost x (by simpa using hx)
    simpa using this

theorem readAllW_plain (cfg : Cfg) (o : Obj) (xs : List (Attr × Dep)) :
    (readAllW false cfg o xs).1 = (readAll cfg o (xs.map fun x => (x.1, x.2.decl))).1 ∧
    (readAllW false cfg o xs).2.2 = (readAll cfg o (xs.map fun x => (x.1, x.2.decl))).2.map .err := by
  induction xs generalizing o with
  | nil => exact ⟨rfl, rfl⟩
  | cons x xs ih =>
    rw [List.map_cons, readAllW, readAll]
    unfold fromConfigW fromConfig
    simp only
    cases hl : cfg.lookup (keyOf x.1 x.2.decl) with
    | none => exact ih o
    | some v =>
      simp only
      cases hc : x.2.decl.conv v with
      | error e => exact ⟨rfl, rfl⟩
      | ok w =>
        have hw : (warn false x.1 x.2).2 = none := by unfold warn; cases x.2.deprecated <;> rfl
        obtain ⟨w1, w2, hw1⟩ : ∃ w1 w2, warn false x.1 x.2 = (w1, w2) := ⟨_, _, rfl⟩
        rw [hw1] at hw
        simp only at hw
        subst hw
        rw [hw1]
        exact ih (o.set x.1 w)

/-- **C126** (deprecated properties work). Reading a configuration does to the object, and raises, what it does without the
marks; so does getting. -/
theorem C126_same (classes : List DClass) (o : Obj) (cfg : Cfg) (c : Compare) (u : Bool) (a : Attr) :
    (readConfigW false classes o cfg c u).1 = (readConfig (plain classes) o cfg c u).1 ∧
    (readConfigW false classes o cfg c u).2.2 = (readConfig (plain classes) o cfg c u).2.map .err ∧
    (getAttrW false classes o a).map (fun r => r.2) =
      (getAttr (plain classes) o a).map fun r => match r with | .ok v => .ok v | .error e => .error (.err e) := by
  obtain ⟨h1, h2⟩ := readAllW_plain cfg o classes.flatten
  have hk : (classes.flatten.map fun x => keyOf x.1 x.2.decl) =
      (classes.flatten.map fun x => (x.1, x.2.decl)).map fun x => keyOf x.1 x.2 := by rw [List.map_map]; rfl
  have hr : (readConfigW false classes o cfg c u).1 = (readConfig (plain classes) o cfg c u).1 ∧
      (readConfigW false classes o cfg c u).2.2 = (readConfig (plain classes) o cfg c u).2.map .err := by
    unfold readConfigW readConfig
    simp only
    rw [plain_flatten, hk]
    obtain ⟨o1, w, r, e⟩ : ∃ o1 w r, readAllW false cfg o classes.flatten = (o1, w, r) := ⟨_, _, _, rfl⟩
    rw [e] at h1 h2
    simp only at h1 h2
    rw [e]
    cases hr : (readAll cfg o (classes.flatten.map fun x => (x.1, x.2.decl))).2 with
    | some x =>
      rw [hr] at h2
      subst h2
      exact ⟨h1, rfl⟩
    | none =>
      rw [hr] at h2
      subst h2
      simp only [Option.map_none]
      split
      · exact ⟨h1, rfl⟩
      · split
        · exact ⟨h1, rfl⟩
        · exact ⟨h1, rfl⟩
  refine ⟨hr.1, hr.2, ?_⟩
  unfold getAttrW getAttr lookupW
  rw [plain_flatten, ← List.map_reverse, List.find?_map]
  have : ((fun x : Attr × Decl => x.1 == a) ∘ fun x : Attr × Dep => (x.1, x.2.decl)) = fun x => x.1 == a := rfl
  rw [this]
  cases hf : classes.flatten.reverse.find? (fun x => x.1 == a) with
  | none => rfl
  | some x =>
    simp only [Option.map_some]
    unfold warn
    cases x.2.deprecated <;> cases o a <;> simp only [Bool.false_eq_true, if_true, if_false, Option.map_some]
    all_goals
      cases x.2.decl.default with
      | none => rfl
      | some v =>
        simp only
        cases x.2.decl.conv v <;> rfl

theorem readAllW_warned (cfg : Cfg) (o o' : Obj) (w : List Attr) (xs : List (Attr × Dep)) (h : readAllW false cfg o xs = (o', w, none)) :
    w = (xs.filter fun x => x.2.deprecated && decide (Sets cfg x)).map Prod.fst := by
  induction xs generalizing o w with
  | nil =>
    rw [readAllW] at h
    simp only [Prod.mk.injEq] at h
    rw [← h.2.1]
    rfl
  | cons x xs ih =>
    rw [readAllW] at h
    unfold fromConfigW at h
    cases hl : cfg.lookup (keyOf x.1 x.2.decl) with
    | none =>
      rw [hl] at h
      simp only [List.nil_append] at h
      have hs : ¬ Sets cfg x := fun ⟨v, hv⟩ => by
        rw [keyOf] at hl
        rw [hl] at hv
        cases hv
      rw [List.filter_cons_of_neg (by simp [hs])]
      exact ih o w h
    | some v =>
      rw [hl] at h
      have hs : Sets cfg x := ⟨v, hl⟩
      cases hc : x.2.decl.conv v with
      | error e =>
        simp only [hc] at h
        simp only [Prod.mk.injEq] at h
        cases h.2.2
      | ok y =>
        simp only [hc] at h
        unfold warn at h
        obtain ⟨o2, w2, r2, e2⟩ : ∃ o2 w2 r2, readAllW false cfg (o.set x.1 y) xs = (o2, w2, r2) := ⟨_, _, _, rfl⟩
        cases hd : x.2.deprecated with
        | true =>
          simp only [hd, Bool.false_eq_true, if_true, if_false, e2, Prod.mk.injEq] at h
          rw [List.filter_cons_of_pos (by simp [hd, hs]), List.map_cons, ← h.2.1, List.singleton_append]
          exact congrArg _ (ih _ w2 (by rw [e2, h.1, h.2.2]))
        | false =>
          simp only [hd, Bool.false_eq_true, if_false, e2, Prod.mk.injEq, List.nil_append] at h
          rw [List.filter_cons_of_neg (by simp [hd])]
          exact ih _ w (by rw [e2, h.1, h.2.1, h.2.2])

theorem readConfigW_ok (strict : Bool) (classes : List DClass) (o o' : Obj) (cfg : Cfg) (c : Compare) (u : Bool) (w : List Attr)
    (h : readConfigW strict classes o cfg c u = (o', w, none)) : readAllW strict cfg o classes.flatten = (o', w, none) := by
  unfold readConfigW at h
  obtain ⟨o1, w1, r1, e1⟩ : ∃ o1 w1 r1, readAllW strict cfg o classes.flatten = (o1, w1, r1) := ⟨_, _, _, rfl⟩
  rw [e1] at h
  cases r1 with
  | some e => simp only [Prod.mk.injEq] at h; cases h.2.2
  | none =>
    simp only at h
    split at h
    · simp only [Prod.mk.injEq] at h; cases h.2.2
    · split at h
      · simp only [Prod.mk.injEq] at h; cases h.2.2
      · rw [e1, h]

/-- **C126** (configurations). What a configuration is warned about: the deprecated declarations whose key it has, in order. If no
attribute is declared twice, this is each deprecated property that it sets, once. -/
theorem C126_warned_partial (classes : List DClass) (o o' : Obj) (cfg : Cfg) (c : Compare) (u : Bool) (w : List Attr)
    (h : readConfigW false classes o cfg c u = (o', w, none)) :
    w = (classes.flatten.filter fun x => x.2.deprecated && decide (Sets cfg x)).map Prod.fst ∧
    (Once classes → w.Nodup ∧ ∀ a d, Found classes a d → (a ∈ w ↔ d.deprecated = true ∧ Sets cfg (a, d))) := by
  have hw := readAllW_warned cfg o o' w _ (readConfigW_ok false classes o o' cfg c u w h)
  refine ⟨hw, fun ho => ⟨?_, ?_⟩⟩
  · rw [hw]
    exact ho.sublist (List.filter_sublist.map _)
  · intro a d ⟨pre, post, hf, hp⟩
    rw [hw]
    simp only [List.mem_map, List.mem_filter, Bool.and_eq_true, decide_eq_true_eq]
    constructor
    · rintro ⟨⟨b, e⟩, ⟨hm, h1, h2⟩, rfl⟩
      have : e = d := by
        unfold Once at ho
        rw [hf, List.map_append, List.map_cons] at ho
        rw [hf] at hm
        rcases List.mem_append.1 hm with hm | hm
        · have := (List.nodup_append.1 ho).2.2 b (List.mem_map_of_mem (f := Prod.fst) hm) b (by simp)
          exact absurd rfl this
        · rcases List.mem_cons.1 hm with hm | hm
          · exact (Prod.mk.inj hm).2
          · exact absurd rfl (hp _ hm)
      subst this
      exact ⟨h1, h2⟩
    · rintro ⟨h1, h2⟩
      exact ⟨(a, d), ⟨by rw [hf]; simp, h1, h2⟩, rfl⟩

theorem readAllW_quiet (strict : Bool) (cfg : Cfg) (o : Obj) (xs : List (Attr × Dep)) (h : ∀ x ∈ xs, x.2.deprecated = true → ¬ Sets cfg x) :
    (readAllW strict cfg o xs).2.1 = [] ∧ readAllW strict cfg o xs = readAllW false cfg o xs := by
  induction xs generalizing o with
  | nil => exact ⟨rfl, rfl⟩
  | cons x xs ih =>
    have ih := fun o => ih o fun y hy => h y (by simp [hy])
    rw [readAllW, readAllW]
    have hx := h x (by simp)
    unfold fromConfigW
    cases hl : cfg.lookup (keyOf x.1 x.2.decl) with
    | none =>
      simp only [List.nil_append]
      exact ih o
    | some v =>
      simp only
      cases hc : x.2.decl.conv v with
      | error e => exact ⟨rfl, rfl⟩
      | ok y =>
        have hd : x.2.deprecated = false := by
          cases hd : x.2.deprecated with
          | false => rfl
          | true => exact absurd ⟨v, hl⟩ (hx hd)
        simp only [warn, hd, Bool.false_eq_true, if_false, List.nil_append]
        exact ih _

/-- **C126** (no warning without need). A configuration that has the key of no deprecated declaration gives no warning, whether it
is accepted or not, and turning warnings into errors changes nothing. -/
theorem C126_quiet (strict : Bool) (classes : List DClass) (o : Obj) (cfg : Cfg) (c : Compare) (u : Bool)
    (h : ∀ x ∈ classes.flatten, x.2.deprecated = true → ¬ Sets cfg x) :
    (readConfigW strict classes o cfg c u).2.1 = [] ∧ readConfigW strict classes o cfg c u = readConfigW false classes o cfg c u := by
  obtain ⟨h1, h2⟩ := readAllW_quiet strict cfg o classes.flatten h
  have e : readConfigW strict classes o cfg c u = readConfigW false classes o cfg c u := by
    unfold readConfigW
    rw [h2]
  refine ⟨?_, e⟩
  unfold readConfigW
  obtain ⟨o1, w1, r1, e1⟩ : ∃ o1 w1 r1, readAllW strict cfg o classes.flatten = (o1, w1, r1) := ⟨_, _, _, rfl⟩
  rw [e1] at h1 ⊢
  simp only at h1
  subst h1
  cases r1 with
  | some e => rfl
  | none =>
    simp only
    split
    · rfl
    · split <;> rfl

/-- **C126** (access). Getting and setting a property warn once if the declaration found is deprecated, and not otherwise, whatever comes
of it. -/
theorem C126_access (classes : List DClass) (o : Obj) (a : Attr) (d : Dep) (hd : Found classes a d) (v : Val) :
    (∃ r, getAttrW false classes o a = some (if d.deprecated then [a] else [], r)) ∧
    (∃ o' r, setAttrW false classes o a v = some (o', if d.deprecated then [a] else [], r)) := by
  have hl := lookupW_found classes a d hd
  unfold getAttrW setAttrW
  rw [hl]
  simp only
  unfold warn
  cases d.deprecated <;> simp only [Bool.false_eq_true, if_true, if_false]
  all_goals
    constructor
    · cases o a with
      | some x => exact ⟨_, rfl⟩
      | none =>
        simp only
        cases d.decl.default with
        | none => exact ⟨_, rfl⟩
        | some x =>
          simp only
          cases d.decl.conv x <;> exact ⟨_, rfl⟩
    · cases d.decl.conv v <;> exact ⟨_, _, rfl⟩

/-- **C126** (setting). Setting stores the converted value under that attribute alone, or raises what the conversion raises and changes
nothing, deprecated or not. -/
theorem C126_set (classes : List DClass) (o : Obj) (a : Attr) (d : Dep) (hd : Found classes a d) (v : Val) :
    (∀ r, d.decl.conv v = .ok r → ∃ o' w, setAttrW false classes o a v = some (o', w, none) ∧ o' a = some r ∧ ∀ b, b ≠ a → o' b = o b) ∧
    (∀ e, d.decl.conv v = .error e → ∃ w, setAttrW false classes o a v = some (o, w, some (.err e))) := by
  have hl := lookupW_found classes a d hd
  unfold setAttrW
  rw [hl]
  simp only
  unfold warn
  constructor
  · intro r hr
    refine ⟨o.set a r, if d.deprecated then [a] else [], ?_, by simp [Obj.set], fun b hb => by simp [Obj.set, hb]⟩
    cases d.deprecated <;> simp [hr]
  · intro e he
    refine ⟨if d.deprecated then [a] else [], ?_⟩
    cases d.deprecated <;> simp [he]

/-- **C126** (warnings as errors). Then getting and setting a deprecated property raise and change nothing, and a configuration that has
the key of one is never accepted. -/
theorem C126_strict_partial (classes : List DClass) (o : Obj) (a : Attr) (d : Dep) (hd : Found classes a d) (hdep : d.deprecated = true) (v : Val) :
    getAttrW true classes o a = some ([], .error (.warning a)) ∧ setAttrW true classes o a v = some (o, [], some (.warning a)) ∧
    ∀ cfg c u o' w, Sets cfg (a, d) → readConfigW true classes o cfg c u ≠ (o', w, none) := by
  have hl := lookupW_found classes a d hd
  refine ⟨?_, ?_, ?_⟩
  · simp [getAttrW, hl, warn, hdep]
  · simp [setAttrW, hl, warn, hdep]
  · intro cfg c u o' w hs h
    replace h := readConfigW_ok true classes o o' cfg c u w h
    obtain ⟨pre, post, hf, -⟩ := hd
    have hm : (a, d) ∈ classes.flatten := by rw [hf]; simp
    generalize classes.flatten = xs at h hm
    induction xs generalizing o w with
    | nil => cases hm
    | cons x xs ih =>
      rw [readAllW] at h
      obtain ⟨o1, w1, r1, e1⟩ : ∃ o1 w1 r1, fromConfigW true cfg o x = (o1, w1, r1) := ⟨_, _, _, rfl⟩
      rw [e1] at h
      cases r1 with
      | some e => simp only [Prod.mk.injEq] at h; cases h.2.2
      | none =>
        simp only at h
        obtain ⟨o2, w2, r2, e2⟩ : ∃ o2 w2 r2, readAllW true cfg o1 xs = (o2, w2, r2) := ⟨_, _, _, rfl⟩
        rw [e2] at h
        simp only [Prod.mk.injEq] at h
        rcases List.mem_cons.1 hm with rfl | hm
        · obtain ⟨y, hy⟩ := hs
          unfold fromConfigW at e1
          rw [show keyOf a d.decl = d.decl.key.getD a from rfl, hy] at e1
          simp only at e1
          cases hc : d.decl.conv y with
          | error e => rw [hc] at e1; simp only [Prod.mk.injEq] at e1; cases e1.2.2
          | ok z =>
            rw [hc] at e1
            simp [warn, hdep] at e1
        · exact ih o1 w2 (by rw [e2, h.1, h.2.2]) hm

/-! ### A case -/

/-- A class with an old and a new property. -/
def twoProps : List DClass := [[("old", { deprecated := true }), ("new", {})]]

example : ∃ o, readConfigW false twoProps (fun _ => none) [("new", .int 1), ("old", .int 2)] = (o, ["old"], none) ∧
    o "old" = some (.int 2) ∧ o "new" = some (.int 1) := ⟨_, rfl, rfl, rfl⟩

example : Once twoProps ∧ Found twoProps "old" { deprecated := true } := by
  refine ⟨by unfold Once twoProps; simp, ⟨[], [("new", {})], rfl, by simp⟩⟩

example : (readConfigW true twoProps (fun _ => none) [("new", .int 1)]).2.1 = [] :=
  (C126_quiet true twoProps _ _ _ _ (by
    intro x hx hd
    simp only [twoProps, List.flatten_cons, List.flatten_nil, List.append_nil, List.mem_cons, List.not_mem_nil, or_false] at hx
    rcases hx with rfl | rfl
    · rintro ⟨v, hv⟩
      simp [List.lookup] at hv
    · cases hd)).1

/-! ### Where the property fails -/

/-- **C126 fails** for a property that a derived class declares anew: the user is warned of it if the declaration in the base class
is deprecated, although the one in use is not, and twice if both are. -/
theorem C126_overridden_violated (o : Obj) (v : Val) (a : Attr) :
    (readConfigW false [[(a, { deprecated := true })], [(a, {})]] o [(a, v)]).2.1 = [a] ∧
    getAttrW false [[(a, { deprecated := true })], [(a, {})]] (fun _ => some v) a = some ([], .ok v) ∧
    (readConfigW false [[(a, { deprecated := true })], [(a, { deprecated := true })]] o [(a, v)]).2.1 = [a, a] := by
  refine ⟨?_, ?_, ?_⟩
  · simp [readConfigW, readAllW, fromConfigW, keyOf, warn, Compare.truth, List.lookup]
  · simp [getAttrW, lookupW, warn]
  · simp [readConfigW, readAllW, fromConfigW, keyOf, warn, Compare.truth, List.lookup]

/-- **C126 fails** for properties with a key of their own: the warning has the name of the attribute, which the configuration does not
have. -/
theorem C126_key_violated (o : Obj) (v : Val) (a : Attr) (k : Key) (hk : k ≠ a) :
    (readConfigW false [[(a, { decl := { key := some k }, deprecated := true })]] o [(k, v)]).2.1 = [a] ∧ a ∉ [(k, v)].map Prod.fst := by
  refine ⟨by simp [readConfigW, readAllW, fromConfigW, keyOf, warn, Compare.truth, List.lookup], ?_⟩
  simpa using fun h => hk h.symm

/-- **C126 fails** for warnings that are turned into errors: a configuration sets the property before it is refused, and the properties
declared after it are not set. -/
theorem C126_strict_violated (v w : Val) : ∃ o,
    readConfigW true twoProps (fun _ => none) [("new", w), ("old", v)] = (o, [], some (.warning "old")) ∧
      o "old" = some v ∧ o "new" = none := ⟨_, rfl, rfl, rfl⟩

end Verif.Config
