import Verif.Config.Model
import Mathlib.Data.Rat.Defs
import Mathlib.Algebra.Order.Ring.Rat

/-!
# C26 (`read_config`) and C27 (validated types)
-/
namespace Verif.Config

/-! ## C26 -/

/-- `d` is the declaration of attribute `a` in the most derived class that declares it: no later
declaration (the classes are listed base first) is of that attribute. -/
def MostDerived (classes : List Class) (a : Attr) (d : Decl) : Prop :=
  ∃ pre post, classes.flatten = pre ++ (a, d) :: post ∧ ∀ x ∈ post, x.1 ≠ a

theorem readAll_append (cfg : Cfg) (o o' : Obj) (xs ys : List (Attr × Decl))
    (h : readAll cfg o (xs ++ ys) = (o', none)) :
    ∃ o1, readAll cfg o xs = (o1, none) ∧ readAll cfg o1 ys = (o', none) := by
  induction xs generalizing o with
  | nil => exact ⟨o, rfl, h⟩
  | cons x xs ih =>
    rw [List.cons_append, readAll] at h
    rw [readAll]
    cases hf : fromConfig cfg o x with
    | error e => rw [hf] at h; simp at h
    | ok o2 => rw [hf] at h; exact ih o2 h

theorem fromConfig_other (cfg : Cfg) (o o' : Obj) (x : Attr × Decl) (a : Attr)
    (h : fromConfig cfg o x = .ok o') (hne : x.1 ≠ a ∨ cfg.lookup (keyOf x.1 x.2) = none) :
    o' a = o a := by
  unfold fromConfig at h
  cases hl : cfg.lookup (keyOf x.1 x.2) with
  | none => rw [hl] at h; rw [← Except.ok.inj h]
  | some v =>
    rw [hl] at h
    rcases hne with hne | hne
    · simp only at h
      cases hc : x.2.conv v with
      | error e => rw [hc] at h; exact absurd h (by simp)
      | ok w =>
        rw [hc] at h
        rw [← Except.ok.inj h]
        simp [Obj.set, Ne.symm hne]
    · rw [hl] at hne; exact absurd hne (by simp)

/-- Whatever happens, attributes without a declaration whose key is present keep their value. -/
theorem readAll_other (cfg : Cfg) (o : Obj) (xs : List (Attr × Decl)) (a : Attr)
    (h : ∀ x ∈ xs, x.1 ≠ a ∨ cfg.lookup (keyOf x.1 x.2) = none) :
    (readAll cfg o xs).1 a = o a := by
  induction xs generalizing o with
  | nil => rfl
  | cons x xs ih =>
    rw [readAll]
    cases hf : fromConfig cfg o x with
    | error e => rfl
    | ok o1 =>
      simp only
      rw [ih o1 (fun y hy => h y (List.mem_cons_of_mem _ hy)),
        fromConfig_other cfg o o1 x a hf (h x (by simp))]

theorem readConfig_fst (classes : List Class) (o : Obj) (cfg : Cfg) (c : Compare) (u : Bool) :
    (readConfig classes o cfg c u).1 = (readAll cfg o classes.flatten).1 := by
  unfold readConfig
  simp only
  split
  · rfl
  · split
    · rfl
    · split <;> rfl

theorem readConfig_ok (classes : List Class) (o o' : Obj) (cfg : Cfg) (c : Compare) (u : Bool)
    (h : readConfig classes o cfg c u = (o', none)) :
    readAll cfg o classes.flatten = (o', none) ∧
      (c.truth = true → hasUnused cfg (classes.flatten.map fun x => keyOf x.1 x.2) c = false) ∧
      (u = false → hasMissing cfg (classes.flatten.map fun x => keyOf x.1 x.2) = false) := by
  have h1 := readConfig_fst classes o cfg c u
  rw [h] at h1
  unfold readConfig at h
  simp only at h
  cases hr : (readAll cfg o classes.flatten).2 with
  | some e => rw [hr] at h; simp at h
  | none =>
    rw [hr] at h
    simp only at h
    refine ⟨Prod.ext h1.symm hr, ?_, ?_⟩
    · intro hc
      cases hh : hasUnused cfg (classes.flatten.map fun x => keyOf x.1 x.2) c with
      | false => rfl
      | true => rw [hc, hh] at h; simp at h
    · intro hu
      cases hh : hasMissing cfg (classes.flatten.map fun x => keyOf x.1 x.2) with
      | false => rfl
      | true =>
        rw [hu, hh] at h
        split at h <;> simp at h

/-- Attribute lookup finds the most derived declaration. -/
theorem getAttr_mostDerived (classes : List Class) (o : Obj) (a : Attr) (d : Decl)
    (h : MostDerived classes a d) :
    getAttr classes o a = some (match o a with
      | some v => .ok v
      | none => match d.default with
        | none => .ok .none
        | some v => d.conv v) := by
  obtain ⟨pre, post, hd, hpost⟩ := h
  unfold getAttr
  have : classes.flatten.reverse.find? (fun x => x.1 == a) = some (a, d) := by
    rw [hd, List.reverse_append, List.reverse_cons, List.append_assoc, List.find?_append,
      List.find?_eq_none.2]
    · simp
    · intro x hx
      have := hpost x (by simpa using hx)
      simpa using this
  rw [this]
  cases o a <;> rfl

/-- **C26**, keys that are present. After a successful call every attribute whose key (in its most
derived declaration) is in the configuration yields the value of that key, converted by that
declaration. -/
theorem C26_value (classes : List Class) (o o' : Obj) (cfg : Cfg) (c : Compare) (u : Bool)
    (h : readConfig classes o cfg c u = (o', none)) (a : Attr) (d : Decl)
    (hd : MostDerived classes a d) (v : Val) (hv : cfg.lookup (d.key.getD a) = some v) :
    ∃ w, d.conv v = .ok w ∧ getAttr classes o' a = some (.ok w) := by
  rw [getAttr_mostDerived classes o' a d hd]
  obtain ⟨pre, post, hfl, hpost⟩ := hd
  have h1 := (readConfig_ok classes o o' cfg c u h).1
  rw [hfl] at h1
  obtain ⟨o1, _, h2⟩ := readAll_append cfg o o' pre _ h1
  rw [readAll] at h2
  cases hf : fromConfig cfg o1 (a, d) with
  | error e => rw [hf] at h2; simp at h2
  | ok o2 =>
    rw [hf] at h2
    simp only at h2
    have h3 := readAll_other cfg o2 post a (fun x hx => .inl (hpost x hx))
    rw [show (readAll cfg o2 post).1 = o' by rw [h2]] at h3
    unfold fromConfig at hf
    rw [show keyOf a d = d.key.getD a from rfl, hv] at hf
    simp only at hf
    cases hc : d.conv v with
    | error e => rw [hc] at hf; simp at hf
    | ok w =>
      rw [hc] at hf
      refine ⟨w, rfl, ?_⟩
      have h4 : o' a = some w := by
        rw [h3, ← Except.ok.inj hf]
        simp [Obj.set]
      rw [h4]

/-- **C26**, keys that are absent: if the key of no declaration of the attribute, neither the most
derived one nor an overridden one, is in the configuration, the attribute of a fresh object yields
its default (converted; `None` if there is none). What is missing is the case of an overridden
declaration with another key, see below. -/
theorem C26_default_partial (classes : List Class) (o : Obj) (cfg : Cfg) (c : Compare) (u : Bool)
    (a : Attr) (d : Decl) (hd : MostDerived classes a d) (hfresh : o a = none)
    (habs : ∀ x ∈ classes.flatten, x.1 = a → cfg.lookup (x.2.key.getD a) = none) :
    getAttr classes (readConfig classes o cfg c u).1 a = some (match d.default with
      | none => .ok .none
      | some v => d.conv v) := by
  rw [getAttr_mostDerived classes _ a d hd, readConfig_fst,
    readAll_other cfg o classes.flatten a (by
      intro x hx
      by_cases hxa : x.1 = a
      · right
        have := habs x hx hxa
        unfold keyOf
        rw [hxa]; exact this
      · exact .inl hxa), hfresh]

/-- **C26**, unknown keys: with `compare_keys` true (a non-empty list of tolerated keys, or `True`), a
configuration with a key that is neither declared nor tolerated is reported. -/
theorem C26_unknown_reported (classes : List Class) (o : Obj) (cfg : Cfg) (c : Compare) (u : Bool)
    (hc : c = .flag true ∨ ∃ l, c = .tolerate l ∧ l ≠ []) (k : Key) (hk : k ∈ cfg.map Prod.fst)
    (hdecl : ∀ x ∈ classes.flatten, x.2.key.getD x.1 ≠ k)
    (htol : ∀ l, c = .tolerate l → k ∉ l) :
    (readConfig classes o cfg c u).2 ≠ none := by
  intro h
  obtain ⟨_, h1, _⟩ := readConfig_ok classes o _ cfg c u (Prod.ext rfl h)
  have ht : c.truth = true := by
    rcases hc with rfl | ⟨l, rfl, hl⟩
    · rfl
    · simpa [Compare.truth] using hl
  have := h1 ht
  unfold hasUnused at this
  rw [List.any_eq_false] at this
  obtain ⟨kv, hkv, rfl⟩ := List.mem_map.1 hk
  have h2 := this kv hkv
  simp only [Bool.not_eq_true', Bool.not_eq_false, List.contains_iff_mem, List.mem_append,
    List.mem_map] at h2
  rcases h2 with ⟨x, hx, hxk⟩ | h2
  · exact hdecl x hx hxk
  · cases c with
    | flag b => simp [Compare.tolerated] at h2
    | tolerate l => exact htol l rfl h2

/-- **C26**, and nothing else is: if all keys are declared or tolerated and all are there when they
are required, the only possible exception comes from a converter. -/
theorem C26_no_other_error (classes : List Class) (o : Obj) (cfg : Cfg) (c : Compare) (u : Bool)
    (hk : ∀ kv ∈ cfg, (∃ x ∈ classes.flatten, x.2.key.getD x.1 = kv.1) ∨ kv.1 ∈ c.tolerated)
    (hu : u = false → ∀ x ∈ classes.flatten, x.2.key.getD x.1 ∈ cfg.map Prod.fst)
    (hconv : ∀ x ∈ classes.flatten, ∀ v, cfg.lookup (x.2.key.getD x.1) = some v →
      ∃ w, x.2.conv v = .ok w) :
    (readConfig classes o cfg c u).2 = none := by
  have hall : ∀ (xs : List (Attr × Decl)) (o : Obj), (∀ x ∈ xs, ∀ v,
      cfg.lookup (x.2.key.getD x.1) = some v → ∃ w, x.2.conv v = .ok w) →
      (readAll cfg o xs).2 = none := by
    intro xs
    induction xs with
    | nil => intro o _; rfl
    | cons x xs ih =>
      intro o hx
      rw [readAll]
      have : ∃ o1, fromConfig cfg o x = .ok o1 := by
        unfold fromConfig
        cases hl : cfg.lookup (keyOf x.1 x.2) with
        | none => exact ⟨o, rfl⟩
        | some v =>
          obtain ⟨w, hw⟩ := hx x (by simp) v hl
          simp only [hw]
          exact ⟨_, rfl⟩
      obtain ⟨o1, ho1⟩ := this
      rw [ho1]
      exact ih o1 (fun y hy => hx y (List.mem_cons_of_mem _ hy))
  unfold readConfig
  simp only
  rw [hall classes.flatten o hconv]
  simp only
  have h1 : hasUnused cfg (classes.flatten.map fun x => keyOf x.1 x.2) c = false := by
    unfold hasUnused
    rw [List.any_eq_false]
    intro kv hkv
    simp only [Bool.not_eq_true', Bool.not_eq_false, List.contains_iff_mem, List.mem_append,
      List.mem_map]
    exact hk kv hkv
  rw [h1, Bool.and_false]
  simp only [Bool.false_eq_true, if_false]
  cases u with
  | true => rfl
  | false =>
    have h2 : hasMissing cfg (classes.flatten.map fun x => keyOf x.1 x.2) = false := by
      unfold hasMissing
      rw [List.any_eq_false]
      intro k hkk
      obtain ⟨x, hx, rfl⟩ := List.mem_map.1 hkk
      simp only [Bool.not_eq_true', Bool.not_eq_false, List.contains_iff_mem]
      exact hu rfl x hx
    rw [h2]
    rfl

/-- **C26**, missing keys: without defaults a key that is declared but absent is reported. -/
theorem C26_missing_reported (classes : List Class) (o : Obj) (cfg : Cfg) (c : Compare)
    (x : Attr × Decl) (hx : x ∈ classes.flatten) (hk : x.2.key.getD x.1 ∉ cfg.map Prod.fst) :
    (readConfig classes o cfg c false).2 ≠ none := by
  intro h
  obtain ⟨_, _, h2⟩ := readConfig_ok classes o _ cfg c false (Prod.ext rfl h)
  have := h2 rfl
  unfold hasMissing at this
  rw [List.any_eq_false] at this
  have h3 := this (keyOf x.1 x.2) (List.mem_map_of_mem (f := fun x => keyOf x.1 x.2) hx)
  simp only [Bool.not_eq_true', Bool.not_eq_false, List.contains_iff_mem] at h3
  exact hk h3

/-! A class hierarchy: the derived class overrides `x` with another converter. -/

def intConv : Val → Except Err Val
  | .int i => .ok (.int i)
  | .str "7" => .ok (.int 7)
  | _ => .error .typeError

def exBase : Class := [("x", { conv := intConv, default := some (.int 1) }),
  ("y", { key := some "why", default := some (.int 2) })]
def exDerived : Class := [("x", { default := some (.str "d") }), ("z", { conv := intConv })]

example : MostDerived [exBase, exDerived] "x" { default := some (.str "d") } ∧
    MostDerived [exBase, exDerived] "y" { key := some "why", default := some (.int 2) } ∧
    (readConfig [exBase, exDerived] (fun _ => none) [("x", .str "7"), ("z", .int 4)] (.flag true)
      true).2 = none ∧
    (∀ x ∈ [exBase, exDerived].flatten, x.1 = "y" →
      ([("x", Val.str "7"), ("z", .int 4)] : Cfg).lookup (x.2.key.getD "y") = none) :=
  ⟨⟨exBase, [("z", { conv := intConv })], rfl, by simp⟩,
   ⟨[("x", { conv := intConv, default := some (.int 1) })], exDerived, rfl, by simp [exDerived]⟩,
   rfl, by
    intro x hx hxy
    simp only [exBase, exDerived, List.flatten_cons, List.flatten_nil, List.append_nil,
      List.cons_append, List.nil_append, List.mem_cons, List.not_mem_nil, or_false] at hx
    rcases hx with rfl | rfl | rfl | rfl <;> rfl⟩

example : (readConfig [exBase, exDerived] (fun _ => none) [("typo", .int 1)] (.flag true) true).2
    = some .configError := rfl

/-- **C26 fails** for an overridden declaration: its converter is run first and may reject a value
that the derived class accepts. -/
theorem C26_overridden_converter_violated :
    ∃ (classes : List Class) (cfg : Cfg) (d : Decl) (v w : Val), MostDerived classes "x" d ∧
      cfg = [("x", v)] ∧ d.conv v = .ok w ∧
      (readConfig classes (fun _ => none) cfg).2 = some .configError :=
  ⟨[exBase, exDerived], [("x", .str "abc")], { default := some (.str "d") }, .str "abc", .str "abc",
    ⟨exBase, [("z", { conv := intConv })], rfl, by simp⟩, rfl, rfl, rfl⟩

/-- **C26 fails** for an overridden declaration with another key: the value of the old key, converted
by the overridden declaration, replaces the default of the derived one. -/
theorem C26_overridden_key_violated :
    ∃ (classes : List Class) (cfg : Cfg) (d : Decl), MostDerived classes "x" d ∧
      cfg.lookup (d.key.getD "x") = none ∧ d.default = some (.int 5) ∧
      (readConfig classes (fun _ => none) cfg).2 = none ∧
      getAttr classes (readConfig classes (fun _ => none) cfg).1 "x" = some (.ok (.int 8)) :=
  ⟨[[("x", { key := some "old" })], [("x", { key := some "new", default := some (.int 5) })]],
    [("old", .int 8)], { key := some "new", default := some (.int 5) },
    ⟨[("x", { key := some "old" })], [], rfl, by simp⟩, rfl, rfl, rfl, rfl⟩

/-- **C26 fails** for a call that raises: properties read before the faulty one keep their new
value. -/
theorem C26_not_atomic_violated :
    ∃ (classes : List Class) (cfg : Cfg),
      (readConfig classes (fun _ => none) cfg).2 = some .configError ∧
      getAttr classes (fun _ => none) "y" = some (.ok (.int 2)) ∧
      getAttr classes (readConfig classes (fun _ => none) cfg).1 "y" = some (.ok (.int 3)) :=
  ⟨[exBase, exDerived], [("why", .int 3), ("z", .str "bad")], rfl, rfl, rfl⟩

/-- What does hold for a call that raises: attributes that no key of the configuration refers to
are unchanged. -/
theorem C26_raise_partial (classes : List Class) (o : Obj) (cfg : Cfg) (c : Compare) (u : Bool)
    (a : Attr) (habs : ∀ x ∈ classes.flatten, x.1 = a → cfg.lookup (x.2.key.getD a) = none) :
    (readConfig classes o cfg c u).1 a = o a := by
  rw [readConfig_fst]
  apply readAll_other
  intro x hx
  by_cases hxa : x.1 = a
  · right
    have := habs x hx hxa
    unfold keyOf
    rw [hxa]; exact this
  · exact .inl hxa

/-- **C26 fails** for an empty list of tolerated keys: no unknown key is reported, though with `True`,
which tolerates none either, each one is. -/
theorem C26_empty_tolerance_violated (o : Obj) (k : Key) (v : Val) (hk : k ≠ "x") :
    (readConfig [[("x", {})]] o [(k, v)] (.tolerate []) true).2 = none ∧
      (readConfig [[("x", {})]] o [(k, v)] (.flag true) true).2 ≠ none := by
  constructor
  · unfold readConfig
    simp [readAll, fromConfig, keyOf, List.lookup, Compare.truth, beq_eq_false_iff_ne.2 hk.symm]
  · exact C26_unknown_reported _ o _ _ _ (.inl rfl) k (by simp) (by simp [Ne.symm hk]) (by simp)

/-! ## C27 -/

/-- **C27**, `float_in_range` with finite bounds, for a value that reads as a finite number: accepted
exactly in the closed interval, and the result is that number; otherwise `CaputConfigError`. NaN is
the missing case, see below. -/
theorem C27_float_in_range_partial (parse : String → Option Fl) (a b q : Rat) (v : Val)
    (hv : floatOf parse v = .ok (.fin q)) :
    (a ≤ q ∧ q ≤ b → floatInRange parse (.fin a) (.fin b) v = .ok (.flt (.fin q))) ∧
    (¬ (a ≤ q ∧ q ≤ b) → floatInRange parse (.fin a) (.fin b) v = .error .configError) := by
  unfold floatInRange
  rw [hv]
  constructor
  · rintro ⟨h1, h2⟩
    simp only
    rw [if_neg]
    simp only [Fl.lt, Bool.or_eq_true, decide_eq_true_eq, not_or]
    exact ⟨not_lt.2 h1, not_lt.2 h2⟩
  · intro h
    simp only
    rw [if_pos]
    simp only [Fl.lt, Bool.or_eq_true, decide_eq_true_eq]
    by_cases h1 : a ≤ q
    · exact .inr (lt_of_not_ge fun h2 => h ⟨h1, h2⟩)
    · exact .inl (lt_of_not_ge h1)

/-- **C27**, `float_in_range`: infinities are outside every finite interval, and what is not a number
is rejected too. -/
theorem C27_float_rejects (parse : String → Option Fl) (a b : Rat) (v : Val) :
    (floatOf parse v = .ok .inf ∨ floatOf parse v = .ok .ninf →
      floatInRange parse (.fin a) (.fin b) v = .error .configError) ∧
    (∀ e, floatOf parse v = .error e → floatInRange parse (.fin a) (.fin b) v = .error e) := by
  constructor
  · rintro (h | h) <;> simp [floatInRange, h, Fl.lt]
  · intro e h
    simp [floatInRange, h]

example : floatOf (fun _ => none) (.int 4) = .ok (.fin 4) ∧ ((0 : Rat) ≤ 4 ∧ (4 : Rat) ≤ 5) := by
  refine ⟨rfl, ?_, ?_⟩ <;> decide

/-- **C27 fails** for NaN: `float_in_range` accepts it whatever the bounds. -/
theorem C27_nan_violated (parse : String → Option Fl) (a b : Fl) :
    floatInRange parse a b (.flt .nan) = .ok (.flt .nan) := by
  unfold floatInRange
  cases a <;> cases b <;> rfl

/-- **C27**, `enum`: a value is accepted exactly if it equals an option, and is returned as it was
given; the default must equal an option. -/
theorem C27_enum (options : List Val) (v : Val) :
    (∀ w, enumConv options v = .ok w ↔ w = v ∧ ∃ x ∈ options, pyEq v x = true) ∧
    (∀ d, (∃ p, enumProp options (some d) = .ok p) ↔ ∃ x ∈ options, pyEq d x = true) := by
  constructor
  · intro w
    unfold enumConv
    by_cases h : options.any (pyEq v) = true
    · rw [if_pos h]
      rw [List.any_eq_true] at h
      constructor
      · intro e; exact ⟨(Except.ok.inj e).symm, h⟩
      · rintro ⟨rfl, _⟩; rfl
    · rw [if_neg h]
      rw [List.any_eq_true] at h
      constructor
      · intro e; exact absurd e (by simp)
      · rintro ⟨_, h'⟩; exact absurd h' h
  · intro d
    unfold enumProp
    by_cases h : options.any (pyEq d) = true
    · simp only [h, if_true, Except.ok.injEq, exists_eq', true_iff]
      exact List.any_eq_true.1 h
    · simp only [h]
      constructor
      · rintro ⟨p, hp⟩; exact absurd hp (by simp)
      · intro h'; exact absurd (List.any_eq_true.2 h') h

/-- Strings, as in almost all uses: accepted exactly if they are options. -/
theorem C27_enum_strings (options : List String) (s : String) :
    enumConv (options.map .str) (.str s) = .ok (.str s) ↔ s ∈ options := by
  rw [(C27_enum _ _).1]
  simp [pyEq]

example : enumConv [.str "forward", .str "backward"] (.str "forward") = .ok (.str "forward") := rfl

/-- **C27 fails** for `enum` with numbers: `True` passes for the option `1`, and stays `True`. -/
theorem C27_enum_bool_violated :
    enumConv [.int 1, .int 2] (.bool true) = .ok (.bool true) := rfl

/-- **C27**, `list_type`, for lengths that are not zero: exactly the lists and tuples of the right
type and length are accepted, unchanged; everything else is a `CaputConfigError`. -/
theorem C27_list_type_partial (ty : Option Ty) (length maxlength : Option Int)
    (h1 : length ≠ some 0) (h2 : maxlength ≠ some 0) (v : Val) :
    let Fits := ∃ l, (v = .list l ∨ v = .tuple l) ∧
      (∀ t, ty = some t → ∀ x ∈ l, isInstance x t = true) ∧
      (∀ n, length = some n → (l.length : Int) = n) ∧
      (∀ n, maxlength = some n → (l.length : Int) ≤ n)
    (Fits → listConv ty length maxlength v = .ok v) ∧
    (¬ Fits → listConv ty length maxlength v = .error .configError) := by
  have g : ∀ x : Option Int, x ≠ some 0 → given x = x := by
    intro x hx
    unfold given
    split
    · exact absurd rfl hx
    · rfl
  intro Fits
  have key : ∀ l, (v = .list l ∨ v = .tuple l) → listConv ty length maxlength v =
      if (∀ t, ty = some t → ∀ x ∈ l, isInstance x t = true) ∧
        (∀ n, length = some n → (l.length : Int) = n) ∧
        (∀ n, maxlength = some n → (l.length : Int) ≤ n) then .ok v else .error .configError := by
    intro l hl
    have hs : asSequence v = some l := by rcases hl with rfl | rfl <;> rfl
    unfold listConv
    rw [hs, g _ h1, g _ h2]
    simp only
    have b1 : (ty.all fun t => l.all fun x => isInstance x t) = true ↔
        (∀ t, ty = some t → ∀ x ∈ l, isInstance x t = true) := by
      cases ty <;> simp
    have b2 : (length.all fun n => decide ((l.length : Int) = n)) = true ↔
        (∀ n, length = some n → (l.length : Int) = n) := by
      cases length <;> simp
    have b3 : (maxlength.all fun n => decide ((l.length : Int) ≤ n)) = true ↔
        (∀ n, maxlength = some n → (l.length : Int) ≤ n) := by
      cases maxlength <;> simp
    simp only [← b1, ← b2, ← b3]
    cases (ty.all fun t => l.all fun x => isInstance x t) <;>
      cases (length.all fun n => decide ((l.length : Int) = n)) <;>
      cases (maxlength.all fun n => decide ((l.length : Int) ≤ n)) <;> rfl
  constructor
  · rintro ⟨l, hl, hf⟩
    rw [key l hl, if_pos hf]
  · intro hn
    cases hs : asSequence v with
    | none => simp [listConv, hs]
    | some l =>
      have hl : v = .list l ∨ v = .tuple l := by
        unfold asSequence at hs
        split at hs
        · exact .inl (by rw [Option.some.inj hs])
        · exact .inr (by rw [Option.some.inj hs])
        · exact absurd hs (by simp)
      rw [key l hl, if_neg (fun hf => hn ⟨l, hl, hf⟩)]

example : listConv (some .int) (some 2) none (.list [.int 3, .int 4])
    = .ok (.list [.int 3, .int 4]) := rfl
example : listConv (some .int) (some 2) none (.list [.int 3, .str "4"]) = .error .configError := rfl

/-- **C27 fails** for a required length or a maximal length of zero: it is ignored. -/
theorem C27_zero_length_violated (l : List Val) :
    listConv none (some 0) (some 0) (.list l) = .ok (.list l) := rfl

/-- **C27 fails** for an empty default that breaks the required length: `list_type` accepts it, and
every access to the unset property raises. -/
theorem C27_empty_default_violated :
    ∃ d, listType (some .int) (some 2) none (some (.list [])) = .ok d ∧
      getAttr [[("x", d)]] (fun _ => none) "x" = some (.error .configError) :=
  ⟨_, rfl, rfl⟩

/-- **C27**, `file_format`: `None` and the format classes are accepted and returned; other classes are
rejected. -/
theorem C27_file_format_partial (n : String) :
    fileFormatConv .none = .ok .none ∧ fileFormatConv (.cls n true) = .ok (.cls n true) ∧
      fileFormatConv (.cls n false) = .error .configError := ⟨rfl, rfl, rfl⟩

/-- **C27**, the default of `file_format`: a declaration is accepted if and only if it has no default, or one that is "hdf5" or
"zarr" up to case; it keeps the default as it was given. -/
theorem C27_file_format_options (lower : String → String) (default : Option Val) :
    ((∃ d, fileFormat lower default = .ok d) ↔ default = none ∨ ∃ s, default = some (.str s) ∧ lower s ∈ ["hdf5", "zarr"]) ∧
    (∀ d, fileFormat lower default = .ok d → d.default = default) ∧
    (∀ e, fileFormat lower default = .error e → e = .configError) := by
  unfold fileFormat
  split
  · exact ⟨⟨fun _ => .inl rfl, fun _ => ⟨_, rfl⟩⟩, fun d h => by rw [← Except.ok.inj h], fun e h => by cases h⟩
  · next s =>
    split
    · next hs =>
      refine ⟨⟨fun _ => .inr ⟨s, rfl, by simpa using hs⟩, fun _ => ⟨_, rfl⟩⟩, fun d h => by rw [← Except.ok.inj h], fun e h => by cases h⟩
    · next hs =>
      refine ⟨⟨?_, ?_⟩, ?_, ?_⟩
      · rintro ⟨d, h⟩; cases h
      · rintro (h | ⟨t, h, ht⟩)
        · cases h
        · simp only [Option.some.injEq, Val.str.injEq] at h
          subst h
          exact absurd (by simpa using ht) hs
      · intro d h; cases h
      · intro e h; exact (Except.error.inj h).symm
  · next v hv =>
    refine ⟨⟨?_, ?_⟩, ?_, ?_⟩
    · rintro ⟨d, h⟩; cases h
    · rintro (h | ⟨t, h, ht⟩)
      · cases h
      · exact absurd (Option.some.inj h) (hv t)
    · intro d h; cases h
    · intro e h; exact (Except.error.inj h).symm

example : (∃ d, fileFormat id (some (.str "zarr")) = .ok d) ∧ ¬ ∃ d, fileFormat id (some (.str "fits")) = .ok d :=
  ⟨(C27_file_format_options id _).1.2 (.inr ⟨"zarr", rfl, by simp⟩), fun h => by
    rcases (C27_file_format_options id _).1.1 h with h | ⟨s, h, hs⟩
    · cases h
    · simp only [Option.some.injEq, Val.str.injEq] at h
      subst h
      simp at hs⟩

/-- **C27 fails** for `file_format`: no string at all is accepted, "hdf5" and "zarr" included; in a
configuration it is a `CaputConfigError`. -/
theorem C27_file_format_violated (s : String) (o : Obj) :
    fileFormatConv (.str s) = .error .typeError ∧
      (readConfig [[("output_format", { conv := fileFormatConv })]] o
        [("output_format", .str s)]).2 = some .configError := ⟨rfl, rfl⟩

/-- **C27 fails** for the default of `file_format`: "zarr" is allowed, but then every access to the
unset property raises `TypeError`; a format class, though documented, is not allowed. -/
theorem C27_file_format_default_violated (lower : String → String) (h : lower "zarr" = "zarr") :
    (∃ d, fileFormat lower (some (.str "zarr")) = .ok d ∧
      getAttr [[("mode", d)]] (fun _ => none) "mode" = some (.error .typeError)) ∧
    (match fileFormat lower (some (.cls "Zarr" true)) with
      | .error e => e = .configError | .ok _ => False) := by
  refine ⟨⟨{ conv := fileFormatConv, default := some (.str "zarr") }, ?_, rfl⟩, rfl⟩
  unfold fileFormat
  simp only
  rw [if_pos (.inr h)]

/-- **C27**, `logging_config`: a level name stands for the root logger; a mapping is accepted exactly
if all its values are level names; the result has the same keys and the names in upper case. -/
theorem C27_logging (upper : String → String) :
    (∀ s, upper s ∈ ["DEBUG", "INFO", "WARNING", "ERROR", "NOTSET"] →
      loggingConv upper (.str s) = .ok (.dict [("root", .str (upper s))])) ∧
    (∀ l : List (String × String),
      (∀ x ∈ l, upper x.2 ∈ ["DEBUG", "INFO", "WARNING", "ERROR", "NOTSET"]) →
      loggingConv upper (.dict (l.map fun x => (x.1, .str x.2))) =
        .ok (.dict (l.map fun x => (x.1, .str (upper x.2))))) ∧
    (∀ (l : List (String × Val)) (k : String) (v : Val), (k, v) ∈ l →
      (∀ s, v = .str s → upper s ∉ ["DEBUG", "INFO", "WARNING", "ERROR", "NOTSET"]) →
      ∃ e, loggingConv upper (.dict l) = .error e) := by
  refine ⟨?_, ?_, ?_⟩
  · intro s hs
    simp only [loggingConv, checkLevel]
    rw [if_pos (show upper s ∈ logLevels from hs)]
    rfl
  · intro l hl
    have : (l.map fun x => (x.1, Val.str x.2)).mapM (checkLevel upper)
        = .ok (l.map fun x => (x.1, Val.str (upper x.2))) := by
      induction l with
      | nil => rfl
      | cons x xs ih =>
        simp only [List.map_cons, List.mapM_cons, ih (fun y hy => hl y (List.mem_cons_of_mem _ hy)),
          checkLevel]
        rw [if_pos (show upper x.2 ∈ logLevels from hl x (by simp))]
        rfl
    simp only [loggingConv, this]
    rfl
  · intro l k v hm hv
    have hbad : ∃ e, checkLevel upper (k, v) = .error e := by
      unfold checkLevel
      simp only
      split
      · rename_i s
        rw [if_neg (show upper s ∉ logLevels from hv s rfl)]
        exact ⟨_, rfl⟩
      · exact ⟨_, rfl⟩
    have : ∃ e, l.mapM (checkLevel upper) = .error e := by
      induction l with
      | nil => simp at hm
      | cons x xs ih =>
        rw [List.mapM_cons]
        rcases List.mem_cons.1 hm with rfl | hm
        · obtain ⟨e, he⟩ := hbad
          exact ⟨e, by rw [he]; rfl⟩
        · obtain ⟨e, he⟩ := ih hm
          cases hx : checkLevel upper x with
          | error e' => exact ⟨e', rfl⟩
          | ok y => exact ⟨e, by rw [he]; rfl⟩
    obtain ⟨e, he⟩ := this
    exact ⟨e, by simp only [loggingConv, he]; rfl⟩

example : loggingConv (fun s => if s = "info" then "INFO" else s) (.str "info")
    = .ok (.dict [("root", .str "INFO")]) := rfl

/-- **C27 fails** for `logging_config` given something else, for instance a number: the intended
`ValueError` is not raised, but an `AttributeError` while its message is built; and the standard
level `CRITICAL` is rejected. -/
theorem C27_logging_violated (upper : String → String) (i : Int) (h : upper "CRITICAL" = "CRITICAL") :
    loggingConv upper (.int i) = .error .attributeError ∧
      loggingConv upper (.str "CRITICAL") = .error .valueError := by
  refine ⟨rfl, ?_⟩
  simp only [loggingConv, checkLevel, h]
  rfl

/-- What `enum` and `list_type` declare: a property that checks every value given, and has the default given; a default that would not be accepted is
refused with `ValueError`. -/
theorem C27_declared (options : List Val) (ty : Option Ty) (length maxlength : Option Int) (d : Val) :
    (∀ p, enumProp options none = .ok p → p.default = none ∧ p.conv = enumConv options) ∧
    (∀ p, enumProp options (some d) = .ok p → p.default = some d ∧ p.conv = enumConv options) ∧
    ((¬ ∃ x ∈ options, pyEq d x = true) → enumProp options (some d) = .error .valueError) ∧
    (∀ p, listType ty length maxlength none = .ok p → p.default = none ∧ p.conv = listConv ty length maxlength) ∧
    (∀ p, listType ty length maxlength (some d) = .ok p → p.default = some d ∧ p.conv = listConv ty length maxlength) ∧
    (truth d = true → listConv ty length maxlength d = .error .configError → listType ty length maxlength (some d) = .error .valueError) := by
  refine ⟨?_, ?_, ?_, ?_, ?_, ?_⟩
  · rintro p ⟨⟩; exact ⟨rfl, rfl⟩
  · intro p hp
    unfold enumProp at hp
    simp only at hp
    split at hp
    · cases hp; exact ⟨rfl, rfl⟩
    · cases hp
  · intro h
    unfold enumProp
    simp only
    rw [if_neg (fun h' => h (List.any_eq_true.1 h'))]
  · rintro p ⟨⟩; exact ⟨rfl, rfl⟩
  · intro p hp
    unfold listType at hp
    simp only at hp
    split at hp
    · split at hp
      · cases hp; exact ⟨rfl, rfl⟩
      · cases hp
    · cases hp; exact ⟨rfl, rfl⟩
  · intro ht h
    unfold listType
    simp only [ht, if_true, h]
    rfl

example : ∃ p, enumProp [.str "a", .str "b"] (some (.str "b")) = .ok p ∧ p.default = some (.str "b") := ⟨_, rfl, rfl⟩

example : truth (.list [.int 1]) = true ∧ listConv (some .str) none none (.list [.int 1]) = .error .configError := ⟨rfl, rfl⟩

/-- **C27**, `logging_config`: what is neither a string nor a mapping is refused, with the `ValueError` intended only if it is a class. -/
theorem C27_logging_refused (upper : String → String) (v : Val) (hs : ∀ s, v ≠ .str s) (hd : ∀ l, v ≠ .dict l) :
    ((∃ n b, v = .cls n b) → loggingConv upper v = .error .valueError) ∧
    ((¬ ∃ n b, v = .cls n b) → loggingConv upper v = .error .attributeError) := by
  constructor
  · rintro ⟨n, b, rfl⟩; rfl
  · intro hc
    cases v with
    | str s => exact absurd rfl (hs s)
    | dict l => exact absurd rfl (hd l)
    | cls n b => exact absurd ⟨n, b, rfl⟩ hc
    | _ => rfl

example : (∀ s, Val.list [.str "INFO"] ≠ .str s) ∧ (∀ l, Val.list [.str "INFO"] ≠ .dict l) := by
  constructor <;> intro _ h <;> cases h

end Verif.Config
