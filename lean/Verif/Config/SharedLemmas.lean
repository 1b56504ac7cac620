import Verif.Config.SharedSpec

/-!
# Lemmas about property objects with state
-/
namespace Verif.Config.Shared

variable {V : Type}

/-- `d` is the property object `d0` after some use. -/
structure Fine (K : Classes) (p : Nat) (d0 d : PropObj V) : Prop where
  conv : d.conv = d0.conv
  default : d.default = d0.default
  name : d.name = none ∨ ∃ c n, (n, p) ∈ K.own c ∧ d.name = some n
  key : d.key = d0.key ∨ ∃ c n, (n, p) ∈ K.own c ∧ d0.key = none ∧ d.key = some n

/-- The property objects of the world are those of `P` after some use. -/
def Adm (K : Classes) (P : List (PropObj V)) (w : World V) : Prop :=
  w.props.length = P.length ∧ ∀ p d0, P[p]? = some d0 → ∃ d, w.props[p]? = some d ∧ Fine K p d0 d

theorem Adm.of_fresh (K : Classes) (w : World V) (h : ∀ d ∈ w.props, d.name = none) : Adm K w.props w :=
  ⟨rfl, fun _ d0 hd => ⟨d0, hd, rfl, rfl, .inl (h d0 (List.mem_of_getElem? hd)), .inl rfl⟩⟩

theorem mem_all {K : Classes} {c : Nat} {x : String × Nat} (h : x ∈ K.all c) : ∃ c', x ∈ K.own c' := by
  obtain ⟨c', -, hc⟩ := List.mem_flatMap.1 h
  exact ⟨c', hc⟩

theorem nameFor_fine {K : Classes} (hK : OneName K) {c p : Nat} {a : String} (h : (a, p) ∈ K.all c) {d0 d : PropObj V} (hd : Fine K p d0 d) :
    nameFor K c p d.name = some a := by
  obtain ⟨c', hc'⟩ := mem_all h
  rcases hd.name with e | ⟨c'', n, hn, e⟩
  · rw [e, nameFor]
    have hne : (K.all c).filter (fun x => decide (x.2 = p)) ≠ [] := by
      intro h0
      have := List.filter_eq_nil_iff.1 h0 (a, p) h
      simp at this
    rw [List.getLast?_eq_some_getLast hne]
    have hm := List.mem_filter.1 (List.getLast_mem hne)
    generalize List.getLast _ hne = x at hm
    obtain ⟨n, q⟩ := x
    obtain rfl : q = p := by simpa using hm.2
    obtain ⟨c2, hc2⟩ := mem_all hm.1
    simp only [Option.map_some, Option.some.injEq]
    exact hK c2 c' n a q hc2 hc'
  · rw [e, nameFor]
    exact congrArg some (hK c'' c' n a p hn hc')

theorem key_fine {K : Classes} (hK : OneName K) {c p : Nat} {a : String} (h : (a, p) ∈ K.all c) {d0 d : PropObj V} (hd : Fine K p d0 d) :
    d.key.getD a = d0.key.getD a := by
  obtain ⟨c', hc'⟩ := mem_all h
  rcases hd.key with e | ⟨c'', n, hn, e0, e⟩
  · rw [e]
  · rw [e, e0]
    exact hK c'' c' n a p hn hc'

theorem lookup_mem {K : Classes} {c p : Nat} {a : String} (h : K.lookup c a = some p) : (a, p) ∈ K.all c := by
  unfold Classes.lookup at h
  cases hl : ((K.all c).filter fun x => decide (x.1 = a)).getLast? with
  | none => rw [hl] at h; cases h
  | some x =>
    rw [hl] at h
    have hm := List.mem_filter.1 (List.mem_of_getLast? hl)
    obtain ⟨n, q⟩ := x
    obtain rfl : n = a := by simpa using hm.2
    obtain rfl : q = p := by simpa using h
    exact hm.1

theorem Adm.put {K : Classes} {P : List (PropObj V)} {w : World V} (h : Adm K P w) (p : Nat) (d d' : PropObj V)
    (hd : w.props[p]? = some d) (hf : ∀ d0, Fine K p d0 d → Fine K p d0 d') (objs : List Ob) (cells : List V) :
    Adm K P ⟨w.props.set p d', objs, cells⟩ := by
  refine ⟨by simpa using h.1, fun q d0 hq => ?_⟩
  obtain ⟨d1, k1, k2⟩ := h.2 q d0 hq
  by_cases e : p = q
  · subst e
    rw [hd] at k1
    cases k1
    refine ⟨d', ?_, hf d0 k2⟩
    have hlt := (List.getElem?_eq_some_iff.1 hd).1
    simp [hlt]
  · exact ⟨d1, by rw [← k1]; exact List.getElem?_set_ne e, k2⟩

theorem Adm.none {K : Classes} {P : List (PropObj V)} {w : World V} (h : Adm K P w) {p : Nat} (hp : P[p]? = none) : w.props[p]? = none := by
  rw [List.getElem?_eq_none_iff] at hp ⊢
  rw [h.1]
  exact hp

/-- What the property object `d0` called `a` does on `get`, whatever was done before. -/
def getPure (d0 : PropObj V) (a : String) (o : Ob) (cells : List V) : List V × Except Err (Option Nat) :=
  match o.dict a with
  | some r => (cells, .ok (some r))
  | none =>
    match d0.default with
    | none => (cells, .ok none)
    | some r =>
      match convert cells d0.conv r with
      | .error e => (cells, .error e)
      | .ok (cells', r') => (cells', .ok (some r'))

/-- `get` without the state of property objects. -/
theorem get_eq {K : Classes} (hK : OneName K) {P : List (PropObj V)} {w : World V} (h : Adm K P w) (i : Nat) (a : String) :
    ∃ ps, Adm K P ⟨ps, w.objs, w.cells⟩ ∧
      get K w i a =
        match w.objs[i]? with
        | none => (⟨ps, w.objs, w.cells⟩, .error .noSuchThing)
        | some o =>
          match K.lookup o.cls a with
          | none => (⟨ps, w.objs, w.cells⟩, .error .attributeError)
          | some p =>
            match P[p]? with
            | none => (⟨ps, w.objs, w.cells⟩, .error .noSuchThing)
            | some d0 => (⟨ps, w.objs, (getPure d0 a o w.cells).1⟩, (getPure d0 a o w.cells).2) := by
  unfold get
  cases ho : w.objs[i]? with
  | none => exact ⟨w.props, h, rfl⟩
  | some o =>
    simp only
    cases hl : K.lookup o.cls a with
    | none => exact ⟨w.props, h, rfl⟩
    | some p =>
      simp only
      have hm := lookup_mem hl
      cases hp : P[p]? with
      | none =>
        rw [h.none hp]
        exact ⟨w.props, h, rfl⟩
      | some d0 =>
        obtain ⟨d, hd, hf⟩ := h.2 p d0 hp
        rw [hd]
        simp only
        rw [nameFor_fine hK hm hf]
        refine ⟨w.props.set p { d with name := some a }, ?_, ?_⟩
        · refine h.put p d { d with name := some a } hd (fun d1 h1 => ⟨h1.conv, h1.default, ?_, h1.key⟩) _ _
          obtain ⟨c', hc'⟩ := mem_all hm
          exact .inr ⟨c', a, hc', rfl⟩
        · simp only [getPure]
          cases o.dict a with
          | some r => rfl
          | none =>
            simp only
            rw [hf.default, hf.conv]
            cases d0.default with
            | none => rfl
            | some r =>
              simp only
              cases convert w.cells d0.conv r with
              | error e => rfl
              | ok x => rfl

/-- What the property object `d0` called `a` does with a value it is given. -/
def setPure (d0 : PropObj V) (a : String) (i : Nat) (o : Ob) (objs : List Ob) (cells : List V) (r : Nat) : (List Ob × List V) × Option Err :=
  match convert cells d0.conv r with
  | .error e => ((objs, cells), some e)
  | .ok (cells', r') => ((objs.set i (o.put a r'), cells'), none)

/-- `set` without the state of property objects. -/
theorem set_eq {K : Classes} (hK : OneName K) {P : List (PropObj V)} {w : World V} (h : Adm K P w) (i : Nat) (a : String) (r : Nat) :
    ∃ ps, (∀ objs cells, Adm K P ⟨ps, objs, cells⟩) ∧
      set K w i a r =
        match w.objs[i]? with
        | none => (⟨ps, w.objs, w.cells⟩, some .noSuchThing)
        | some o =>
          match K.lookup o.cls a with
          | none => (⟨ps, w.objs, w.cells⟩, some .attributeError)
          | some p =>
            match P[p]? with
            | none => (⟨ps, w.objs, w.cells⟩, some .noSuchThing)
            | some d0 => (⟨ps, (setPure d0 a i o w.objs w.cells r).1.1, (setPure d0 a i o w.objs w.cells r).1.2⟩, (setPure d0 a i o w.objs w.cells r).2) := by
  unfold set
  cases ho : w.objs[i]? with
  | none => exact ⟨w.props, fun _ _ => h, rfl⟩
  | some o =>
    simp only
    cases hl : K.lookup o.cls a with
    | none => exact ⟨w.props, fun _ _ => h, rfl⟩
    | some p =>
      simp only
      have hm := lookup_mem hl
      cases hp : P[p]? with
      | none =>
        rw [h.none hp]
        exact ⟨w.props, fun _ _ => h, rfl⟩
      | some d0 =>
        obtain ⟨d, hd, hf⟩ := h.2 p d0 hp
        rw [hd]
        simp only
        rw [nameFor_fine hK hm hf]
        refine ⟨w.props.set p { d with name := some a }, fun objs cells => ?_, ?_⟩
        · refine h.put p d { d with name := some a } hd (fun d1 h1 => ⟨h1.conv, h1.default, ?_, h1.key⟩) _ _
          obtain ⟨c', hc'⟩ := mem_all hm
          exact .inr ⟨c', a, hc', rfl⟩
        · simp only [setPure, hf.conv]
          cases convert w.cells d0.conv r with
          | error e => rfl
          | ok x => rfl

/-- What the property object `d0` called `a` takes from a configuration. -/
def cfgPure (cfg : String → Option Nat) (d0 : PropObj V) (a : String) (i : Nat) (o : Ob) (objs : List Ob) (cells : List V) : (List Ob × List V) × Option Err :=
  match cfg (d0.key.getD a) with
  | none => ((objs, cells), none)
  | some r => setPure d0 a i o objs cells r

/-- `_from_config` without the state of property objects. -/
theorem fromConfig_eq {K : Classes} (hK : OneName K) {P : List (PropObj V)} {w : World V} (h : Adm K P w) (cfg : String → Option Nat)
    (i : Nat) (o : Ob) (ho : w.objs[i]? = some o) (a : String) (p : Nat) (hm : (a, p) ∈ K.all o.cls) :
    ∃ ps, (∀ objs cells, Adm K P ⟨ps, objs, cells⟩) ∧
      fromConfig K cfg i w p =
        match P[p]? with
        | none => (⟨ps, w.objs, w.cells⟩, some .noSuchThing)
        | some d0 => (⟨ps, (cfgPure cfg d0 a i o w.objs w.cells).1.1, (cfgPure cfg d0 a i o w.objs w.cells).1.2⟩, (cfgPure cfg d0 a i o w.objs w.cells).2) := by
  unfold fromConfig
  rw [ho]
  simp only
  cases hp : P[p]? with
  | none =>
    rw [h.none hp]
    exact ⟨w.props, fun _ _ => h, rfl⟩
  | some d0 =>
    obtain ⟨d, hd, hf⟩ := h.2 p d0 hp
    rw [hd]
    simp only
    rw [nameFor_fine hK hm hf]
    simp only
    rw [key_fine hK hm hf]
    refine ⟨w.props.set p { d with name := some a, key := some (d0.key.getD a) }, fun objs cells => ?_, ?_⟩
    · refine h.put p d { d with name := some a, key := some (d0.key.getD a) } hd (fun d1 h1 => ⟨h1.conv, h1.default, ?_, ?_⟩) _ _
      · obtain ⟨c', hc'⟩ := mem_all hm
        exact .inr ⟨c', a, hc', rfl⟩
      · obtain ⟨c', hc'⟩ := mem_all hm
        have e := key_fine hK hm h1
        rw [key_fine hK hm hf] at e
        simp only
        rw [e]
        cases hk : d1.key with
        | some k => exact .inl rfl
        | none => exact .inr ⟨c', a, hc', rfl, rfl⟩
    · simp only [cfgPure, setPure, hf.conv]
      cases cfg (d0.key.getD a) with
      | none => rfl
      | some r =>
        simp only
        cases convert w.cells d0.conv r with
        | error e => rfl
        | ok x => rfl

/-- The loop of `read_config` without the state of property objects. -/
def loopPure (P : List (PropObj V)) (cfg : String → Option Nat) (i : Nat) : List Ob × List V → List (String × Nat) → (List Ob × List V) × Option Err
  | s, [] => (s, none)
  | s, x :: xs =>
    match s.1[i]?, P[x.2]? with
    | some o, some d0 =>
      match cfgPure cfg d0 x.1 i o s.1 s.2 with
      | (s', some e) => (s', some e)
      | (s', none) => loopPure P cfg i s' xs
    | _, _ => (s, some .noSuchThing)

theorem cfgPure_cls (cfg : String → Option Nat) (d0 : PropObj V) (a : String) (i : Nat) (o : Ob) (objs : List Ob) (cells : List V)
    (ho : objs[i]? = some o) : ∃ o', (cfgPure cfg d0 a i o objs cells).1.1[i]? = some o' ∧ o'.cls = o.cls := by
  simp only [cfgPure]
  cases cfg (d0.key.getD a) with
  | none => exact ⟨o, ho, rfl⟩
  | some r =>
    simp only [setPure]
    cases convert cells d0.conv r with
    | error e => exact ⟨o, ho, rfl⟩
    | ok x =>
      have hlt := (List.getElem?_eq_some_iff.1 ho).1
      refine ⟨o.put a x.2, ?_, rfl⟩
      simp [hlt]

theorem readLoop_eq {K : Classes} (hK : OneName K) {P : List (PropObj V)} (cfg : String → Option Nat) (i c : Nat) (xs : List (String × Nat))
    (hx : ∀ x ∈ xs, x ∈ K.all c) (w : World V) (h : Adm K P w) (o : Ob) (ho : w.objs[i]? = some o) (hc : o.cls = c) :
    ∃ ps, (∀ objs cells, Adm K P ⟨ps, objs, cells⟩) ∧
      readLoop K cfg i w (xs.map (·.2)) = (⟨ps, (loopPure P cfg i (w.objs, w.cells) xs).1.1, (loopPure P cfg i (w.objs, w.cells) xs).1.2⟩,
        (loopPure P cfg i (w.objs, w.cells) xs).2) := by
  induction xs generalizing w o with
  | nil => exact ⟨w.props, fun _ _ => h, rfl⟩
  | cons x xs ih =>
    subst hc
    obtain ⟨ps, k1, k2⟩ := fromConfig_eq hK h cfg i o ho x.1 x.2 (hx x List.mem_cons_self)
    rw [List.map_cons, readLoop, k2, loopPure]
    simp only [ho]
    cases hp : P[x.2]? with
    | none => exact ⟨ps, k1, rfl⟩
    | some d0 =>
      simp only
      obtain ⟨o', e1, e2⟩ := cfgPure_cls cfg d0 x.1 i o w.objs w.cells ho
      generalize cfgPure cfg d0 x.1 i o w.objs w.cells = y at e1
      obtain ⟨⟨objs, cells⟩, e⟩ := y
      cases e with
      | some e => exact ⟨ps, k1, rfl⟩
      | none => exact ih (fun y hy => hx y (List.mem_cons_of_mem _ hy)) ⟨ps, objs, cells⟩ (k1 _ _) o' e1 e2

/-- An operation without the state of property objects: the objects and values after it, and what is seen. -/
def stepPure (K : Classes) (P : List (PropObj V)) (s : List Ob × List V) : Op V → (List Ob × List V) × Seen
  | .value v => ((s.1, s.2 ++ [v]), .got (some s.2.length))
  | .change r v => ((s.1, s.2.set r v), .done)
  | .object c => ((s.1 ++ [⟨c, fun _ => none⟩], s.2), .done)
  | .get i a =>
    match s.1[i]? with
    | none => (s, .failed .noSuchThing)
    | some o =>
      match K.lookup o.cls a with
      | none => (s, .failed .attributeError)
      | some p =>
        match P[p]? with
        | none => (s, .failed .noSuchThing)
        | some d0 =>
          match getPure d0 a o s.2 with
          | (cells, .ok r) => ((s.1, cells), .got r)
          | (cells, .error e) => ((s.1, cells), .failed e)
  | .set i a r =>
    match s.1[i]? with
    | none => (s, .failed .noSuchThing)
    | some o =>
      match K.lookup o.cls a with
      | none => (s, .failed .attributeError)
      | some p =>
        match P[p]? with
        | none => (s, .failed .noSuchThing)
        | some d0 =>
          match setPure d0 a i o s.1 s.2 r with
          | (s', none) => (s', .done)
          | (s', some e) => (s', .failed e)
  | .config i cfg =>
    match s.1[i]? with
    | none => (s, .failed .noSuchThing)
    | some o =>
      match loopPure P cfg i s (K.all o.cls) with
      | (s', none) => (s', .done)
      | (s', some e) => (s', .failed e)

theorem step_eq {K : Classes} (hK : OneName K) {P : List (PropObj V)} {w : World V} (h : Adm K P w) (op : Op V) :
    ∃ ps, (∀ objs cells, Adm K P ⟨ps, objs, cells⟩) ∧
      step K w op = (⟨ps, (stepPure K P (w.objs, w.cells) op).1.1, (stepPure K P (w.objs, w.cells) op).1.2⟩, (stepPure K P (w.objs, w.cells) op).2) := by
  cases op with
  | value v => exact ⟨w.props, fun _ _ => h, rfl⟩
  | change r v => exact ⟨w.props, fun _ _ => h, rfl⟩
  | object c => exact ⟨w.props, fun _ _ => h, rfl⟩
  | get i a =>
    obtain ⟨ps, k1, k2⟩ := get_eq hK h i a
    refine ⟨ps, fun _ _ => k1, ?_⟩
    simp only [step, stepPure]
    rw [k2]
    cases w.objs[i]? with
    | none => rfl
    | some o =>
      simp only
      cases K.lookup o.cls a with
      | none => rfl
      | some p =>
        simp only
        cases P[p]? with
        | none => rfl
        | some d0 =>
          simp only
          generalize getPure d0 a o w.cells = y
          obtain ⟨c, r⟩ := y
          cases r <;> rfl
  | set i a r =>
    obtain ⟨ps, k1, k2⟩ := set_eq hK h i a r
    refine ⟨ps, k1, ?_⟩
    simp only [step, stepPure]
    rw [k2]
    cases w.objs[i]? with
    | none => rfl
    | some o =>
      simp only
      cases K.lookup o.cls a with
      | none => rfl
      | some p =>
        simp only
        cases P[p]? with
        | none => rfl
        | some d0 =>
          simp only
          generalize setPure d0 a i o w.objs w.cells r = y
          obtain ⟨c, e⟩ := y
          cases e <;> rfl
  | config i cfg =>
    simp only [step, stepPure, readConfig]
    cases ho : w.objs[i]? with
    | none => exact ⟨w.props, fun _ _ => h, rfl⟩
    | some o =>
      simp only
      obtain ⟨ps, k1, k2⟩ := readLoop_eq hK (P := P) cfg i o.cls (K.all o.cls) (fun _ h => h) w h o ho rfl
      refine ⟨ps, k1, ?_⟩
      rw [k2]
      generalize loopPure P cfg i (w.objs, w.cells) (K.all o.cls) = y
      obtain ⟨c, e⟩ := y
      cases e <;> rfl

theorem run_adm {K : Classes} (hK : OneName K) {P : List (PropObj V)} (ops : List (Op V)) {w : World V} (h : Adm K P w) : Adm K P (run K w ops) := by
  induction ops generalizing w with
  | nil => exact h
  | cons op ops ih =>
    obtain ⟨ps, k1, k2⟩ := step_eq hK h op
    rw [run, k2]
    exact ih (k1 _ _)

/-! ### What reading gives -/

/-- The value of the cell `r` as a property reads it. -/
def valueOf (d0 : PropObj V) (cells : List V) (r : Nat) : Except Err (Option V) :=
  match cells[r]? with
  | none => .error .noSuchThing
  | some v =>
    match d0.conv.gives v with
    | none => .error .refused
    | some v' => .ok (some v')

/-- `reads` without the state of property objects. -/
def readsPure (K : Classes) (P : List (PropObj V)) (s : List Ob × List V) (i : Nat) (a : String) : Except Err (Option V) :=
  match s.1[i]? with
  | none => .error .noSuchThing
  | some o =>
    match K.lookup o.cls a with
    | none => .error .attributeError
    | some p =>
      match P[p]? with
      | none => .error .noSuchThing
      | some d0 =>
        match o.dict a with
        | some r => .ok s.2[r]?
        | none =>
          match d0.default with
          | none => .ok none
          | some r => valueOf d0 s.2 r

theorem convert_cases (cells : List V) (cv : Conv V) (r : Nat) :
    (cells[r]? = none ∧ convert cells cv r = .error .noSuchThing) ∨
      ∃ v, cells[r]? = some v ∧
        ((cv.gives v = none ∧ convert cells cv r = .error .refused) ∨
          ∃ v', cv.gives v = some v' ∧
            ((v' = v ∧ (∀ f, cv ≠ .make f) ∧ convert cells cv r = .ok (cells, r)) ∨ convert cells cv r = .ok (cells ++ [v'], cells.length))) := by
  unfold convert
  cases h : cells[r]? with
  | none => exact .inl ⟨rfl, rfl⟩
  | some v =>
    refine .inr ⟨v, rfl, ?_⟩
    cases cv with
    | same ok =>
      simp only [Conv.gives]
      by_cases hv : ok v = true
      · rw [if_pos hv, if_pos hv]
        exact .inr ⟨v, rfl, .inl ⟨rfl, fun _ h => (by cases h), rfl⟩⟩
      · rw [if_neg hv, if_neg hv]
        exact .inl ⟨rfl, rfl⟩
    | make f =>
      simp only [Conv.gives]
      cases hf : f v with
      | none => exact .inl ⟨rfl, rfl⟩
      | some v' => exact .inr ⟨v', rfl, .inr rfl⟩

theorem reads_eq {K : Classes} (hK : OneName K) {P : List (PropObj V)} {w : World V} (h : Adm K P w) (i : Nat) (a : String) :
    reads K w i a = readsPure K P (w.objs, w.cells) i a := by
  obtain ⟨ps, -, k2⟩ := get_eq hK h i a
  unfold reads readsPure
  rw [k2]
  simp only
  cases w.objs[i]? with
  | none => rfl
  | some o =>
    simp only
    cases K.lookup o.cls a with
    | none => rfl
    | some p =>
      simp only
      cases P[p]? with
      | none => rfl
      | some d0 =>
        simp only [getPure]
        cases o.dict a with
        | some r => rfl
        | none =>
          simp only
          cases d0.default with
          | none => rfl
          | some r =>
            simp only [valueOf]
            rcases convert_cases w.cells d0.conv r with ⟨e1, e2⟩ | ⟨v, e1, ⟨e2, e3⟩ | ⟨v', e2, ⟨rfl, -, e3⟩ | e3⟩⟩
            · rw [e1, e2]
            · rw [e3]
              simp only [e1, e2]
            · rw [e3]
              simp only [e1, e2]
            · rw [e3]
              simp only [e1, e2]
              simp

theorem readsPure_congr {K : Classes} {P : List (PropObj V)} {s s' : List Ob × List V} {i : Nat} {a : String}
    (ho : s'.1[i]?.map (fun o => (o.cls, o.dict a)) = s.1[i]?.map (fun o => (o.cls, o.dict a)))
    (hh : ∀ o r, s.1[i]? = some o → o.dict a = some r → s'.2[r]? = s.2[r]?)
    (hd : ∀ d0 ∈ P, ∀ r, d0.default = some r → s'.2[r]? = s.2[r]?) :
    readsPure K P s' i a = readsPure K P s i a := by
  unfold readsPure
  cases h : s.1[i]? with
  | none =>
    rw [h, Option.map_none, Option.map_eq_none_iff] at ho
    rw [ho]
  | some o =>
    rw [h, Option.map_some, Option.map_eq_some_iff] at ho
    obtain ⟨o', e1, e2⟩ := ho
    rw [e1]
    simp only [Prod.mk.injEq] at e2
    simp only
    rw [e2.1, e2.2]
    cases K.lookup o.cls a with
    | none => rfl
    | some p =>
      simp only
      cases hp : P[p]? with
      | none => rfl
      | some d0 =>
        simp only
        cases hr : o.dict a with
        | some r => simp only [hh o r h hr]
        | none =>
          simp only
          cases hdf : d0.default with
          | none => rfl
          | some r => simp only [valueOf, hd d0 (List.mem_of_getElem? hp) r hdf]

/-! ### Invariants -/

/-- All values that are held exist. -/
structure Ok (P : List (PropObj V)) (s : List Ob × List V) : Prop where
  held : ∀ (i : Nat) (o : Ob) n r, s.1[i]? = some o → o.dict n = some r → r < s.2.length
  defaults : ∀ d ∈ P, ∀ r, d.default = some r → r < s.2.length

/-- No value is held twice. -/
structure Excl (P : List (PropObj V)) (s : List Ob × List V) : Prop where
  held : ∀ (i j : Nat) (o o' : Ob) n m r, s.1[i]? = some o → s.1[j]? = some o' → o.dict n = some r → o'.dict m = some r → i = j ∧ n = m
  defaults : ∀ d ∈ P, ∀ (i : Nat) (o : Ob) n r, d.default = some r → s.1[i]? = some o → o.dict n ≠ some r

theorem loop_inv (Q : List Ob × List V → Prop) (P : List (PropObj V)) (cfg : String → Option Nat) (i : Nat)
    (hset : ∀ d0 ∈ P, ∀ a o s r, s.1[i]? = some o → Q s → Q (setPure d0 a i o s.1 s.2 r).1)
    (xs : List (String × Nat)) (s : List Ob × List V) (h : Q s) : Q (loopPure P cfg i s xs).1 := by
  induction xs generalizing s with
  | nil => exact h
  | cons x xs ih =>
    rw [loopPure]
    cases ho : s.1[i]? with
    | none => exact h
    | some o =>
      cases hp : P[x.2]? with
      | none => exact h
      | some d0 =>
        simp only
        have k : Q (cfgPure cfg d0 x.1 i o s.1 s.2).1 := by
          unfold cfgPure
          cases cfg (d0.key.getD x.1) with
          | none => exact h
          | some r => exact hset d0 (List.mem_of_getElem? hp) x.1 o s r ho h
        generalize cfgPure cfg d0 x.1 i o s.1 s.2 = y at k
        obtain ⟨s', e⟩ := y
        cases e with
        | some e => exact k
        | none => exact ih s' k

theorem step_inv (Q : List Ob × List V → Prop) (K : Classes) (P : List (PropObj V))
    (hval : ∀ s v, Q s → Q (s.1, s.2 ++ [v])) (hchange : ∀ s r v, Q s → Q (s.1, s.2.set r v))
    (hobj : ∀ s c, Q s → Q (s.1 ++ [⟨c, fun _ => none⟩], s.2))
    (hset : ∀ i, ∀ d0 ∈ P, ∀ a o s r, s.1[i]? = some o → Q s → Q (setPure d0 a i o s.1 s.2 r).1)
    (s : List Ob × List V) (h : Q s) (op : Op V) : Q (stepPure K P s op).1 := by
  cases op with
  | value v => exact hval s v h
  | change r v => exact hchange s r v h
  | object c => exact hobj s c h
  | get i a =>
    simp only [stepPure]
    cases s.1[i]? with
    | none => exact h
    | some o =>
      simp only
      cases K.lookup o.cls a with
      | none => exact h
      | some p =>
        simp only
        cases P[p]? with
        | none => exact h
        | some d0 =>
          simp only [getPure]
          cases o.dict a with
          | some r => exact h
          | none =>
            simp only
            cases d0.default with
            | none => exact h
            | some r =>
              simp only
              rcases convert_cases s.2 d0.conv r with ⟨e1, e2⟩ | ⟨v, e1, ⟨e2, e3⟩ | ⟨v', e2, ⟨rfl, -, e3⟩ | e3⟩⟩
              · rw [e2]
                exact h
              · rw [e3]
                exact h
              · rw [e3]
                exact h
              · rw [e3]
                exact hval s v' h
  | set i a r =>
    simp only [stepPure]
    cases ho : s.1[i]? with
    | none => exact h
    | some o =>
      simp only
      cases K.lookup o.cls a with
      | none => exact h
      | some p =>
        simp only
        cases hp : P[p]? with
        | none => exact h
        | some d0 =>
          simp only
          have k := hset i d0 (List.mem_of_getElem? hp) a o s r ho h
          generalize setPure d0 a i o s.1 s.2 r = y at k
          obtain ⟨s', e⟩ := y
          cases e <;> exact k
  | config i cfg =>
    simp only [stepPure]
    cases ho : s.1[i]? with
    | none => exact h
    | some o =>
      simp only
      have k := loop_inv Q P cfg i (hset i) (K.all o.cls) s h
      generalize loopPure P cfg i s (K.all o.cls) = y at k
      obtain ⟨s', e⟩ := y
      cases e <;> exact k

theorem put_get {objs : List Ob} {i j : Nat} {o o' : Ob} {a : String} {r : Nat} (hj : (objs.set i (o.put a r))[j]? = some o') :
    (i = j ∧ o' = o.put a r) ∨ (i ≠ j ∧ objs[j]? = some o') := by
  rw [List.getElem?_set] at hj
  by_cases e : i = j
  · rw [if_pos e] at hj
    split at hj
    · exact .inl ⟨e, (Option.some.inj hj).symm⟩
    · cases hj
  · rw [if_neg e] at hj
    exact .inr ⟨e, hj⟩

theorem Ok.put {P : List (PropObj V)} {s : List Ob × List V} (h : Ok P s) {i : Nat} {o : Ob} (ho : s.1[i]? = some o) (a : String) (r : Nat)
    (hr : r < s.2.length) : Ok P (s.1.set i (o.put a r), s.2) := by
  refine ⟨fun j o' n q hj hq => ?_, h.defaults⟩
  rcases put_get hj with ⟨rfl, rfl⟩ | ⟨-, hj⟩
  · simp only [Ob.put] at hq
    split at hq
    · cases hq
      exact hr
    · exact h.held i o n q ho hq
  · exact h.held j o' n q hj hq

theorem Ok.app {P : List (PropObj V)} {s : List Ob × List V} (h : Ok P s) (v : V) : Ok P (s.1, s.2 ++ [v]) := by
  refine ⟨fun i o n r h1 h2 => ?_, fun d hd r hr => ?_⟩
  · have := h.held i o n r h1 h2
    simp only [List.length_append]
    omega
  · have := h.defaults d hd r hr
    simp only [List.length_append]
    omega

theorem Ok.step {K : Classes} {P : List (PropObj V)} {s : List Ob × List V} (h : Ok P s) (op : Op V) : Ok P (stepPure K P s op).1 := by
  refine step_inv (Ok P) K P (fun s v h => h.app v) ?_ ?_ ?_ s h op
  · intro s r v h
    exact ⟨fun i o n q h1 h2 => by simpa using h.held i o n q h1 h2, fun d hd q hq => by simpa using h.defaults d hd q hq⟩
  · intro s c h
    refine ⟨fun i o n q h1 h2 => ?_, h.defaults⟩
    rw [List.getElem?_append] at h1
    split at h1
    · exact h.held i o n q h1 h2
    · rw [List.getElem?_singleton] at h1
      split at h1
      · cases h1
        cases h2
      · cases h1
  · intro i d0 hd a o s r ho h
    unfold setPure
    rcases convert_cases s.2 d0.conv r with ⟨e1, e2⟩ | ⟨v, e1, ⟨e2, e3⟩ | ⟨v', e2, ⟨rfl, -, e3⟩ | e3⟩⟩
    · rw [e2]
      exact h
    · rw [e3]
      exact h
    · rw [e3]
      exact h.put ho a r (List.getElem?_eq_some_iff.1 e1).1
    · rw [e3]
      exact (h.app v').put ho a s.2.length (by simp)

theorem Excl.step {K : Classes} {P : List (PropObj V)} (hP : ∀ d ∈ P, ∃ f, d.conv = .make f) {s : List Ob × List V} (h0 : Ok P s) (h : Excl P s) (op : Op V) :
    Ok P (stepPure K P s op).1 ∧ Excl P (stepPure K P s op).1 := by
  refine ⟨h0.step op, ?_⟩
  refine (step_inv (fun s => Ok P s ∧ Excl P s) K P ?_ ?_ ?_ ?_ s ⟨h0, h⟩ op).2
  · intro s v h
    exact ⟨h.1.app v, h.2.held, h.2.defaults⟩
  · intro s r v h
    exact ⟨(h.1.step (K := K) (.change r v) :), h.2.held, h.2.defaults⟩
  · intro s c h
    have key : ∀ (i : Nat) (o : Ob) n q, (s.1 ++ [⟨c, fun _ => none⟩])[i]? = some o → o.dict n = some q → s.1[i]? = some o := by
      intro i o n q h1 h2
      rw [List.getElem?_append] at h1
      split at h1
      · exact h1
      · rw [List.getElem?_singleton] at h1
        split at h1
        · cases h1
          cases h2
        · cases h1
    refine ⟨(h.1.step (K := K) (.object c) :), ?_, ?_⟩
    · intro i j o o' n m r h1 h2 h3 h4
      exact h.2.held i j o o' n m r (key _ _ _ _ h1 h3) (key _ _ _ _ h2 h4) h3 h4
    · intro d hd i o n r h1 h2 h3
      exact h.2.defaults d hd i o n r h1 (key _ _ _ _ h2 h3) h3
  · intro i d0 hd a o s r ho h
    unfold setPure
    rcases convert_cases s.2 d0.conv r with ⟨e1, e2⟩ | ⟨v, e1, ⟨e2, e3⟩ | ⟨v', e2, ⟨rfl, e4, e3⟩ | e3⟩⟩
    · rw [e2]
      exact h
    · rw [e3]
      exact h
    · obtain ⟨f, hf⟩ := hP d0 hd
      exact absurd hf (e4 f)
    · rw [e3]
      refine ⟨(h.1.app v').put ho a s.2.length (by simp), ?_, ?_⟩
      · -- the new value is nobody's
        have key : ∀ (j : Nat) (o' : Ob) n q, (s.1.set i (o.put a s.2.length))[j]? = some o' → o'.dict n = some q →
            (q = s.2.length ∧ i = j ∧ n = a) ∨ (q < s.2.length ∧ ∃ o1, s.1[j]? = some o1 ∧ o1.dict n = some q) := by
          intro j o' n q h1 h2
          rcases put_get h1 with ⟨rfl, rfl⟩ | ⟨-, h1⟩
          · simp only [Ob.put] at h2
            split at h2
            · rename_i hn
              exact .inl ⟨(Option.some.inj h2).symm, rfl, hn⟩
            · exact .inr ⟨h.1.held i o n q ho h2, o, ho, h2⟩
          · exact .inr ⟨h.1.held j o' n q h1 h2, o', h1, h2⟩
        intro j k o1 o2 n m q h1 h2 h3 h4
        rcases key j o1 n q h1 h3 with ⟨e1, e2, e3⟩ | ⟨e1, x1, e2, e3⟩ <;> rcases key k o2 m q h2 h4 with ⟨f1, f2, f3⟩ | ⟨f1, x2, f2, f3⟩
        · exact ⟨e2.symm.trans f2, e3.trans f3.symm⟩
        · omega
        · omega
        · exact h.2.held j k x1 x2 n m q e2 f2 e3 f3
      · intro d hd' j o' n q h1 h2 h3
        have hq := h.1.defaults d hd' q h1
        rcases put_get h2 with ⟨rfl, rfl⟩ | ⟨-, h2⟩
        · simp only [Ob.put] at h3
          split at h3
          · cases h3
            omega
          · exact h.2.defaults d hd' i o n q h1 ho h3
        · exact h.2.defaults d hd' j o' n q h1 h2 h3

theorem run_inv {K : Classes} (hK : OneName K) {P : List (PropObj V)} (Q : List Ob × List V → Prop)
    (hQ : ∀ s op, Q s → Q (stepPure K P s op).1) (ops : List (Op V)) {w : World V} (h : Adm K P w) (hq : Q (w.objs, w.cells)) :
    Q ((run K w ops).objs, (run K w ops).cells) := by
  induction ops generalizing w with
  | nil => exact hq
  | cons op ops ih =>
    obtain ⟨ps, k1, k2⟩ := step_eq hK h op
    rw [run, k2]
    exact ih (k1 _ _) (hQ _ op hq)

theorem Fresh.ok {w : World V} (h : Fresh w) : Ok w.props (w.objs, w.cells) := by
  refine ⟨fun i o n r h1 _ => ?_, fun d hd r hr => h.defaults d hd r hr⟩
  simp [h.objs] at h1

theorem Fresh.excl {w : World V} (h : Fresh w) : Excl w.props (w.objs, w.cells) := by
  refine ⟨fun i j o o' n m r h1 _ _ _ => ?_, fun d hd i o n r _ h1 => ?_⟩ <;> simp [h.objs] at h1

/-! ### Single operations -/

/-- What `set` does, if it succeeds. -/
theorem set_done {K : Classes} (hK : OneName K) {P : List (PropObj V)} {w : World V} (h : Adm K P w) (i : Nat) (a : String) (r : Nat) (hs : (step K w (.set i a r)).2 = .done) :
    ∃ o p d v v' r' cells', w.objs[i]? = some o ∧ K.lookup o.cls a = some p ∧ P[p]? = some d ∧ w.cells[r]? = some v ∧ d.conv.gives v = some v' ∧
      ((v' = v ∧ (∀ f, d.conv ≠ .make f) ∧ r' = r ∧ cells' = w.cells) ∨ (r' = w.cells.length ∧ cells' = w.cells ++ [v'])) ∧ cells'[r']? = some v' ∧
      Adm K P (step K w (.set i a r)).1 ∧ (step K w (.set i a r)).1.objs = w.objs.set i (o.put a r') ∧ (step K w (.set i a r)).1.cells = cells' := by
  obtain ⟨ps, k1, k⟩ := step_eq hK h (.set i a r)
  rw [k] at hs ⊢
  simp only [stepPure] at hs ⊢
  cases ho : w.objs[i]? with
  | none => simp [ho] at hs
  | some o =>
    simp only [ho] at hs ⊢
    cases hl : K.lookup o.cls a with
    | none => simp [hl] at hs
    | some p =>
      simp only [hl] at hs ⊢
      cases hp : P[p]? with
      | none => simp [hp] at hs
      | some d =>
        simp only [hp, setPure] at hs ⊢
        rcases convert_cases w.cells d.conv r with ⟨e1, e2⟩ | ⟨v, e1, ⟨e2, e3⟩ | ⟨v', e2, ⟨rfl, e4, e3⟩ | e3⟩⟩
        · simp [e2] at hs
        · simp [e3] at hs
        · refine ⟨o, p, d, v', v', r, w.cells, rfl, hl, hp, e1, e2, .inl ⟨rfl, e4, rfl, rfl⟩, e1, ?_⟩
          simp only [e3]
          exact ⟨k1 _ _, trivial, trivial⟩
        · refine ⟨o, p, d, v, v', _, _, rfl, hl, hp, e1, e2, .inr ⟨rfl, rfl⟩, by simp, ?_⟩
          simp only [e3]
          exact ⟨k1 _ _, trivial, trivial⟩

theorem loopPure_other (P : List (PropObj V)) (cfg : String → Option Nat) (i : Nat) (xs : List (String × Nat)) (s : List Ob × List V) :
    (∀ j, j ≠ i → (loopPure P cfg i s xs).1.1[j]? = s.1[j]?) ∧ (∀ q, q < s.2.length → (loopPure P cfg i s xs).1.2[q]? = s.2[q]?) ∧ s.2.length ≤ (loopPure P cfg i s xs).1.2.length := by
  refine loop_inv (fun s' => (∀ j, j ≠ i → s'.1[j]? = s.1[j]?) ∧ (∀ q, q < s.2.length → s'.2[q]? = s.2[q]?) ∧ s.2.length ≤ s'.2.length) P cfg i ?_ xs s ⟨fun _ _ => rfl, fun _ _ => rfl, Nat.le_refl _⟩
  intro d0 hd a o s' r ho h
  have hob : ∀ r' j, j ≠ i → (s'.1.set i (o.put a r'))[j]? = s.1[j]? := by
    intro r' j hj
    rw [List.getElem?_set_ne (Ne.symm hj)]
    exact h.1 j hj
  unfold setPure
  rcases convert_cases s'.2 d0.conv r with ⟨e1, e2⟩ | ⟨v, e1, ⟨e2, e3⟩ | ⟨v', e2, ⟨rfl, e4, e3⟩ | e3⟩⟩
  · rw [e2]
    exact h
  · rw [e3]
    exact h
  · rw [e3]
    exact ⟨hob _, h.2⟩
  · rw [e3]
    refine ⟨hob _, fun q hq => ?_, ?_⟩
    · have := h.2.2
      simp only
      rw [List.getElem?_append_left (by omega)]
      exact h.2.1 q hq
    · have := h.2.2
      simp only [List.length_append]
      omega

theorem setPure_keep (d0 : PropObj V) (a : String) (i : Nat) (o : Ob) (objs : List Ob) (cells : List V) (r q : Nat) (hq : q < cells.length) :
    (setPure d0 a i o objs cells r).1.2[q]? = cells[q]? := by
  unfold setPure
  rcases convert_cases cells d0.conv r with ⟨e1, e2⟩ | ⟨v, e1, ⟨e2, e3⟩ | ⟨v', e2, ⟨rfl, e4, e3⟩ | e3⟩⟩
  · rw [e2]
  · rw [e3]
  · rw [e3]
  · rw [e3]
    exact List.getElem?_append_left hq

theorem getPure_keep (d0 : PropObj V) (a : String) (o : Ob) (cells : List V) (q : Nat) (hq : q < cells.length) : (getPure d0 a o cells).1[q]? = cells[q]? := by
  unfold getPure
  cases o.dict a with
  | some r => rfl
  | none =>
    simp only
    cases d0.default with
    | none => rfl
    | some r =>
      simp only
      rcases convert_cases cells d0.conv r with ⟨e1, e2⟩ | ⟨v, e1, ⟨e2, e3⟩ | ⟨v', e2, ⟨rfl, e4, e3⟩ | e3⟩⟩
      · rw [e2]
      · rw [e3]
      · rw [e3]
      · rw [e3]
        exact List.getElem?_append_left hq

/-- Values stay what they are unless they are changed. -/
theorem cells_keep (K : Classes) (P : List (PropObj V)) (s : List Ob × List V) (op : Op V) (hch : ∀ r v, op ≠ .change r v) (q : Nat) (hq : q < s.2.length) :
    (stepPure K P s op).1.2[q]? = s.2[q]? := by
  cases op with
  | value v => exact List.getElem?_append_left hq
  | change r v => exact absurd rfl (hch r v)
  | object c => rfl
  | get i a =>
    simp only [stepPure]
    cases s.1[i]? with
    | none => rfl
    | some o =>
      simp only
      cases K.lookup o.cls a with
      | none => rfl
      | some p =>
        simp only
        cases P[p]? with
        | none => rfl
        | some d0 =>
          simp only
          have := getPure_keep d0 a o s.2 q hq
          generalize getPure d0 a o s.2 = y at this
          obtain ⟨c, e⟩ := y
          cases e <;> exact this
  | set i a r =>
    simp only [stepPure]
    cases s.1[i]? with
    | none => rfl
    | some o =>
      simp only
      cases K.lookup o.cls a with
      | none => rfl
      | some p =>
        simp only
        cases P[p]? with
        | none => rfl
        | some d0 =>
          simp only
          have := setPure_keep d0 a i o s.1 s.2 r q hq
          generalize setPure d0 a i o s.1 s.2 r = y at this
          obtain ⟨c, e⟩ := y
          cases e <;> exact this
  | config i cfg =>
    simp only [stepPure]
    cases s.1[i]? with
    | none => rfl
    | some o =>
      simp only
      have := (loopPure_other P cfg i (K.all o.cls) s).2.1 q hq
      generalize loopPure P cfg i s (K.all o.cls) = y at this
      obtain ⟨s', e⟩ := y
      cases e <;> exact this

/-- What `get` does. -/
theorem get_got {K : Classes} (hK : OneName K) {P : List (PropObj V)} {w : World V} (h : Adm K P w) (i : Nat) (a : String) (r : Nat) (hs : (step K w (.get i a)).2 = .got (some r)) :
    ∃ o p d, w.objs[i]? = some o ∧ K.lookup o.cls a = some p ∧ P[p]? = some d ∧ Adm K P (step K w (.get i a)).1 ∧ (step K w (.get i a)).1.objs = w.objs ∧
      ((o.dict a = some r ∧ (step K w (.get i a)).1.cells = w.cells) ∨
        (o.dict a = none ∧ ∃ q, d.default = some q ∧
          (((∀ f, d.conv ≠ .make f) ∧ r = q ∧ (step K w (.get i a)).1.cells = w.cells) ∨ ∃ v, r = w.cells.length ∧ (step K w (.get i a)).1.cells = w.cells ++ [v]))) := by
  obtain ⟨ps, k1, k⟩ := step_eq hK h (.get i a)
  rw [k] at hs ⊢
  simp only [stepPure] at hs ⊢
  cases ho : w.objs[i]? with
  | none => simp [ho] at hs
  | some o =>
    simp only [ho] at hs ⊢
    cases hl : K.lookup o.cls a with
    | none => simp [hl] at hs
    | some p =>
      simp only [hl] at hs ⊢
      cases hp : P[p]? with
      | none => simp [hp] at hs
      | some d =>
        simp only [hp, getPure] at hs ⊢
        refine ⟨o, p, d, rfl, hl, hp, k1 _ _, ?_⟩
        cases hd : o.dict a with
        | some r' =>
          simp only [hd, Seen.got.injEq, Option.some.injEq] at hs ⊢
          exact ⟨trivial, .inl ⟨hs, trivial⟩⟩
        | none =>
          simp only [hd] at hs ⊢
          cases hdf : d.default with
          | none => simp [hdf] at hs
          | some q =>
            simp only [hdf] at hs ⊢
            rcases convert_cases w.cells d.conv q with ⟨e1, e2⟩ | ⟨v, e1, ⟨e2, e3⟩ | ⟨v', e2, ⟨rfl, e4, e3⟩ | e3⟩⟩
            · simp [e2] at hs
            · simp [e3] at hs
            · simp only [e3, Seen.got.injEq, Option.some.injEq] at hs ⊢
              exact ⟨trivial, .inr ⟨trivial, q, rfl, .inl ⟨e4, hs.symm, trivial⟩⟩⟩
            · simp only [e3, Seen.got.injEq, Option.some.injEq] at hs ⊢
              exact ⟨trivial, .inr ⟨trivial, q, rfl, .inr ⟨v', hs.symm, rfl⟩⟩⟩

end Verif.Config.Shared
