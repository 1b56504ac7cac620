import Verif.Cont.History

/-!
# C38: the history is an append-only ordered log
-/
namespace Verif.Cont

variable {T V : Type}

/-- The names of the accepted calls, in order. -/
def usedNames (calls : List (String × Option Nat)) : List String :=
  (calls.map (·.1)).filter (· ≠ "order")

/-- The value given in a call: the caller's dictionary, or an empty one. -/
def givenValue (env : HEnv T V) (heap : List V) : Option Nat → Option V
  | some ref => heap[ref]?
  | none => some env.empty

/-- The last value given for a name. -/
def lastGiven (env : HEnv T V) (heap : List V) (calls : List (String × Option Nat)) (name : String) :
    Option V :=
  (lastOf calls name).bind (givenValue env heap)

/-- A sequence of calls. -/
def runCalls (env : HEnv T V) (s : Hist T V) (calls : List (String × Option Nat)) : Hist T V :=
  calls.foldl (fun s c => (addHistory env s c.1 c.2).2) s

theorem lastOf_append {β : Type} (d e : List (String × β)) (k : String) :
    lastOf (d ++ e) k = (lastOf e k).or (lastOf d k) := by
  unfold lastOf
  rw [List.reverse_append, List.find?_append]
  cases e.reverse.find? (·.1 == k) <;> rfl

theorem lastOf_two {β : Type} (a b : String) (x y : β) (k : String) :
    lastOf [(a, x), (b, y)] k = if b = k then some y else if a = k then some x else none := by
  unfold lastOf
  simp only [List.reverse_cons, List.reverse_nil, List.nil_append, List.singleton_append, List.find?_cons]
  by_cases hb : b = k
  · simp [hb]
  · have hb' : (b == k) = false := by simpa using hb
    rw [hb', if_neg hb]
    by_cases ha : a = k
    · simp [ha]
    · have ha' : (a == k) = false := by simpa using ha
      simp [ha, ha']

theorem lastOf_one {β : Type} (a : String) (x : β) (k : String) :
    lastOf [(a, x)] k = if a = k then some x else none := by
  unfold lastOf
  by_cases ha : a = k <;> simp [ha]

/-- The state after some calls. -/
structure HInv (env : HEnv T V) (heap : List V) (calls : List (String × Option Nat)) (s : Hist T V) :
    Prop where
  grown : ∃ l, s.heap = heap ++ l
  order : readOrder env s = .ok (usedNames calls)
  entry : ∀ name, name ≠ "order" → readEntry s name = lastGiven env heap calls name
  refs : ∀ name ref, lastOf s.attrs name = some (.obj ref) → ref < s.heap.length

theorem HInv.step (env : HEnv T V) (hrt : ∀ l, env.parse (env.render l) = some l)
    (hstore : ∀ v, env.storable v = true) (heap : List V) (calls : List (String × Option Nat))
    (s : Hist T V) (h : HInv env heap calls s) (name : String) (v : Option Nat)
    (hv : ∀ ref, v = some ref → ref < heap.length) :
    HInv env heap (calls ++ [(name, v)]) (addHistory env s name v).2 ∧
      ((addHistory env s name v).1 = none ↔ name ≠ "order") := by
  unfold addHistory
  by_cases hn : name = "order"
  · rw [if_pos hn]
    refine ⟨⟨h.grown, ?_, ?_, h.refs⟩, by simp [hn]⟩
    · simp only
      rw [h.order]
      simp [usedNames, hn]
    · intro k hk
      simp only
      rw [h.entry k hk, lastGiven, lastGiven, lastOf_append, lastOf_one, if_neg (by rw [hn]; exact Ne.symm hk)]
      rfl
  · rw [if_neg hn, h.order]
    simp only
    obtain ⟨l, hl⟩ := h.grown
    -- the state in which the entry is stored
    have hal : ∃ l', (alloc env s v).1.heap = heap ++ l' ∧ (alloc env s v).1.attrs = s.attrs ∧
        (∀ ref, ref < s.heap.length → (alloc env s v).1.heap[ref]? = s.heap[ref]?) ∧
        s.heap.length ≤ (alloc env s v).1.heap.length ∧
        ∃ x, (alloc env s v).1.heap[(alloc env s v).2]? = some x ∧ givenValue env heap v = some x := by
      cases v with
      | some ref =>
        have hr := hv ref rfl
        refine ⟨l, hl, rfl, fun _ _ => rfl, Nat.le_refl _, heap[ref], ?_, ?_⟩
        · show s.heap[ref]? = _
          rw [hl, List.getElem?_append_left hr, List.getElem?_eq_getElem hr]
        · show heap[ref]? = _
          rw [List.getElem?_eq_getElem hr]
      | none =>
        refine ⟨l ++ [env.empty], ?_, rfl, ?_, ?_, env.empty, ?_, rfl⟩
        · show s.heap ++ [env.empty] = _
          rw [hl, List.append_assoc]
        · intro ref hr
          show (s.heap ++ [env.empty])[ref]? = _
          rw [List.getElem?_append_left hr]
        · show _ ≤ (s.heap ++ [env.empty]).length
          simp
        · show (s.heap ++ [env.empty])[s.heap.length]? = _
          simp
    obtain ⟨l', hl', hattrs, hsame, hlen, x, hx, hgiven⟩ := hal
    generalize alloc env s v = ar at *
    obtain ⟨s', ref⟩ := ar
    simp only at *
    unfold storeEntry
    rw [hx]
    simp only
    rw [if_pos (hstore x)]
    simp only
    refine ⟨⟨⟨l', hl'⟩, ?_, ?_, ?_⟩, by simp [hn]⟩
    · unfold readOrder
      simp only
      rw [lastOf_append, lastOf_two, if_neg hn, if_pos rfl]
      simp only [Option.some_or]
      rw [hrt]
      simp [usedNames, List.filter_append, hn]
    · intro k hk
      unfold readEntry
      simp only
      rw [lastOf_append, lastOf_two, lastGiven, lastOf_append, lastOf_one]
      by_cases hnk : name = k
      · rw [if_pos hnk, if_pos hnk]
        simp only [Option.some_or, Option.bind_some]
        rw [hx, hgiven]
      · rw [if_neg hnk, if_neg (Ne.symm hk), if_neg hnk]
        simp only [Option.none_or]
        have := h.entry k hk
        rw [readEntry, lastGiven] at this
        rw [← this, hattrs]
        cases hlk : lastOf s.attrs k with
        | none => rfl
        | some a =>
          cases a with
          | text t => rfl
          | obj ref' => exact hsame ref' (h.refs k ref' hlk)
    · intro k ref' hk
      simp only at hk ⊢
      rw [lastOf_append, lastOf_two] at hk
      by_cases hnk : name = k
      · rw [if_pos hnk] at hk
        simp at hk
        subst hk
        exact (List.getElem?_eq_some_iff.1 hx).1
      · rw [if_neg hnk] at hk
        by_cases hok : "order" = k
        · rw [if_pos hok] at hk; simp at hk
        · rw [if_neg hok, Option.none_or, hattrs] at hk
          exact Nat.lt_of_lt_of_le (h.refs k ref' hk) hlen

theorem HInv.init (env : HEnv T V) (hrt : ∀ l, env.parse (env.render l) = some l) (heap : List V) :
    HInv env heap [] (Hist.init env heap) := by
  refine ⟨⟨[], by simp [Hist.init]⟩, ?_, ?_, ?_⟩
  · unfold readOrder Hist.init
    simp only
    rw [lastOf_one, if_pos rfl]
    simp only
    rw [hrt]; rfl
  · intro name hn
    unfold readEntry Hist.init
    simp only
    rw [lastOf_one, if_neg (Ne.symm hn)]; rfl
  · intro name ref h
    rw [Hist.init, lastOf_one] at h
    split at h <;> simp at h

/-- C38. In a container in memory, after any sequence of calls of `add_history` (with dictionaries that
exist and that nobody changes), the recorded order is the sequence of names used, and every entry reads
back as the last value given for it; an entry never given is absent. -/
theorem C38_history_partial (env : HEnv T V) (hrt : ∀ l, env.parse (env.render l) = some l)
    (hstore : ∀ v, env.storable v = true) (heap : List V) (calls : List (String × Option Nat))
    (hrefs : ∀ c ∈ calls, ∀ ref, c.2 = some ref → ref < heap.length) :
    readOrder env (runCalls env (Hist.init env heap) calls) = .ok (usedNames calls) ∧
    ∀ name, name ≠ "order" →
      readEntry (runCalls env (Hist.init env heap) calls) name = lastGiven env heap calls name := by
  suffices ∀ later done s, HInv env heap done s →
      (∀ c ∈ later, ∀ ref, c.2 = some ref → ref < heap.length) →
      HInv env heap (done ++ later) (runCalls env s later) by
    have h := this calls [] _ (HInv.init env hrt heap) hrefs
    exact ⟨h.order, h.entry⟩
  intro later
  induction later with
  | nil => intro done s h _; rw [List.append_nil]; exact h
  | cons c later ih =>
    intro done s h hr
    have h1 := (h.step env hrt hstore heap done s c.1 c.2 (hr c (by simp))).1
    have h2 := ih (done ++ [c]) _ h1 (fun c' hc' => hr c' (by simp [hc']))
    rw [List.append_assoc] at h2
    exact h2

/-- C38. The name `order` is refused, whatever the state, and nothing changes. -/
theorem C38_reserved (env : HEnv T V) (s : Hist T V) (h : Option Nat) :
    addHistory env s "order" h = (some .valueError, s) := by
  unfold addHistory; rw [if_pos rfl]

/-- C38 fails on disk, where the attributes refuse dictionaries: every call for a new name raises, but
the name has been added to the order by then, and there is no entry for it. -/
theorem C38_on_disk_violated (env : HEnv T V) (hrt : ∀ l, env.parse (env.render l) = some l)
    (hstore : ∀ v, env.storable v = false) (heap : List V) (name : String) (hn : name ≠ "order") :
    (addHistory env (Hist.init env heap) name none).1 = some .typeError ∧
    readOrder env (addHistory env (Hist.init env heap) name none).2 = .ok [name] ∧
    readEntry (addHistory env (Hist.init env heap) name none).2 name = none := by
  unfold addHistory
  rw [if_neg hn, (HInv.init env hrt heap).order]
  simp only [alloc, storeEntry, Hist.init, List.getElem?_concat_length, hstore]
  refine ⟨rfl, ?_, ?_⟩
  · unfold readOrder
    simp [lastOf, hrt, usedNames]
  · unfold readEntry
    simp [lastOf, Ne.symm hn]

/-- C38 fails if the caller goes on using its dictionary: the log holds the dictionary itself, so that
changing it later changes the entry. -/
theorem C38_alias_violated (env : HEnv T V) (hrt : ∀ l, env.parse (env.render l) = some l)
    (hstore : ∀ v, env.storable v = true) (name : String) (hn : name ≠ "order") (v w : V) :
    readEntry ([HOp.add name (some 0), .write 0 w].foldl (HOp.run env) (Hist.init env [v])) name
      = some w := by
  have hi : readOrder env (Hist.init env [v]) = .ok (usedNames []) := (HInv.init env hrt [v]).order
  simp only [List.foldl_cons, List.foldl_nil, HOp.run, addHistory, if_neg hn, hi]
  simp only [alloc, storeEntry, Hist.init, List.getElem?_cons_zero, hstore, if_true, readEntry,
    lastOf_append, lastOf_two, Option.some_or, List.set_cons_zero]

/-! ### Files that have a history already, also in the old format -/

/-- One accepted call, in any state. -/
theorem addHistory_step (env : HEnv T V) (hrt : ∀ l, env.parse (env.render l) = some l) (hstore : ∀ v, env.storable v = true) (s : Hist T V) (names : List String)
    (ho : readOrder env s = .ok names) (hr : ∀ name ref, lastOf s.attrs name = some (.obj ref) → ref < s.heap.length) (name : String) (hn : name ≠ "order") (v : Option Nat)
    (hv : ∀ ref, v = some ref → ref < s.heap.length) :
    (addHistory env s name v).1 = none ∧ readOrder env (addHistory env s name v).2 = .ok (names ++ [name]) ∧
      (∃ l, (addHistory env s name v).2.heap = s.heap ++ l) ∧
      (∃ ref, lastOf (addHistory env s name v).2.attrs name = some (.obj ref) ∧ ref < (addHistory env s name v).2.heap.length ∧
        (addHistory env s name v).2.heap[ref]? = givenValue env s.heap v) ∧
      (∀ k, k ≠ name → k ≠ "order" → lastOf (addHistory env s name v).2.attrs k = lastOf s.attrs k) ∧
      ∀ ref, lastOf (addHistory env s name v).2.attrs "order" ≠ some (.obj ref) := by
  unfold addHistory
  rw [if_neg hn, ho]
  simp only
  have hx : ∃ x l, (alloc env s v).1.heap[(alloc env s v).2]? = some x ∧ givenValue env s.heap v = some x ∧ (alloc env s v).1.attrs = s.attrs ∧
      (alloc env s v).1.heap = s.heap ++ l := by
    cases v with
    | some ref => exact ⟨s.heap[ref]'(hv ref rfl), [], by simp [alloc, hv ref rfl], by simp [givenValue, hv ref rfl], rfl, by simp [alloc]⟩
    | none => exact ⟨env.empty, [env.empty], by simp [alloc], rfl, rfl, rfl⟩
  obtain ⟨x, l, hx, hg, ha, hl⟩ := hx
  generalize alloc env s v = ar at *
  obtain ⟨s', ref⟩ := ar
  simp only at *
  unfold storeEntry
  rw [hx]
  simp only
  rw [if_pos (hstore x)]
  simp only
  refine ⟨trivial, ?_, ⟨l, hl⟩, ⟨ref, ?_, (List.getElem?_eq_some_iff.1 hx).1, hx.trans hg.symm⟩, ?_, ?_⟩
  · unfold readOrder
    simp only
    rw [lastOf_append, lastOf_two, if_neg hn, if_pos rfl]
    simp only [Option.some_or]
    rw [hrt]
  · rw [lastOf_append, lastOf_two, if_pos rfl]; rfl
  · intro k hk hk'
    rw [lastOf_append, lastOf_two, if_neg (Ne.symm hk), if_neg (Ne.symm hk'), Option.none_or, ha]
  · intro r
    rw [lastOf_append, lastOf_two, if_neg hn, if_pos rfl]
    simp

/-- C38, for a container read from a file that has a history, whose entries may be attributes or, in the old format, subgroups. After
any sequence of calls the order is the one in the file and then the names used; an entry is the last value given for its name; if none was given, what
the file had for it, where an attribute counts before a subgroup. -/
theorem C38_old_format_partial (env : HEnv T V) (hrt : ∀ l, env.parse (env.render l) = some l) (hstore : ∀ v, env.storable v = true) (old : List (String × V)) (s : Hist T V)
    (names : List String) (ho : readOrder env s = .ok names) (hr : ∀ name ref, lastOf s.attrs name = some (.obj ref) → ref < s.heap.length)
    (calls : List (String × Option Nat)) (hrefs : ∀ c ∈ calls, ∀ ref, c.2 = some ref → ref < s.heap.length) :
    ∃ h h0, historyOf env old (runCalls env s calls) = .ok h ∧ historyOf env old s = .ok h0 ∧ h "order" = some (.names (names ++ usedNames calls)) ∧
      ∀ name, name ≠ "order" → h name = ((lastGiven env s.heap calls name).map .entry).or (h0 name) := by
  suffices ∀ (later : List (String × Option Nat)) (t : Hist T V) (ns : List String), readOrder env t = .ok ns →
      (∀ name ref, lastOf t.attrs name = some (.obj ref) → ref < t.heap.length) → (∃ l, t.heap = s.heap ++ l) →
      (∀ c ∈ later, ∀ ref, c.2 = some ref → ref < s.heap.length) →
      ∃ h h0, historyOf env old (runCalls env t later) = .ok h ∧ historyOf env old t = .ok h0 ∧ h "order" = some (.names (ns ++ usedNames later)) ∧
        ∀ name, name ≠ "order" → h name = ((lastGiven env s.heap later name).map .entry).or (h0 name) from
    this calls s names ho hr ⟨[], by simp⟩ hrefs
  intro later
  induction later with
  | nil =>
    intro t ns ho hr _ _
    refine ⟨_, _, by simp only [runCalls, List.foldl_nil, historyOf, ho]; rfl, by simp only [historyOf, ho]; rfl, by simp [usedNames], fun name hn => ?_⟩
    simp [lastGiven, lastOf]
  | cons c later ih =>
    intro t ns ho hr hgrow hc
    obtain ⟨name, v⟩ := c
    obtain ⟨g, hg⟩ := hgrow
    have hcons : runCalls env t ((name, v) :: later) = runCalls env (addHistory env t name v).2 later := rfl
    have hlc : ∀ k, lastGiven env s.heap ((name, v) :: later) k = (lastGiven env s.heap later k).or (if (lastOf later k).isNone ∧ name = k then givenValue env s.heap v else none) := by
      intro k
      have : (name, v) :: later = [(name, v)] ++ later := rfl
      rw [lastGiven, lastGiven, this, lastOf_append, lastOf_one]
      cases lastOf later k with
      | none => by_cases hk : name = k <;> simp [hk]
      | some x => simp
    by_cases hn : name = "order"
    · have hsame : (addHistory env t name v).2 = t := by rw [addHistory, if_pos hn]
      rw [hcons, hsame]
      obtain ⟨h, h0, e1, e2, e3, e4⟩ := ih t ns ho hr ⟨g, hg⟩ fun c hc' => hc c (by simp [hc'])
      refine ⟨h, h0, e1, e2, by rw [e3]; simp [usedNames, hn], fun k hk => ?_⟩
      rw [e4 k hk, hlc, if_neg (fun hh => hk (hh.2.symm.trans hn))]
      simp
    · obtain ⟨-, s1, ⟨l, s2⟩, ⟨ref, s3, s4, s5⟩, s6, s7⟩ := addHistory_step env hrt hstore t ns ho hr name hn v fun ref hv => by
        have := hc _ List.mem_cons_self ref hv
        rw [hg]; simp; omega
      have hr' : ∀ k ref, lastOf (addHistory env t name v).2.attrs k = some (.obj ref) → ref < (addHistory env t name v).2.heap.length := by
        intro k r hk
        by_cases h1 : k = name
        · rw [h1, s3] at hk; cases hk; exact s4
        · by_cases h2 : k = "order"
          · rw [h2] at hk; exact absurd hk (s7 r)
          · rw [s6 k h1 h2] at hk
            have := hr k r hk
            rw [s2]; simp; omega
      obtain ⟨h, h0, e1, e2, e3, e4⟩ := ih _ _ s1 hr' ⟨g ++ l, by rw [s2, hg, List.append_assoc]⟩ fun c hc' => hc c (by simp [hc'])
      refine ⟨h, _, by rw [hcons]; exact e1, by simp only [historyOf, ho]; rfl, by rw [e3]; simp [usedNames, hn], fun k hk => ?_⟩
      rw [e4 k hk, hlc]
      simp only [historyOf, s1, Except.ok.injEq] at e2
      subst e2
      simp only [if_neg hk]
      by_cases hkn : k = name
      · subst hkn
        rw [s3]
        simp only [s5]
        have hgv : givenValue env t.heap v = givenValue env s.heap v := by
          cases v with
          | none => rfl
          | some r => simp only [givenValue, hg]; rw [List.getElem?_append_left (hc _ List.mem_cons_self r rfl)]
        have hsome : ∃ x, givenValue env s.heap v = some x := by
          cases v with
          | none => exact ⟨_, rfl⟩
          | some r => exact ⟨_, List.getElem?_eq_getElem (hc _ List.mem_cons_self r rfl)⟩
        obtain ⟨x, hx⟩ := hsome
        rw [hgv, hx]
        cases hl : lastOf later k with
        | none => simp [lastGiven, hl]
        | some y =>
          have hy : ∃ z, givenValue env s.heap y = some z := by
            cases y with
            | none => exact ⟨_, rfl⟩
            | some r =>
              have hmem : (k, some r) ∈ later := by
                unfold lastOf at hl
                cases hf : later.reverse.find? (·.1 == k) with
                | none => simp [hf] at hl
                | some p =>
                  have h1 := List.mem_of_find?_eq_some hf
                  have h2 := List.find?_some hf
                  simp only [hf, Option.map_some, Option.some.injEq] at hl
                  simp only [beq_iff_eq] at h2
                  obtain ⟨p1, p2⟩ := p
                  simp only at hl h2
                  subst hl h2
                  simpa using h1
              exact ⟨_, List.getElem?_eq_getElem (hc _ (List.mem_cons_of_mem _ hmem) r rfl)⟩
          obtain ⟨z, hz⟩ := hy
          simp [lastGiven, hl, hz]
      · rw [if_neg (fun hh => hkn hh.2.symm), Option.or_none, s6 k hkn hk]
        cases hk2 : lastOf t.attrs k with
        | none => rfl
        | some a =>
          cases a with
          | text x => rfl
          | obj r =>
            have := hr k r hk2
            simp only [s2]
            rw [List.getElem?_append_left this]

/-- C38 fails for files in the old format without an order: opened for reading only, the history cannot be read; otherwise, the entries of the file
are not in the order. -/
theorem C38_no_order_violated (env : HEnv T V) (hrt : ∀ l, env.parse (env.render l) = some l) (old : List (String × V)) (heap : List V) :
    (∃ e, historyOf env old (openHist env false ⟨[], heap⟩) = .error e) ∧
    ∃ h, historyOf env old (openHist env true ⟨[], heap⟩) = .ok h ∧ h "order" = some (.names []) ∧
      ∀ name, name ≠ "order" → h name = (lastOf old name).map .entry := by
  refine ⟨⟨.keyError, rfl⟩, ?_⟩
  refine ⟨_, by simp [historyOf, openHist, readOrder, lastOf, hrt]; rfl, by simp, fun name hn => ?_⟩
  have : ¬ "order" = name := Ne.symm hn
  simp [hn, this, lastOf]

/-- An environment that meets the hypotheses: texts are lists of names. -/
def exEnv : HEnv (List String) Nat := ⟨id, some, 0, fun _ => true⟩

example : readOrder exEnv (runCalls exEnv (Hist.init exEnv [5, 6])
      [("a", some 0), ("order", none), ("b", none), ("a", some 1)]) = .ok ["a", "b", "a"] ∧
    readEntry (runCalls exEnv (Hist.init exEnv [5, 6])
      [("a", some 0), ("order", none), ("b", none), ("a", some 1)]) "a" = some 6 := by
  have h := C38_history_partial exEnv (fun _ => rfl) (fun _ => rfl) [5, 6]
    [("a", some 0), ("order", none), ("b", none), ("a", some 1)] (by
      intro c hc ref hr
      simp at hc
      rcases hc with rfl | rfl | rfl | rfl <;> simp at hr <;> subst hr <;> simp)
  exact ⟨h.1.trans (congrArg _ (by decide +kernel)), (h.2 "a" (by decide)).trans (by decide +kernel)⟩

/-- A file in the old format with the entries `acq` and `cal`. -/
def exOld : Hist (List String) Nat := ⟨[("order", .text ["acq", "cal"])], [5]⟩

example : ∃ h, historyOf exEnv [("acq", 1), ("cal", 2)] (runCalls exEnv exOld [("map", none), ("cal", some 0)]) = .ok h ∧
    h "order" = some (.names ["acq", "cal", "map", "cal"]) ∧ h "acq" = some (.entry 1) ∧ h "cal" = some (.entry 5) := by
  refine ⟨_, rfl, ?_, ?_, ?_⟩ <;> decide +kernel

example : readOrder exEnv exOld = .ok ["acq", "cal"] ∧ ∀ name ref, lastOf exOld.attrs name = some (.obj ref) → ref < exOld.heap.length := by
  refine ⟨rfl, fun name ref h => ?_⟩
  rw [exOld, lastOf_one] at h
  split at h <;> simp at h

end Verif.Cont
