import Verif.Fit.Model

/-!
# C112: chunks fit
-/
namespace Verif.Fit

/-- One chunk length for every axis, at least one and not longer than the axis. -/
def Fits (shape chunks : List Nat) : Prop :=
  chunks.length = shape.length ∧ ∀ (i c l : Nat), chunks[i]? = some c → shape[i]? = some l → 1 ≤ c ∧ c ≤ l

/-- The same for a dataset, if it has chunks. -/
def Ds.Fine (d : Ds) : Prop := ∀ cs, d.chunks = some cs → Fits d.shape cs

theorem fits_nil : Fits [] [] := ⟨rfl, by simp⟩

theorem fits_cons (c l : Nat) (cs ls : List Nat) : Fits (l :: ls) (c :: cs) ↔ (1 ≤ c ∧ c ≤ l) ∧ Fits ls cs := by
  constructor
  · rintro ⟨h1, h2⟩
    exact ⟨h2 0 c l rfl rfl, by simpa using h1, fun i c l hc hl => h2 (i + 1) c l (by simpa using hc) (by simpa using hl)⟩
  · rintro ⟨h, h1, h2⟩
    refine ⟨by simp [h1], fun i c' l' hc hl => ?_⟩
    cases i with
    | zero => simp at hc hl; subst hc hl; exact h
    | succ i => exact h2 i c' l' (by simpa using hc) (by simpa using hl)

/-- The demands of the library are that chunks fit. -/
theorem h5accepts_iff (d : Ds) : h5accepts d = .ok () ↔ d.Fine := by
  obtain ⟨shape, chunks, _, _⟩ := d
  cases chunks with
  | none => simp [h5accepts, Ds.Fine]
  | some cs =>
    have key : ∀ (cs shape : List Nat), ((List.zipWith (fun c l => decide (l < c)) cs shape).any id = false ∧ cs.length = shape.length ∧ cs.any (· == 0) = false) ↔ Fits shape cs := by
      intro cs
      induction cs with
      | nil =>
        intro shape
        cases shape with
        | nil => simp [fits_nil]
        | cons l ls => simp [Fits]
      | cons c cs ih =>
        intro shape
        cases shape with
        | nil => simp [Fits]
        | cons l ls =>
          rw [fits_cons, ← ih ls]
          simp only [List.zipWith_cons_cons, List.any_cons, id, Bool.or_eq_false_iff, decide_eq_false_iff_not, List.length_cons, Nat.add_right_cancel_iff, beq_eq_false_iff_ne]
          constructor
          · rintro ⟨⟨h1, h2⟩, h3, h4, h5⟩; exact ⟨⟨by omega, by omega⟩, h2, h3, h5⟩
          · rintro ⟨⟨h1, h2⟩, h3, h4, h5⟩; exact ⟨⟨by omega, h3⟩, h4, by omega, h5⟩
    simp only [h5accepts, Ds.Fine, Option.some.injEq, forall_eq', ← key]
    cases h1 : (List.zipWith (fun c l => decide (l < c)) cs shape).any id with
    | true => simp
    | false =>
      by_cases h2 : cs.length = shape.length
      · cases h3 : cs.any (· == 0) <;> simp [h2]
      · simp [h2]

theorem clip_ok (cs shape : List Nat) (h : shape.length ≤ cs.length) : clip cs shape = .ok (List.zipWith min cs shape) := by
  induction cs generalizing shape with
  | nil => cases shape with
    | nil => rfl
    | cons l ls => simp at h
  | cons c cs ih =>
    cases shape with
    | nil => rfl
    | cons l ls => simp only [clip, ih ls (by simpa using h), List.zipWith_cons_cons]

theorem clip_short (cs shape : List Nat) (h : cs.length < shape.length) : clip cs shape = .error .indexError := by
  induction cs generalizing shape with
  | nil => cases shape with
    | nil => simp at h
    | cons l ls => rfl
  | cons c cs ih =>
    cases shape with
    | nil => simp at h
    | cons l ls => simp only [clip, ih ls (by simpa using h)]

theorem fits_min (cs shape : List Nat) (h : shape.length ≤ cs.length) (hc : ∀ c ∈ cs, 1 ≤ c) (hl : ∀ l ∈ shape, 1 ≤ l) : Fits shape (List.zipWith min cs shape) := by
  induction cs generalizing shape with
  | nil => cases shape with
    | nil => exact fits_nil
    | cons l ls => simp at h
  | cons c cs ih =>
    cases shape with
    | nil => exact fits_nil
    | cons l ls =>
      rw [List.zipWith_cons_cons, fits_cons]
      have h1 := hc c (by simp)
      have h2 := hl l (by simp)
      exact ⟨⟨by omega, by omega⟩, ih ls (by simpa using h) (fun c hc' => hc c (by simp [hc'])) fun l hl' => hl l (by simp [hl'])⟩

theorem zip_min_self (cs shape : List Nat) : List.zipWith min (List.zipWith min cs shape) shape = List.zipWith min cs shape := by
  induction cs generalizing shape with
  | nil => simp
  | cons c cs ih =>
    cases shape with
    | nil => simp
    | cons l ls => simp [ih]

/-- A specification that gives chunks for each of its axes. -/
def Spec.Good (s : Spec) : Prop := ∀ v, s.chunks = some v → ∃ cs, v = some cs ∧ s.axes.length ≤ cs.length ∧ ∀ c ∈ cs, 1 ≤ c

theorem shapeOf_ok (lens : Name → Option Nat) (axes : List Name) (h : ∀ a ∈ axes, (lens a).isSome) : shapeOf lens axes = .ok (axes.map fun a => (lens a).getD 0) := by
  induction axes with
  | nil => rfl
  | cons a as ih =>
    obtain ⟨l, hl⟩ := Option.isSome_iff_exists.1 (h a (by simp))
    simp only [shapeOf, hl, ih (fun b hb => h b (by simp [hb])), List.map_cons, Option.getD_some]

theorem shapeOf_mem (lens : Name → Option Nat) (axes : List Name) (shape : List Nat) (h : shapeOf lens axes = .ok shape) :
    shape.length = axes.length ∧ ∀ l ∈ shape, ∃ a, lens a = some l := by
  induction axes generalizing shape with
  | nil => cases h; simp
  | cons a as ih =>
    simp only [shapeOf] at h
    cases ha : lens a with
    | none => simp [ha] at h
    | some l =>
      simp only [ha] at h
      cases hs : shapeOf lens as with
      | error e => simp [hs] at h
      | ok r =>
        simp only [hs, Except.ok.injEq] at h
        subst h
        obtain ⟨h1, h2⟩ := ih r hs
        refine ⟨by simp [h1], ?_⟩
        intro x hx
        rcases List.mem_cons.1 hx with rfl | hx
        · exact ⟨a, ha⟩
        · exact h2 x hx

theorem shapeOf_missing (lens : Name → Option Nat) (as : List Name) (h : ∃ a ∈ as, lens a = none) : shapeOf lens as = .error .runtimeError := by
  induction as with
  | nil => obtain ⟨a, ha, -⟩ := h; cases ha
  | cons a as ih =>
    rw [shapeOf]
    cases hl : lens a with
    | none => rfl
    | some l =>
      obtain ⟨b, hb, hn⟩ := h
      rcases List.mem_cons.1 hb with rfl | hb
      · rw [hl] at hn; cases hn
      · rw [ih ⟨b, hb, hn⟩]

/-- **C112** (names and axes that are not there). A dataset without a specification, or with an axis that the container does not have, is a
`RuntimeError`, and nothing is made. -/
theorem C112_missing (c : Cont) (n : Name)
    (h : c.specs.find? (fun x => x.1 == n) = none ∨ ∃ s, c.specs.find? (fun x => x.1 == n) = some (n, s) ∧ ∃ a ∈ s.axes, c.lens a = none) :
    addDataset c n = .error .runtimeError ∧ (step c (.add n)).1 = c := by
  have e : addDataset c n = .error .runtimeError := by
    unfold addDataset
    rcases h with h | ⟨s, h, ha⟩
    · rw [h]
    · rw [h]
      simp only
      rw [shapeOf_missing c.lens s.axes ha]
  exact ⟨e, by simp only [step, e]⟩

example : addDataset ⟨fun a => if a = "t" then some 3 else none, [("x", ⟨["t", "f"], none, none, none⟩)], true, fun _ => none⟩ "x" = .error .runtimeError :=
  (C112_missing _ "x" (.inr ⟨_, rfl, "f", by simp, by simp⟩)).1

/-- **C112** (new datasets). A dataset made from its specification has the lengths of its axes as shape; if chunks are allowed and given, one for each axis, every chunk length is
the one given or that of the axis, whichever is less; compression and options are those given. -/
theorem C112_spec (c : Cont) (n : Name) (s : Spec) (hs : c.specs.find? (fun x => x.1 == n) = some (n, s)) (hl : ∀ a ∈ s.axes, (c.lens a).isSome) :
    let shape := s.axes.map fun a => (c.lens a).getD 0
    (c.allowChunked = false → ∃ c', addDataset c n = .ok c' ∧ c'.dsets n = some ⟨shape, none, none, none⟩ ∧ ∀ m, m ≠ n → c'.dsets m = c.dsets m) ∧
    (c.allowChunked = true → ∀ cs, s.chunks = some (some cs) → s.axes.length ≤ cs.length → ∃ c', addDataset c n = .ok c' ∧
      c'.dsets n = some ⟨shape, some (List.zipWith min cs shape), s.compression.getD none, s.opts.getD none⟩ ∧ ∀ m, m ≠ n → c'.dsets m = c.dsets m) ∧
    (c.allowChunked = true → s.chunks.getD none = none → ∃ c', addDataset c n = .ok c' ∧
      c'.dsets n = some ⟨shape, none, s.compression.getD none, s.opts.getD none⟩ ∧ ∀ m, m ≠ n → c'.dsets m = c.dsets m) ∧
    (c.allowChunked = true → ∀ cs, s.chunks = some (some cs) → cs.length < s.axes.length → addDataset c n = .error .indexError) := by
  intro shape
  have hsh := shapeOf_ok c.lens s.axes hl
  refine ⟨?_, ?_, ?_, ?_⟩
  · intro ha
    refine ⟨_, by simp only [addDataset, hs, ha, hsh]; rfl, by simp [createDataset, put, shape], fun m hm => by simp [createDataset, put, hm]⟩
  · intro ha cs hc hlen
    have := clip_ok cs shape (by simpa [shape] using hlen)
    refine ⟨_, by simp only [addDataset, hs, ha, hsh, hc, if_true, Option.getD_some]; rw [this], by simp [createDataset, put, shape], fun m hm => by simp [createDataset, put, hm]⟩
  · intro ha hc
    refine ⟨_, by simp only [addDataset, hs, ha, hsh, hc, if_true]; rfl, by simp [createDataset, put, shape], fun m hm => by simp [createDataset, put, hm]⟩
  · intro ha cs hc hlen
    have := clip_short cs shape (by simpa [shape] using hlen)
    simp only [addDataset, hs, ha, hsh, hc, if_true, Option.getD_some]
    rw [this]

/-- **C112** (setting). Chunks that are set have one length for each axis, or are refused; each is cut to the axis. -/
theorem C112_set (d : Ds) (v : List Nat) :
    (v.length ≠ d.shape.length → setChunks d (some v) = .error .valueError) ∧
    (v.length = d.shape.length → (∀ c ∈ v, 1 ≤ c) → (∀ l ∈ d.shape, 1 ≤ l) → ∃ d', setChunks d (some v) = .ok d' ∧ d'.Fine ∧ d'.chunks = some (List.zipWith min v d.shape) ∧
      d'.shape = d.shape ∧ d'.compression = d.compression ∧ d'.opts = d.opts) ∧
    setChunks d none = .ok { d with chunks := none } := by
  refine ⟨fun h => by simp [setChunks, h], fun h hc hl => ⟨{ d with chunks := some (List.zipWith min v d.shape) }, by simp [setChunks, h], ?_, rfl, rfl, rfl, rfl⟩, rfl⟩
  intro cs hcs
  simp only [Option.some.injEq] at hcs
  subst hcs
  exact fits_min v d.shape (by omega) hc hl

/-- What filling in the defaults makes of one dataset. -/
def filled (s : Spec) (d : Ds) : Ds :=
  { shape := d.shape
    chunks := if d.chunks = none then (s.chunks.getD none).map fun cs => List.zipWith min cs d.shape else d.chunks
    compression := if d.compression = none then s.compression.getD none else d.compression
    opts := if d.opts = none then s.opts.getD none else d.opts }

theorem ensure_one (s : Spec) (d : Ds) (h : ∀ v, s.chunks = some v → ∃ cs, v = some cs ∧ d.shape.length ≤ cs.length) :
    ∃ d', ensureChunks s d = .ok d' ∧ ensureFilter s d' = filled s d := by
  obtain ⟨shape, chunks, comp, opts⟩ := d
  obtain ⟨axes, sc, scomp, sopts⟩ := s
  have hf : ∀ ch, ensureFilter ⟨axes, sc, scomp, sopts⟩ ⟨shape, ch, comp, opts⟩ =
      ⟨shape, ch, if comp = none then scomp.getD none else comp, if opts = none then sopts.getD none else opts⟩ := by
    intro ch
    cases scomp <;> cases sopts <;> cases comp <;> cases opts <;> rfl
  cases sc with
  | none =>
    refine ⟨⟨shape, chunks, comp, opts⟩, rfl, ?_⟩
    rw [hf]
    cases chunks <;> simp [filled]
  | some v =>
    obtain ⟨cs, rfl, hlen⟩ := h v rfl
    cases chunks with
    | some c =>
      refine ⟨⟨shape, some c, comp, opts⟩, rfl, ?_⟩
      rw [hf]
      simp [filled]
    | none =>
      simp only at hlen
      have hlen2 : (List.zipWith min cs shape).length = shape.length := by simp; omega
      refine ⟨⟨shape, some (List.zipWith min cs shape), comp, opts⟩, ?_, ?_⟩
      · simp only [ensureChunks, clip_ok cs shape hlen, setChunks, hlen2, ne_eq, not_true_eq_false, if_false, zip_min_self]
      · rw [hf]
        simp [filled]

theorem ensureLoop_ok (specs : List (Name × Spec)) (f : Name → Option Ds) (hn : (specs.map (·.1)).Nodup)
    (h : ∀ n s d, (n, s) ∈ specs → f n = some d → ∀ v, s.chunks = some v → ∃ cs, v = some cs ∧ d.shape.length ≤ cs.length) :
    ∃ g, ensureLoop specs f = (g, none) ∧ (∀ n s d, (n, s) ∈ specs → f n = some d → g n = some (filled s d)) ∧ (∀ n, n ∉ specs.map (·.1) ∨ f n = none → g n = f n) := by
  induction specs generalizing f with
  | nil => exact ⟨f, rfl, by simp, fun _ _ => rfl⟩
  | cons p specs ih =>
    obtain ⟨n, s⟩ := p
    simp only [List.map_cons, List.nodup_cons] at hn
    cases hf : f n with
    | none =>
      obtain ⟨g, e1, e2, e3⟩ := ih f hn.2 fun m t d hm hd => h m t d (by simp [hm]) hd
      refine ⟨g, by simp only [ensureLoop, hf, e1], ?_, ?_⟩
      · intro m t d hm hd
        rcases List.mem_cons.1 hm with hm | hm
        · cases hm; rw [hf] at hd; cases hd
        · exact e2 m t d hm hd
      · intro m hm
        apply e3
        rcases hm with hm | hm
        · exact .inl fun hc => hm (by simp only [List.map_cons, List.mem_cons]; exact .inr hc)
        · exact .inr hm
    | some d =>
      obtain ⟨d', g1, g2⟩ := ensure_one s d (h n s d (by simp) hf)
      have hne : ∀ m t, (m, t) ∈ specs → m ≠ n := by
        rintro m t hm rfl
        exact hn.1 (List.mem_map.2 ⟨_, hm, rfl⟩)
      obtain ⟨g, e1, e2, e3⟩ := ih (put f n (some (ensureFilter s d'))) hn.2 fun m t x hm hx => by
        have := hne m t hm
        simp only [put, this, if_false] at hx
        exact h m t x (by simp [hm]) hx
      refine ⟨g, by simp only [ensureLoop, hf, g1, e1], ?_, ?_⟩
      · intro m t x hm hx
        rcases List.mem_cons.1 hm with hm | hm
        · cases hm
          rw [hf] at hx
          cases hx
          rw [e3 _ (.inl hn.1)]
          simp [put, g2]
        · exact e2 m t x hm (by simp only [put, hne m t hm, if_false]; exact hx)
      · intro m hm
        have hmn : m ≠ n := by
          rintro rfl
          rcases hm with hm | hm
          · simp at hm
          · rw [hf] at hm; cases hm
        rw [e3 m]
        · simp [put, hmn]
        · rcases hm with hm | hm
          · exact .inl fun hc => hm (by simp only [List.map_cons, List.mem_cons]; exact .inr hc)
          · exact .inr (by simp only [put, hmn, if_false]; exact hm)

/-- **C112** (defaults). Filling in the defaults gives chunks to the datasets that have none and whose specification has them, each cut to the axis, likewise compression and options; what is set
is kept; all other datasets stay as they are. -/
theorem C112_defaults_partial (c : Cont) (hn : (c.specs.map (·.1)).Nodup)
    (h : ∀ n s d, (n, s) ∈ c.specs → c.dsets n = some d → ∀ v, s.chunks = some v → ∃ cs, v = some cs ∧ d.shape.length ≤ cs.length) :
    ∃ c', ensureChunked c = (c', none) ∧ c'.lens = c.lens ∧
      (∀ n s d, (n, s) ∈ c.specs → c.dsets n = some d → ∃ d', c'.dsets n = some d' ∧ d'.shape = d.shape ∧
        (∀ cs, d.chunks = some cs → d'.chunks = some cs) ∧ (∀ cs, d.chunks = none → s.chunks = some (some cs) → d'.chunks = some (List.zipWith min cs d.shape)) ∧
        (d.chunks = none → s.chunks = none → d'.chunks = none) ∧
        (∀ k, d.compression = some k → d'.compression = some k) ∧ (d.compression = none → d'.compression = s.compression.getD none) ∧
        (∀ k, d.opts = some k → d'.opts = some k) ∧ (d.opts = none → d'.opts = s.opts.getD none)) ∧
      (∀ n, n ∉ c.specs.map (·.1) ∨ c.dsets n = none → c'.dsets n = c.dsets n) := by
  obtain ⟨g, e1, e2, e3⟩ := ensureLoop_ok c.specs c.dsets hn h
  refine ⟨{ c with dsets := g }, by simp only [ensureChunked, e1], rfl, ?_, e3⟩
  intro n s d hm hd
  refine ⟨filled s d, e2 n s d hm hd, rfl, ?_, ?_, ?_, ?_, ?_, ?_, ?_⟩
  · intro cs hcs; simp [filled, hcs]
  · intro cs h1 h2; simp [filled, h1, h2]
  · intro h1 h2; simp [filled, h1, h2]
  · intro k hk; simp [filled, hk]
  · intro hk; simp [filled, hk]
  · intro k hk; simp [filled, hk]
  · intro hk; simp [filled, hk]

/-! ## All sequences of operations -/

/-- The axes of the container and the datasets are not empty, chunks fit, and specifications are good. -/
structure Inv (c : Cont) : Prop where
  lens : ∀ a l, c.lens a = some l → 1 ≤ l
  good : ∀ n s, (n, s) ∈ c.specs → s.Good
  fine : ∀ n d, c.dsets n = some d → d.Fine ∧ ∀ l ∈ d.shape, 1 ≤ l

/-- Operations that keep them: chunks that are set are not zero; files have data and their chunks fit, as HDF5 demands, and are read as a whole; chunks given for a new dataset fit. -/
def Op.Fair : Op → Prop
  | .set _ v => ∀ cs, v = some cs → ∀ c ∈ cs, 1 ≤ c
  | .read _ file sel => file.Fine ∧ (∀ l ∈ file.shape, 1 ≤ l) ∧ (∀ s ∈ sel, s = .all)
  | .create _ d => d.Fine ∧ ∀ l ∈ d.shape, 1 ≤ l
  | _ => True

theorem selShape_all (shape : List Nat) (sel : List Sel) (h : ∀ s ∈ sel, s = .all) : selShape shape sel = shape := by
  induction shape generalizing sel with
  | nil => cases sel <;> rfl
  | cons l ls ih =>
    cases sel with
    | nil => rfl
    | cons s ss =>
      have := h s (by simp)
      subst this
      simp only [selShape, ih ss (fun s hs => h s (by simp [hs]))]

theorem inv_put (c : Cont) (hi : Inv c) (n : Name) (d : Option Ds) (h : ∀ x, d = some x → x.Fine ∧ ∀ l ∈ x.shape, 1 ≤ l) : Inv { c with dsets := put c.dsets n d } := by
  refine ⟨hi.lens, hi.good, fun m x hx => ?_⟩
  simp only [put] at hx
  split at hx
  · exact h x hx
  · exact hi.fine m x hx

theorem ensureChunks_fine (s : Spec) (hs : s.Good) (d d' : Ds) (hd : d.Fine ∧ ∀ l ∈ d.shape, 1 ≤ l) (h : ensureChunks s d = .ok d') :
    d'.Fine ∧ ∀ l ∈ d'.shape, 1 ≤ l := by
  unfold ensureChunks at h
  split at h
  · rename_i h1 h2
    obtain ⟨cs, hc, -⟩ := hs _ h1
    cases hc
  · rename_i cs h1 h2
    split at h
    · cases h
    · rename_i r hr
      obtain ⟨cs', hc, hlen, hpos⟩ := hs _ h1
      cases hc
      have hle : d.shape.length ≤ cs.length := by
        rcases Nat.lt_or_ge cs.length d.shape.length with hlt | hge
        · rw [clip_short cs d.shape hlt] at hr
          cases hr
        · exact hge
      rw [clip_ok cs d.shape hle] at hr
      cases hr
      have hlen2 : (List.zipWith min cs d.shape).length = d.shape.length := by simp; omega
      simp only [setChunks, hlen2, ne_eq, not_true_eq_false, if_false, zip_min_self, Except.ok.injEq] at h
      subst h
      refine ⟨?_, hd.2⟩
      intro x hx
      simp only [Option.some.injEq] at hx
      subst hx
      exact fits_min cs d.shape hle hpos hd.2
  · cases h; exact hd

theorem ensureFilter_same (s : Spec) (d : Ds) : (ensureFilter s d).shape = d.shape ∧ (ensureFilter s d).chunks = d.chunks := by
  obtain ⟨_, _, comp, opts⟩ := d
  obtain ⟨_, _, scomp, sopts⟩ := s
  cases scomp <;> cases sopts <;> cases comp <;> cases opts <;> exact ⟨rfl, rfl⟩

theorem ensureLoop_fine (specs : List (Name × Spec)) (hg : ∀ n s, (n, s) ∈ specs → s.Good) (f : Name → Option Ds)
    (hf : ∀ n d, f n = some d → d.Fine ∧ ∀ l ∈ d.shape, 1 ≤ l) (n : Name) (d : Ds) (h : (ensureLoop specs f).1 n = some d) : d.Fine ∧ ∀ l ∈ d.shape, 1 ≤ l := by
  induction specs generalizing f with
  | nil => exact hf n d h
  | cons p specs ih =>
    obtain ⟨m, s⟩ := p
    have hg' := fun n s hm => hg n s (List.mem_cons_of_mem _ hm)
    simp only [ensureLoop] at h
    split at h
    · exact ih hg' f hf h
    · rename_i x hx
      split at h
      · exact hf n d h
      · rename_i x' hx'
        refine ih hg' _ ?_ h
        intro k y hy
        simp only [put] at hy
        split at hy
        · cases hy
          obtain ⟨e1, e2⟩ := ensureFilter_same s x'
          have := ensureChunks_fine s (hg m s (by simp)) x x' (hf m x hx) hx'
          unfold Ds.Fine
          rw [e1, e2]
          exact this
        · exact hf k y hy

theorem step_inv (c : Cont) (hi : Inv c) (op : Op) (ho : op.Fair) : Inv (step c op).1 := by
  cases op with
  | add n =>
    simp only [step]
    cases h : addDataset c n with
    | error e => exact hi
    | ok c' =>
      simp only
      unfold addDataset at h
      split at h
      · cases h
      · rename_i m s hs
        simp only at h
        split at h
        · cases h
        · rename_i shape hsh
          obtain ⟨h1, h2⟩ := shapeOf_mem c.lens s.axes shape hsh
          have hpos : ∀ l ∈ shape, 1 ≤ l := fun l hl => by
            obtain ⟨a, ha⟩ := h2 l hl
            exact hi.lens a l ha
          split at h
          · cases h
            refine inv_put c hi n _ ?_
            rintro x ⟨⟩
            exact ⟨fun cs hcs => (by cases hcs), hpos⟩
          · rename_i cs hcs
            split at h
            · cases h
            · rename_i r hr
              cases h
              refine inv_put c hi n _ ?_
              rintro x ⟨⟩
              refine ⟨?_, hpos⟩
              have hcs' : s.chunks = some (some cs) := by
                cases hsc : s.chunks with
                | none => simp [hsc] at hcs
                | some v => simp only [hsc, Option.getD_some] at hcs; split at hcs; · rw [hcs]
                            · cases hcs
              obtain ⟨cs', hc, hlen, hone⟩ := hi.good m s (List.mem_of_find?_eq_some hs) _ hcs'
              cases hc
              rw [clip_ok cs shape (by omega)] at hr
              cases hr
              rintro y ⟨⟩
              exact fits_min cs shape (by omega) hone hpos
  | set n v =>
    simp only [step]
    cases hd : c.dsets n with
    | none => exact hi
    | some d =>
      simp only
      cases h : setChunks d v with
      | error e => exact hi
      | ok d' =>
        refine inv_put c hi n _ ?_
        rintro x ⟨⟩
        cases v with
        | none => cases h; exact ⟨fun cs hcs => (by cases hcs), (hi.fine n d hd).2⟩
        | some cs =>
          by_cases hlen : cs.length = d.shape.length
          · simp only [setChunks, hlen, ne_eq, not_true_eq_false, if_false, Except.ok.injEq] at h
            subst h
            refine ⟨?_, (hi.fine n d hd).2⟩
            rintro y ⟨⟩
            exact fits_min cs d.shape (by omega) (ho cs rfl) (hi.fine n d hd).2
          · simp [setChunks, hlen] at h
  | ensure => exact ⟨hi.lens, hi.good, ensureLoop_fine c.specs hi.good c.dsets hi.fine⟩
  | read n file sel =>
    refine inv_put c hi n _ ?_
    rintro x ⟨⟩
    obtain ⟨h1, h2, h3⟩ := ho
    have : readDataset file sel = file := by simp only [readDataset, selShape_all file.shape sel h3]
    rw [this]
    exact ⟨h1, h2⟩
  | copy n m =>
    simp only [step]
    cases hd : c.dsets n with
    | none => exact hi
    | some d =>
      refine inv_put c hi m _ ?_
      rintro x ⟨⟩
      exact hi.fine n d hd
  | convert n =>
    simp only [step]
    cases hd : c.dsets n with
    | none => exact hi
    | some d =>
      refine inv_put c hi n _ ?_
      rintro x ⟨⟩
      exact hi.fine n d hd
  | delete n => exact inv_put c hi n none (by simp)
  | create n d =>
    refine inv_put c hi n _ ?_
    rintro x ⟨⟩
    exact ho

/-- **C112** (all operations). Whatever is done with a container, the chunks of its datasets fit and each can be written to an HDF5 file, if axes are not empty, specifications give chunks for
each axis, and datasets are read as a whole. -/
theorem C112_fits_partial (c : Cont) (hl : ∀ a l, c.lens a = some l → 1 ≤ l) (hg : ∀ n s, (n, s) ∈ c.specs → s.Good) (he : ∀ n, c.dsets n = none) (ops : List Op)
    (ho : ∀ op ∈ ops, op.Fair) (n : Name) (d : Ds) (hd : (run c ops).dsets n = some d) : d.Fine ∧ h5accepts d = .ok () := by
  have key : ∀ (ops : List Op) (c : Cont), Inv c → (∀ op ∈ ops, op.Fair) → Inv (run c ops) := by
    intro ops
    induction ops with
    | nil => intro c hi _; exact hi
    | cons op ops ih =>
      intro c hi ho
      exact ih _ (step_inv c hi op (ho op (by simp))) fun o h => ho o (by simp [h])
  have := (key ops c ⟨hl, hg, fun n d h => by rw [he n] at h; cases h⟩ ho).fine n d hd
  exact ⟨this.1, (h5accepts_iff d).2 this.1⟩

/-! ## Concrete cases -/

/-- Visibilities over 10 frequencies and 6 times, in chunks of 4 by 100. -/
def vis : Spec := ⟨["freq", "time"], some (some [4, 100]), some (some 3), none⟩

def exCont : Cont := ⟨fun a => if a = "freq" then some 10 else if a = "time" then some 6 else none, [("vis", vis), ("gain", ⟨["freq"], none, none, none⟩)], true, fun _ => none⟩

example : (run exCont [.add "vis"]).dsets "vis" = some ⟨[10, 6], some [4, 6], some 3, none⟩ := by decide

example : (run exCont [.add "vis", .set "vis" none, .add "gain", .ensure, .set "gain" (some [64]), .ensure]).dsets "gain" = some ⟨[10], some [10], none, none⟩ ∧
    (run exCont [.add "vis", .set "vis" (some [2, 2]), .ensure]).dsets "vis" = some ⟨[10, 6], some [2, 2], some 3, none⟩ ∧
    (run exCont [.add "vis", .set "vis" none, .ensure]).dsets "vis" = some ⟨[10, 6], some [4, 6], some 3, none⟩ := by decide

/-- **C112 fails** for selections: a dataset of a file that is read with a selection keeps the chunks of the whole, so if the selection takes fewer entries than a chunk has, it cannot be written
to a file again. If a single entry is selected on an axis, there is a chunk too many. -/
theorem C112_selection_violated (shape chunks : List Nat) (k l : Nat) (comp opts : Option Nat) (hf : Fits (l :: shape) chunks) (hk : ∀ c, chunks.head? = some c → k < c) :
    let d := readDataset ⟨l :: shape, some chunks, comp, opts⟩ [.part k]
    let e := readDataset ⟨l :: shape, some chunks, comp, opts⟩ [.one]
    (h5accepts ⟨l :: shape, some chunks, comp, opts⟩ = .ok () ∧ d.shape = k :: shape ∧ ¬ d.Fine ∧ h5accepts d = .error .valueError) ∧
    (e.shape = shape ∧ ¬ e.Fine ∧ h5accepts e = .error .valueError) := by
  have hne : ∀ d : Ds, ¬ d.Fine → h5accepts d = .error .valueError := by
    intro d hd
    have : h5accepts d ≠ .ok () := fun h => hd ((h5accepts_iff d).1 h)
    unfold h5accepts at this ⊢
    cases hdc : d.chunks with
    | none => rw [hdc] at this; exact absurd rfl this
    | some cs =>
      rw [hdc] at this
      dsimp only at this ⊢
      split
      · rfl
      · split
        · rfl
        · split
          · rfl
          · rename_i h1 h2 h3
            rw [if_neg h1, if_neg h2, if_neg h3] at this
            exact absurd rfl this
  cases chunks with
  | nil => exact absurd hf.1 (by simp)
  | cons c cs =>
    have hc := hk c rfl
    have hcl := ((fits_cons c l cs shape).1 hf).1
    have h1 : ¬ (readDataset ⟨l :: shape, some (c :: cs), comp, opts⟩ [.part k]).Fine := by
      intro h
      have := h (c :: cs) rfl
      cases shape with
      | nil =>
        simp only [readDataset, selShape] at this
        rw [fits_cons] at this
        have := this.1.2
        omega
      | cons x xs =>
        simp only [readDataset, selShape] at this
        rw [fits_cons] at this
        have := this.1.2
        omega
    have h2 : ¬ (readDataset ⟨l :: shape, some (c :: cs), comp, opts⟩ [.one]).Fine := by
      intro h
      have hthis := (h (c :: cs) rfl).1
      have hlen := hf.1
      cases shape with
      | nil => simp [readDataset, selShape] at hthis
      | cons x xs => simp [readDataset, selShape] at hthis hlen; omega
    refine ⟨⟨(h5accepts_iff _).2 ?_, ?_, h1, hne _ h1⟩, ?_, h2, hne _ h2⟩
    · rintro y ⟨⟩; exact hf
    · have : min k l = k := by omega
      cases shape <;> simp [readDataset, selShape, this]
    · cases shape <;> rfl

example : Fits [1024, 6] [64, 6] ∧ readDataset ⟨[1024, 6], some [64, 6], none, none⟩ [.part 10] = ⟨[10, 6], some [64, 6], none, none⟩ := by
  refine ⟨(h5accepts_iff ⟨[1024, 6], some [64, 6], none, none⟩).1 rfl _ rfl, rfl⟩

/-- **C112 fails** for chunks given when a dataset is made by hand: they are not compared with the shape. -/
theorem C112_create_violated (c : Cont) : ((step c (.create "x" ⟨[3], some [5, 5], none, none⟩)).1.dsets "x").map h5accepts = some (.error .valueError) := by
  simp [step, createDataset, put, h5accepts]

/-- **C112 fails** for an empty axis: its chunk has the length zero, which HDF5 does not take. -/
theorem C112_empty_violated (c : Cont) (s : Spec) (hs : c.specs.find? (fun x => x.1 == "x") = some ("x", s)) (a : Name) (k : Nat) (hk : s.chunks = some (some [k])) (ha : s.axes = [a])
    (hl : c.lens a = some 0) (hc : c.allowChunked = true) : ∃ d, (step c (.add "x")).1.dsets "x" = some d ∧ d.chunks = some [0] ∧ h5accepts d = .error .valueError := by
  obtain ⟨c', h1, h2, -⟩ := (C112_spec c "x" s hs (by simp [ha, hl])).2.1 hc [k] hk (by simp [ha])
  refine ⟨_, by simp only [step, h1]; exact h2, by simp [ha, hl], by simp [ha, hl, h5accepts]⟩

example : ∃ c : Cont, c.specs.find? (fun x => x.1 == "x") = some ("x", ⟨["t"], some (some [8]), none, none⟩) ∧ c.lens "t" = some 0 ∧ c.allowChunked = true :=
  ⟨⟨fun _ => some 0, [("x", ⟨["t"], some (some [8]), none, none⟩)], true, fun _ => none⟩, rfl, rfl, rfl⟩

/-- **C112 fails** for a specification with `chunks: None`: the dataset is made without chunks, but filling in the defaults is a `TypeError`; and
datasets that were not to be chunked get chunks. -/
theorem C112_none_violated (l : Nat) :
    let c : Cont := ⟨fun _ => some l, [("x", ⟨["t"], some none, none, none⟩)], true, fun _ => none⟩
    let c2 : Cont := ⟨fun _ => some l, [("x", ⟨["t"], some (some [8]), none, none⟩)], false, fun _ => none⟩
    ((step c (.add "x")).1.dsets "x" = some ⟨[l], none, none, none⟩ ∧ (step (step c (.add "x")).1 .ensure).2 = some .typeError) ∧
    ((step c2 (.add "x")).1.dsets "x" = some ⟨[l], none, none, none⟩ ∧ (run c2 [.add "x", .ensure]).dsets "x" = some ⟨[l], some [min 8 l], none, none⟩) := by
  simp [step, run, addDataset, shapeOf, createDataset, put, ensureChunked, ensureLoop, ensureChunks, ensureFilter, clip, setChunks]

end Verif.Fit
