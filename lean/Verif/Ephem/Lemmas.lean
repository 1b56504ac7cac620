import Verif.Ephem.Model

/-!
# Lemmas about the loading of data
-/
namespace Verif.Ephem

variable (net : Net) (N : Names)

/-- What no download changes. -/
def Same (s s' : State) : Prop := s'.ts = s.ts ∧ s'.eph = s.eph ∧ s'.next = s.next ∧ s.clock ≤ s'.clock ∧ ∀ f, s.disk f ≠ none → s'.disk f ≠ none

theorem Same.refl (s : State) : Same s s := ⟨rfl, rfl, rfl, Nat.le_refl _, fun _ h => h⟩

theorem Same.trans {a b c : State} (h : Same a b) (h' : Same b c) : Same a c :=
  ⟨h'.1.trans h.1, h'.2.1.trans h.2.1, h'.2.2.1.trans h.2.2.1, Nat.le_trans h.2.2.2.1 h'.2.2.2.1,
    fun f hf => h'.2.2.2.2 f (h.2.2.2.2 f hf)⟩

theorem fetch_same (src : Nat → File → Option Nat) (f : File) (s : State) : Same s (fetch src f s).1 := by
  unfold fetch
  split
  · refine ⟨rfl, rfl, rfl, Nat.le_succ _, ?_⟩
    intro g hg
    dsimp only
    split
    · simp
    · exact hg
  · exact ⟨rfl, rfl, rfl, Nat.le_succ _, fun _ h => h⟩

theorem fetch_ok (src : Nat → File → Option Nat) (f : File) (s : State) (h : (fetch src f s).2 = true) :
    (fetch src f s).1.disk f = src s.clock f ∧ src s.clock f ≠ none ∧ (fetch src f s).1.clock = s.clock + 1 ∧
    ∀ g, g ≠ f → (fetch src f s).1.disk g = s.disk g := by
  unfold fetch at h ⊢
  cases hs : src s.clock f with
  | none => rw [hs] at h; cases h
  | some v =>
    refine ⟨by simp, by simp, rfl, ?_⟩
    intro g hg
    simp [hg]

theorem fetch_fail (src : Nat → File → Option Nat) (f : File) (s : State) (h : (fetch src f s).2 = false) :
    src s.clock f = none ∧ s.clock < (fetch src f s).1.clock := by
  unfold fetch at h ⊢
  cases hs : src s.clock f with
  | none => exact ⟨rfl, Nat.lt_succ_self _⟩
  | some v => rw [hs] at h; cases h

theorem fetchAll_same (src : Nat → File → Option Nat) : ∀ (fs : List File) (s : State), Same s (fetchAll src fs s).1
  | [], s => Same.refl s
  | f :: fs, s => by
    have h1 := fetch_same src f s
    rw [fetchAll]
    generalize fetch src f s = r at *
    obtain ⟨s1, b⟩ := r
    cases b with
    | true => exact h1.trans (fetchAll_same src fs s1)
    | false => exact h1

theorem fetchAll_fail (src : Nat → File → Option Nat) : ∀ (fs : List File) (s : State), (fetchAll src fs s).2 = false →
    ∃ t f, f ∈ fs ∧ src t f = none ∧ s.clock ≤ t ∧ t < (fetchAll src fs s).1.clock
  | [], s, h => by simp [fetchAll] at h
  | f :: fs, s, h => by
    have h1 := fetch_same src f s
    have h2 := fetch_fail src f s
    rw [fetchAll] at h ⊢
    generalize fetch src f s = r at *
    obtain ⟨s1, b⟩ := r
    cases b with
    | true =>
      obtain ⟨t, g, hg, hn, hl, hu⟩ := fetchAll_fail src fs s1 h
      exact ⟨t, g, List.mem_cons_of_mem _ hg, hn, Nat.le_trans h1.2.2.2.1 hl, hu⟩
    | false => exact ⟨s.clock, f, List.mem_cons_self, (h2 rfl).1, Nat.le_refl _, (h2 rfl).2⟩

theorem fetchAll_disk (src : Nat → File → Option Nat) : ∀ (fs : List File) (s : State), (fetchAll src fs s).2 = true →
    ∀ f ∈ fs, (fetchAll src fs s).1.disk f ≠ none
  | [], s, _, f, hf => by cases hf
  | f :: fs, s, h, g, hg => by
    have h2 := fetch_ok src f s
    rw [fetchAll] at h ⊢
    generalize fetch src f s = r at *
    obtain ⟨s1, b⟩ := r
    cases b with
    | false => cases h
    | true =>
      rcases List.mem_cons.mp hg with rfl | hg'
      · have h3 := h2 rfl
        exact (fetchAll_same src fs s1).2.2.2.2 g (by rw [h3.1]; exact h3.2.1)
      · exact fetchAll_disk src fs s1 h g hg'

theorem openFile_same (f : File) (s : State) : Same s (openFile net f s).1 := by
  unfold openFile
  split
  · exact Same.refl s
  · have h1 := fetch_same net.official f s
    generalize fetch net.official f s = r at *
    obtain ⟨s1, b⟩ := r
    cases b <;> exact h1

theorem openFile_fail (f : File) (s : State) (h : (openFile net f s).2 = none) :
    s.disk f = none ∧ net.official s.clock f = none ∧ s.clock < (openFile net f s).1.clock := by
  unfold openFile at h ⊢
  cases hd : s.disk f with
  | some v => rw [hd] at h; cases h
  | none =>
    rw [hd] at h
    dsimp only at h ⊢
    have h1 := fetch_ok net.official f s
    have h2 := fetch_fail net.official f s
    generalize fetch net.official f s = r at *
    obtain ⟨s1, b⟩ := r
    cases b with
    | true => exact absurd ((h1 rfl).1.symm.trans h) (h1 rfl).2.1
    | false => exact ⟨rfl, h2 rfl⟩

theorem openFile_disk (f : File) (s : State) (v : Nat) (h : s.disk f = some v) : openFile net f s = (s, some v) := by
  unfold openFile; rw [h]

theorem openAll_same : ∀ (fs : List File) (s : State), Same s (openAll net fs s).1
  | [], s => Same.refl s
  | f :: fs, s => by
    have h1 := openFile_same net f s
    rw [openAll]
    generalize openFile net f s = r at *
    obtain ⟨s1, b⟩ := r
    cases b with
    | none => exact h1
    | some v =>
      have h2 := openAll_same fs s1
      dsimp only
      generalize openAll net fs s1 = r at *
      obtain ⟨s2, b⟩ := r
      cases b <;> exact h1.trans h2

theorem openAll_fail : ∀ (fs : List File) (s : State), (openAll net fs s).2 = none →
    ∃ t f, f ∈ fs ∧ s.disk f = none ∧ net.official t f = none ∧ s.clock ≤ t ∧ t < (openAll net fs s).1.clock
  | [], s, h => by simp [openAll] at h
  | f :: fs, s, h => by
    have h1 := openFile_same net f s
    have h2 := openFile_fail net f s
    rw [openAll] at h ⊢
    generalize openFile net f s = r at *
    obtain ⟨s1, b⟩ := r
    cases b with
    | none =>
      have h3 := h2 rfl
      exact ⟨s.clock, f, List.mem_cons_self, h3.1, h3.2.1, Nat.le_refl _, h3.2.2⟩
    | some v =>
      have h4 := openAll_fail fs s1
      dsimp only at h ⊢
      generalize openAll net fs s1 = r at *
      obtain ⟨s2, b⟩ := r
      cases b with
      | some vs => cases h
      | none =>
        obtain ⟨t, g, hg, hd, hn, hl, hu⟩ := h4 rfl
        refine ⟨t, g, List.mem_cons_of_mem _ hg, ?_, hn, Nat.le_trans h1.2.2.2.1 hl, hu⟩
        cases hg' : s.disk g with
        | none => rfl
        | some w => exact absurd hd (h1.2.2.2.2 g (by rw [hg']; simp))

/-- Files that are there are read without a download. -/
theorem openAll_disk : ∀ (fs : List File) (s : State), (∀ f ∈ fs, s.disk f ≠ none) →
    ∃ vs, openAll net fs s = (s, some vs) ∧ vs.map some = fs.map s.disk
  | [], s, _ => ⟨[], rfl, rfl⟩
  | f :: fs, s, h => by
    cases hd : s.disk f with
    | none => exact absurd hd (h f List.mem_cons_self)
    | some v =>
      obtain ⟨vs, h1, h2⟩ := openAll_disk fs s fun g hg => h g (List.mem_cons_of_mem _ hg)
      refine ⟨v :: vs, ?_, ?_⟩
      · rw [openAll, openFile_disk net f s v hd]; simp only [h1]
      · simp [h2, hd]

/-- All that `timescale` can do to the state. -/
theorem timescale_state (s : State) : (timescale net N s).1.eph = s.eph ∧ (timescale net N s).1.ts = (timescale net N s).2 ∧
    s.clock ≤ (timescale net N s).1.clock := by
  unfold timescale
  cases hts : s.ts with
  | some o => exact ⟨rfl, hts, Nat.le_refl _⟩
  | none =>
    dsimp only
    have h1 := openAll_same net N.timescale s
    generalize openAll net N.timescale s = r at *
    obtain ⟨s1, b⟩ := r
    cases b with
    | some vs => exact ⟨h1.2.1, rfl, h1.2.2.2.1⟩
    | none =>
      dsimp only
      have h2 := fetchAll_same net.mirror [N.leap, N.finals] s1
      generalize fetchAll net.mirror [N.leap, N.finals] s1 = r at *
      obtain ⟨s2, b⟩ := r
      have h12 := h1.trans h2
      cases b with
      | false => exact ⟨h12.2.1, h12.1.trans hts, h12.2.2.2.1⟩
      | true =>
        dsimp only
        have h3 := openAll_same net N.timescale s2
        generalize openAll net N.timescale s2 = r at *
        obtain ⟨s3, b⟩ := r
        have h13 := h12.trans h3
        cases b with
        | some vs => exact ⟨h13.2.1, rfl, h13.2.2.2.1⟩
        | none => exact ⟨h13.2.1, h13.1.trans hts, h13.2.2.2.1⟩

theorem ephemeris_state (s : State) : (ephemeris net N s).1.ts = s.ts ∧ (ephemeris net N s).1.eph = (ephemeris net N s).2 ∧
    s.clock ≤ (ephemeris net N s).1.clock := by
  unfold ephemeris
  cases hts : s.eph with
  | some o => exact ⟨rfl, hts, Nat.le_refl _⟩
  | none =>
    dsimp only
    have h1 := openFile_same net N.ephemeris s
    generalize openFile net N.ephemeris s = r at *
    obtain ⟨s1, b⟩ := r
    cases b with
    | some vs => exact ⟨h1.1, rfl, h1.2.2.2.1⟩
    | none =>
      dsimp only
      have h2 := fetchAll_same net.mirror [N.ephemeris] s1
      generalize fetchAll net.mirror [N.ephemeris] s1 = r at *
      obtain ⟨s2, b⟩ := r
      have h12 := h1.trans h2
      cases b with
      | false => exact ⟨h12.1, h12.2.1.trans hts, h12.2.2.2.1⟩
      | true =>
        dsimp only
        have h3 := openFile_same net N.ephemeris s2
        generalize openFile net N.ephemeris s2 = r at *
        obtain ⟨s3, b⟩ := r
        have h13 := h12.trans h3
        cases b with
        | some vs => exact ⟨h13.1, rfl, h13.2.2.2.1⟩
        | none => exact ⟨h13.1, h13.2.1.trans hts, h13.2.2.2.1⟩

theorem timescale_loaded (s : State) (o : Obj) (h : s.ts = some o) : timescale net N s = (s, some o) := by
  unfold timescale; rw [h]

theorem ephemeris_loaded (s : State) (o : Obj) (h : s.eph = some o) : ephemeris net N s = (s, some o) := by
  unfold ephemeris; rw [h]

theorem run_keeps (ops : List Op) : ∀ (s : State),
    (∀ o, s.ts = some o → (run net N s ops).ts = some o) ∧ (∀ o, s.eph = some o → (run net N s ops).eph = some o) := by
  induction ops with
  | nil => intro s; exact ⟨fun _ h => h, fun _ h => h⟩
  | cons op ops ih =>
    intro s
    have key : (∀ o, s.ts = some o → (step net N s op).ts = some o) ∧ (∀ o, s.eph = some o → (step net N s op).eph = some o) := by
      cases op with
      | timescale =>
        refine ⟨fun o h => ?_, fun o h => (timescale_state net N s).1.trans h⟩
        simp only [step, timescale_loaded net N s o h, h]
      | ephemeris =>
        refine ⟨fun o h => (ephemeris_state net N s).1.trans h, fun o h => ?_⟩
        simp only [step, ephemeris_loaded net N s o h, h]
      | reload =>
        have := fetchAll_same net.official [N.finals, N.ephemeris] s
        exact ⟨fun o h => this.1.trans h, fun o h => this.2.1.trans h⟩
    have h2 := ih (step net N s op)
    exact ⟨fun o h => h2.1 o (key.1 o h), fun o h => h2.2 o (key.2 o h)⟩

/-- When `timescale` raises. -/
theorem timescale_fail (s : State) (h : (timescale net N s).2 = none) :
    (∃ t f, f ∈ N.timescale ∧ s.disk f = none ∧ net.official t f = none ∧ s.clock ≤ t ∧ t < (timescale net N s).1.clock) ∧
    ((∃ t f, (f = N.leap ∨ f = N.finals) ∧ net.mirror t f = none ∧ s.clock ≤ t ∧ t < (timescale net N s).1.clock) ∨
     ∃ f ∈ N.timescale, f ≠ N.leap ∧ f ≠ N.finals) := by
  unfold timescale at h ⊢
  cases hts : s.ts with
  | some o => rw [hts] at h; cases h
  | none =>
    rw [hts] at h
    dsimp only at h ⊢
    have h1 := openAll_same net N.timescale s
    have f1 := openAll_fail net N.timescale s
    generalize openAll net N.timescale s = r at *
    obtain ⟨s1, b⟩ := r
    cases b with
    | some vs => cases h
    | none =>
      dsimp only at h ⊢
      obtain ⟨t, f, a1, a2, a3, a4, a5⟩ := f1 rfl
      have h2 := fetchAll_same net.mirror [N.leap, N.finals] s1
      have f2 := fetchAll_fail net.mirror [N.leap, N.finals] s1
      have d2 := fetchAll_disk net.mirror [N.leap, N.finals] s1
      generalize fetchAll net.mirror [N.leap, N.finals] s1 = r at *
      obtain ⟨s2, b⟩ := r
      cases b with
      | false =>
        obtain ⟨t', f', b1, b2, b3, b4⟩ := f2 rfl
        refine ⟨⟨t, f, a1, a2, a3, a4, Nat.lt_of_lt_of_le a5 h2.2.2.2.1⟩, .inl ⟨t', f', by simpa using b1, b2,
          Nat.le_trans h1.2.2.2.1 b3, b4⟩⟩
      | true =>
        dsimp only at h ⊢
        have h3 := openAll_same net N.timescale s2
        have f3 := openAll_fail net N.timescale s2
        generalize openAll net N.timescale s2 = r at *
        obtain ⟨s3, b⟩ := r
        cases b with
        | some vs => cases h
        | none =>
          obtain ⟨t', f', b1, b2, b3, b4⟩ := f3 rfl
          refine ⟨⟨t, f, a1, a2, a3, a4, Nat.lt_of_lt_of_le a5 (Nat.le_trans h2.2.2.2.1 h3.2.2.2.1)⟩, .inr ⟨f', b1, ?_, ?_⟩⟩
          · rintro rfl; exact d2 rfl _ (by simp) b2
          · rintro rfl; exact d2 rfl _ (by simp) b2

theorem ephemeris_fail (s : State) (h : (ephemeris net N s).2 = none) :
    (∃ t, s.disk N.ephemeris = none ∧ net.official t N.ephemeris = none ∧ s.clock ≤ t ∧ t < (ephemeris net N s).1.clock) ∧
    (∃ t, net.mirror t N.ephemeris = none ∧ s.clock ≤ t ∧ t < (ephemeris net N s).1.clock) := by
  unfold ephemeris at h ⊢
  cases hts : s.eph with
  | some o => rw [hts] at h; cases h
  | none =>
    rw [hts] at h
    dsimp only at h ⊢
    have h1 := openFile_same net N.ephemeris s
    have f1 := openFile_fail net N.ephemeris s
    generalize openFile net N.ephemeris s = r at *
    obtain ⟨s1, b⟩ := r
    cases b with
    | some vs => cases h
    | none =>
      dsimp only at h ⊢
      obtain ⟨a2, a3, a5⟩ := f1 rfl
      have h2 := fetchAll_same net.mirror [N.ephemeris] s1
      have f2 := fetchAll_fail net.mirror [N.ephemeris] s1
      have d2 := fetchAll_disk net.mirror [N.ephemeris] s1
      generalize fetchAll net.mirror [N.ephemeris] s1 = r at *
      obtain ⟨s2, b⟩ := r
      cases b with
      | false =>
        obtain ⟨t', f', b1, b2, b3, b4⟩ := f2 rfl
        obtain rfl : f' = N.ephemeris := by simpa using b1
        exact ⟨⟨s.clock, a2, a3, Nat.le_refl _, Nat.lt_of_lt_of_le a5 h2.2.2.2.1⟩, t', b2, Nat.le_trans h1.2.2.2.1 b3, b4⟩
      | true =>
        dsimp only at h ⊢
        have f3 := openFile_fail net N.ephemeris s2
        generalize openFile net N.ephemeris s2 = r at *
        obtain ⟨s3, b⟩ := r
        cases b with
        | some vs => cases h
        | none => exact absurd (f3 rfl).1 (d2 rfl _ (by simp))

theorem reload_ok (s : State) (h : (reload net N s).2 = true) :
    (reload net N s).1.disk N.ephemeris = net.official (s.clock + 1) N.ephemeris ∧
    net.official (s.clock + 1) N.ephemeris ≠ none ∧ net.official s.clock N.finals ≠ none ∧
    (N.finals ≠ N.ephemeris → (reload net N s).1.disk N.finals = net.official s.clock N.finals) ∧
    (∀ g, g ≠ N.finals → g ≠ N.ephemeris → (reload net N s).1.disk g = s.disk g) := by
  unfold reload at h ⊢
  simp only [fetchAll] at h ⊢
  have h1 := fetch_ok net.official N.finals s
  generalize fetch net.official N.finals s = r at *
  obtain ⟨s1, b⟩ := r
  cases b with
  | false => cases h
  | true =>
    have h1 := h1 rfl
    dsimp only at h h1 ⊢
    have h2 := fetch_ok net.official N.ephemeris s1
    generalize fetch net.official N.ephemeris s1 = r at *
    obtain ⟨s2, b⟩ := r
    cases b with
    | false => cases h
    | true =>
      have h2 := h2 rfl
      rw [h1.2.2.1] at h2
      dsimp only at h2 ⊢
      refine ⟨h2.1, h2.2.1, h1.2.1, fun hne => (h2.2.2.2 _ hne).trans h1.1, fun g g1 g2 => (h2.2.2.2 g g2).trans (h1.2.2.2 g g1)⟩

/-! ### Where files come from -/

/-- Every file is as it was, or was downloaded in between. -/
def Prov (s s' : State) : Prop := ∀ f v, s'.disk f = some v →
  s.disk f = some v ∨ ∃ t, s.clock ≤ t ∧ t < s'.clock ∧ (net.official t f = some v ∨ net.mirror t f = some v)

theorem Prov.trans {a b c : State} (h : Prov net a b) (h' : Prov net b c) (hab : Same a b) (hbc : Same b c) : Prov net a c := by
  intro f v hv
  rcases h' f v hv with h1 | ⟨t, t1, t2, t3⟩
  · rcases h f v h1 with h2 | ⟨t, t1, t2, t3⟩
    · exact .inl h2
    · exact .inr ⟨t, t1, Nat.lt_of_lt_of_le t2 hbc.2.2.2.1, t3⟩
  · exact .inr ⟨t, Nat.le_trans hab.2.2.2.1 t1, t2, t3⟩

theorem fetch_prov (src : Nat → File → Option Nat) (hs : src = net.official ∨ src = net.mirror) (f : File) (s : State) :
    Prov net s (fetch src f s).1 := by
  intro g v hv
  unfold fetch at hv ⊢
  cases h : src s.clock f with
  | none => rw [h] at hv; exact .inl hv
  | some w =>
    rw [h] at hv
    dsimp only at hv
    split at hv
    · rename_i hg
      subst hg
      refine .inr ⟨s.clock, Nat.le_refl _, Nat.lt_succ_self _, ?_⟩
      rw [← hv, ← h]
      rcases hs with rfl | rfl
      · exact .inl rfl
      · exact .inr rfl
    · exact .inl hv

theorem fetchAll_prov (src : Nat → File → Option Nat) (hs : src = net.official ∨ src = net.mirror) :
    ∀ (fs : List File) (s : State), Prov net s (fetchAll src fs s).1
  | [], s => fun f v h => .inl h
  | f :: fs, s => by
    have h1 := fetch_same src f s
    have p1 := fetch_prov net src hs f s
    rw [fetchAll]
    generalize fetch src f s = r at *
    obtain ⟨s1, b⟩ := r
    cases b with
    | true => exact p1.trans net (fetchAll_prov src hs fs s1) h1 (fetchAll_same src fs s1)
    | false => exact p1

theorem openFile_prov (f : File) (s : State) : Prov net s (openFile net f s).1 := by
  unfold openFile
  split
  · exact fun f v h => .inl h
  · have h1 := fetch_prov net net.official (.inl rfl) f s
    generalize fetch net.official f s = r at *
    obtain ⟨s1, b⟩ := r
    cases b <;> exact h1

/-- Opening does not replace a file. -/
theorem openFile_keeps (f : File) (s : State) (g : File) (v : Nat) (h : s.disk g = some v) : (openFile net f s).1.disk g = some v := by
  unfold openFile
  cases hd : s.disk f with
  | some w => exact h
  | none =>
    dsimp only
    have hne : g ≠ f := by rintro rfl; rw [hd] at h; cases h
    have h1 := fetch_ok net.official f s
    have h2 : (fetch net.official f s).2 = false → (fetch net.official f s).1.disk = s.disk := by
      unfold fetch; split
      · intro h; cases h
      · intro _; rfl
    generalize fetch net.official f s = r at *
    obtain ⟨s1, b⟩ := r
    cases b with
    | true => exact ((h1 rfl).2.2.2 g hne).trans h
    | false => exact (congrFun (h2 rfl) g).trans h

theorem openFile_version (f : File) (s : State) (v : Nat) (h : (openFile net f s).2 = some v) :
    (openFile net f s).1.disk f = some v := by
  unfold openFile at h ⊢
  cases hd : s.disk f with
  | some w => rw [hd] at h; exact hd.trans h
  | none =>
    rw [hd] at h
    dsimp only at h ⊢
    generalize fetch net.official f s = r at *
    obtain ⟨s1, b⟩ := r
    cases b with
    | true => exact h
    | false => cases h

theorem openAll_prov : ∀ (fs : List File) (s : State), Prov net s (openAll net fs s).1 ∧
    (∀ g v, s.disk g = some v → (openAll net fs s).1.disk g = some v) ∧
    ∀ vs, (openAll net fs s).2 = some vs → vs.map some = fs.map (openAll net fs s).1.disk
  | [], s => ⟨fun f v h => .inl h, fun _ _ h => h, fun vs h => by cases h; rfl⟩
  | f :: fs, s => by
    have h1 := openFile_same net f s
    have p1 := openFile_prov net f s
    have k1 := openFile_keeps net f s
    have v1 := openFile_version net f s
    rw [openAll]
    generalize openFile net f s = r at *
    obtain ⟨s1, b⟩ := r
    cases b with
    | none => exact ⟨p1, k1, fun vs h => by cases h⟩
    | some v =>
      have h2 := openAll_same net fs s1
      obtain ⟨p2, k2, v2⟩ := openAll_prov fs s1
      dsimp only
      generalize openAll net fs s1 = r at *
      obtain ⟨s2, b⟩ := r
      cases b with
      | none => exact ⟨p1.trans net p2 h1 h2, fun g w h => k2 g w (k1 g w h), fun vs h => by cases h⟩
      | some ws =>
        refine ⟨p1.trans net p2 h1 h2, fun g w h => k2 g w (k1 g w h), fun vs h => ?_⟩
        cases h
        have := k2 f v (v1 v rfl)
        dsimp only at this
        simp [this, v2 ws rfl]

theorem timescale_versions (s : State) (o : Obj) (hts : s.ts = none) (h : (timescale net N s).2 = some o) :
    o.versions.map some = N.timescale.map (timescale net N s).1.disk ∧ Prov net s (timescale net N s).1 := by
  unfold timescale at h ⊢
  rw [hts] at h ⊢
  dsimp only at h ⊢
  have h1 := openAll_same net N.timescale s
  have p1 := openAll_prov net N.timescale s
  generalize openAll net N.timescale s = r at *
  obtain ⟨s1, b⟩ := r
  cases b with
  | some vs => cases h; exact ⟨p1.2.2 vs rfl, p1.1⟩
  | none =>
    dsimp only at h ⊢
    have h2 := fetchAll_same net.mirror [N.leap, N.finals] s1
    have p2 := fetchAll_prov net net.mirror (.inr rfl) [N.leap, N.finals] s1
    generalize fetchAll net.mirror [N.leap, N.finals] s1 = r at *
    obtain ⟨s2, b⟩ := r
    cases b with
    | false => cases h
    | true =>
      dsimp only at h ⊢
      have h3 := openAll_same net N.timescale s2
      have p3 := openAll_prov net N.timescale s2
      generalize openAll net N.timescale s2 = r at *
      obtain ⟨s3, b⟩ := r
      cases b with
      | none => cases h
      | some vs =>
        cases h
        have key : Prov net s s3 := (p1.1.trans net p2 h1 h2).trans net p3.1 (h1.trans h2) h3
        exact ⟨p3.2.2 vs rfl, key⟩

theorem ephemeris_versions (s : State) (o : Obj) (hts : s.eph = none) (h : (ephemeris net N s).2 = some o) :
    o.versions.map some = [(ephemeris net N s).1.disk N.ephemeris] ∧ Prov net s (ephemeris net N s).1 := by
  unfold ephemeris at h ⊢
  rw [hts] at h ⊢
  dsimp only at h ⊢
  have h1 := openFile_same net N.ephemeris s
  have p1 := openFile_prov net N.ephemeris s
  have v1 := openFile_version net N.ephemeris s
  generalize openFile net N.ephemeris s = r at *
  obtain ⟨s1, b⟩ := r
  cases b with
  | some vs => cases h; exact ⟨by simpa using (v1 vs rfl).symm, p1⟩
  | none =>
    dsimp only at h ⊢
    have h2 := fetchAll_same net.mirror [N.ephemeris] s1
    have p2 := fetchAll_prov net net.mirror (.inr rfl) [N.ephemeris] s1
    generalize fetchAll net.mirror [N.ephemeris] s1 = r at *
    obtain ⟨s2, b⟩ := r
    cases b with
    | false => cases h
    | true =>
      dsimp only at h ⊢
      have h3 := openFile_same net N.ephemeris s2
      have p3 := openFile_prov net N.ephemeris s2
      have v3 := openFile_version net N.ephemeris s2
      generalize openFile net N.ephemeris s2 = r at *
      obtain ⟨s3, b⟩ := r
      cases b with
      | none => cases h
      | some vs =>
        cases h
        have key : Prov net s s3 := (p1.trans net p2 h1 h2).trans net p3 (h1.trans h2) h3
        exact ⟨by simpa using (v3 vs rfl).symm, key⟩

end Verif.Ephem
