import Verif.Ephem.Lemmas

/-!
# C107: loading of astronomical data
-/
namespace Verif.Ephem

variable (net : Net) (N : Names)

/-- **C107** (directory). The one given, else that of the environment, else that of the package. -/
theorem C107_directory (package : String) :
    (∀ p env, dataPath (some p) env package = p) ∧ (∀ p, dataPath none (some p) package = p) ∧
    dataPath none none package = package := ⟨fun _ _ => rfl, fun _ => rfl, rfl⟩

/-- **C107** (once). Whatever is done after a first use, a later use gives the same object, and downloads nothing. -/
theorem C107_once (s : State) (ops : List Op) (o : Obj) :
    ((timescale net N s).2 = some o →
      timescale net N (run net N (timescale net N s).1 ops) = (run net N (timescale net N s).1 ops, some o)) ∧
    ((ephemeris net N s).2 = some o →
      ephemeris net N (run net N (ephemeris net N s).1 ops) = (run net N (ephemeris net N s).1 ops, some o)) := by
  constructor
  · intro h
    apply timescale_loaded
    apply (run_keeps net N ops _).1
    rw [(timescale_state net N s).2.1, h]
  · intro h
    apply ephemeris_loaded
    apply (run_keeps net N ops _).2
    rw [(ephemeris_state net N s).2.1, h]

/-- Sources for the examples: until moment 2 the official source is down; later it has version 7 of everything. The mirror has version 3. -/
def someNet : Net := ⟨fun t _ => if t < 2 then none else some 7, fun _ _ => some 3⟩

/-- Files: 0 is the leap seconds, 1 the other file of the timescale, 2 the ephemeris. -/
def someNames : Names := ⟨[1, 0], 0, 1, 2⟩

def empty : State := ⟨0, fun _ => none, none, none, 0⟩

example : (timescale someNet someNames empty).2 = some ⟨0, [3, 3]⟩ ∧
    (ephemeris someNet someNames (timescale someNet someNames empty).1).2 = some ⟨1, [7]⟩ := ⟨rfl, rfl⟩

/-- **C107** (what is loaded). At the first use the object is made of the files in the directory; each of them was there before, or was
downloaded from one of the sources meanwhile. Files that are all there are used without a download. -/
theorem C107_versions (s : State) (o : Obj) :
    (s.ts = none → (timescale net N s).2 = some o →
      ∃ disk : File → Option Nat, o.versions.map some = N.timescale.map disk ∧ ∀ f v, disk f = some v → s.disk f = some v ∨
        ∃ t, s.clock ≤ t ∧ t < (timescale net N s).1.clock ∧ (net.official t f = some v ∨ net.mirror t f = some v)) ∧
    (s.eph = none → (ephemeris net N s).2 = some o →
      ∃ v, o.versions = [v] ∧ (s.disk N.ephemeris = some v ∨
        ∃ t, s.clock ≤ t ∧ t < (ephemeris net N s).1.clock ∧
          (net.official t N.ephemeris = some v ∨ net.mirror t N.ephemeris = some v))) ∧
    (s.ts = none → (∀ f ∈ N.timescale, s.disk f ≠ none) →
      ∃ vs, (timescale net N s).2 = some ⟨s.next, vs⟩ ∧ vs.map some = N.timescale.map s.disk ∧
        (timescale net N s).1.clock = s.clock) ∧
    (s.eph = none → ∀ v, s.disk N.ephemeris = some v →
      (ephemeris net N s).2 = some ⟨s.next, [v]⟩ ∧ (ephemeris net N s).1.clock = s.clock) := by
  refine ⟨?_, ?_, ?_, ?_⟩
  · intro hts h
    obtain ⟨h1, h2⟩ := timescale_versions net N s o hts h
    exact ⟨_, h1, h2⟩
  · intro hts h
    obtain ⟨h1, h2⟩ := ephemeris_versions net N s o hts h
    obtain ⟨v, hv⟩ : ∃ v, (ephemeris net N s).1.disk N.ephemeris = some v := by
      cases hd : (ephemeris net N s).1.disk N.ephemeris with
      | some v => exact ⟨v, rfl⟩
      | none => rw [hd] at h1; cases ho : o.versions <;> simp [ho] at h1
    refine ⟨v, ?_, h2 _ v hv⟩
    rw [hv] at h1
    cases ho : o.versions with
    | nil => simp [ho] at h1
    | cons a as => simp [ho] at h1; simp [h1]
  · intro hts hd
    obtain ⟨vs, h1, h2⟩ := openAll_disk net N.timescale s hd
    refine ⟨vs, ?_, h2, ?_⟩
    · unfold timescale; rw [hts]; simp only [h1]
    · unfold timescale; rw [hts]; simp only [h1]
  · intro hts v hd
    constructor
    · unfold ephemeris; rw [hts]; simp only [openFile_disk net _ s v hd]
    · unfold ephemeris; rw [hts]; simp only [openFile_disk net _ s v hd]

/-- **C107** (sources). There is an `OSError` only if a file is missing, the official source fails for it, and the mirror fails, too, during
the call. The files of the timescale are taken to be those the code downloads from the mirror. -/
theorem C107_mirror (hN : ∀ f ∈ N.timescale, f = N.leap ∨ f = N.finals) (s : State) :
    ((timescale net N s).2 = none →
      (∃ t f, f ∈ N.timescale ∧ s.disk f = none ∧ net.official t f = none ∧ s.clock ≤ t ∧ t < (timescale net N s).1.clock) ∧
      ∃ t f, net.mirror t f = none ∧ s.clock ≤ t ∧ t < (timescale net N s).1.clock) ∧
    ((ephemeris net N s).2 = none →
      (∃ t, s.disk N.ephemeris = none ∧ net.official t N.ephemeris = none ∧ s.clock ≤ t ∧ t < (ephemeris net N s).1.clock) ∧
      ∃ t, net.mirror t N.ephemeris = none ∧ s.clock ≤ t ∧ t < (ephemeris net N s).1.clock) := by
  constructor
  · intro h
    obtain ⟨h1, h2⟩ := timescale_fail net N s h
    refine ⟨h1, ?_⟩
    rcases h2 with ⟨t, f, -, h⟩ | ⟨f, hf, h3, h4⟩
    · exact ⟨t, f, h⟩
    · rcases hN f hf with rfl | rfl
      · exact absurd rfl h3
      · exact absurd rfl h4
  · exact ephemeris_fail net N s

/-- Everything is down. -/
example : (timescale ⟨fun _ _ => none, fun _ _ => none⟩ someNames empty).2 = none ∧
    ∀ f ∈ someNames.timescale, f = someNames.leap ∨ f = someNames.finals := ⟨rfl, by decide⟩

/-- **C107** (again). After an `OSError` a later use tries again: it gives the data as soon as one of the sources works. -/
theorem C107_retry (hN : ∀ f ∈ N.timescale, f = N.leap ∨ f = N.finals) (s : State) :
    ((timescale net N s).2 = none → (timescale net N s).1.ts = none ∧
      ∀ s', s'.ts = none → ((∀ t f, s'.clock ≤ t → net.official t f ≠ none) ∨ (∀ t f, s'.clock ≤ t → net.mirror t f ≠ none)) →
        ∃ o, (timescale net N s').2 = some o) ∧
    ((ephemeris net N s).2 = none → (ephemeris net N s).1.eph = none ∧
      ∀ s', s'.eph = none → ((∀ t f, s'.clock ≤ t → net.official t f ≠ none) ∨ (∀ t f, s'.clock ≤ t → net.mirror t f ≠ none)) →
        ∃ o, (ephemeris net N s').2 = some o) := by
  constructor
  · intro h
    refine ⟨by rw [(timescale_state net N s).2.1, h], fun s' _ hs => ?_⟩
    cases he : (timescale net N s').2 with
    | some o => exact ⟨o, rfl⟩
    | none =>
      obtain ⟨⟨t, f, -, -, h1, h2, -⟩, t', f', h3, h4, -⟩ := (C107_mirror net N hN s').1 he
      rcases hs with hs | hs
      · exact absurd h1 (hs t f h2)
      · exact absurd h3 (hs t' f' h4)
  · intro h
    refine ⟨by rw [(ephemeris_state net N s).2.1, h], fun s' _ hs => ?_⟩
    cases he : (ephemeris net N s').2 with
    | some o => exact ⟨o, rfl⟩
    | none =>
      obtain ⟨⟨t, -, h1, h2, -⟩, t', h3, h4, -⟩ := (C107_mirror net N hN s').2 he
      rcases hs with hs | hs
      · exact absurd h1 (hs t _ h2)
      · exact absurd h3 (hs t' _ h4)

/-- First both are down, later the official source works. -/
example : let net : Net := ⟨fun t _ => if t < 2 then none else some 7, fun _ _ => none⟩
    (timescale net someNames empty).2 = none ∧
    (timescale net someNames (timescale net someNames empty).1).2 = some ⟨0, [7, 7]⟩ := ⟨rfl, rfl⟩

/-- **C107** (reload). If nothing was loaded before, then after a reload the ephemeris, and the timescale as far as it is made from the file
that is reloaded, are what the official source had at the reload. -/
theorem C107_reload_partial (s : State) (hne : N.finals ≠ N.ephemeris) (hts : s.ts = none) (heph : s.eph = none)
    (h : (reload net N s).2 = true) :
    (∃ v, net.official (s.clock + 1) N.ephemeris = some v ∧
      (ephemeris net N (reload net N s).1).2 = some ⟨s.next, [v]⟩) ∧
    (N.timescale = [N.finals] → ∃ v, net.official s.clock N.finals = some v ∧
      (timescale net N (reload net N s).1).2 = some ⟨s.next, [v]⟩) := by
  have hs := fetchAll_same net.official [N.finals, N.ephemeris] s
  obtain ⟨h1, h2, h3, h4, -⟩ := reload_ok net N s h
  constructor
  · cases hv : net.official (s.clock + 1) N.ephemeris with
    | none => exact absurd hv h2
    | some v =>
      refine ⟨v, rfl, ?_⟩
      have := ((C107_versions net N (reload net N s).1 ⟨0, []⟩).2.2.2 (hs.2.1.trans heph) v (h1.trans hv)).1
      rw [this]
      exact congrArg (fun n => some (Obj.mk n [v])) hs.2.2.1
  · intro hN
    cases hv : net.official s.clock N.finals with
    | none => exact absurd hv h3
    | some v =>
      refine ⟨v, rfl, ?_⟩
      have hd := (h4 hne).trans hv
      obtain ⟨vs, e1, e2, -⟩ := (C107_versions net N (reload net N s).1 ⟨0, []⟩).2.2.1 (hs.1.trans hts)
        (by rw [hN]; intro f hf; rw [List.mem_singleton.mp hf, hd]; simp)
      rw [hN] at e2
      simp only [List.map_cons, hd, List.map_nil] at e2
      have : vs = [v] := by
        cases vs with
        | nil => simp at e2
        | cons a as => simp at e2; simp [e2]
      rw [e1, this]
      exact congrArg (fun n => some (Obj.mk n [v])) hs.2.2.1

example : (reload ⟨fun t _ => some t, fun _ _ => none⟩ someNames empty).2 = true := rfl

/-- What was loaded stays after a reload, although the official source has something newer: here the timescale and the ephemeris
are version 1 and the reload brings version 2. -/
theorem C107_reload_violated :
    (∀ s o, s.ts = some o → (timescale net N (reload net N s).1).2 = some o) ∧
    (∀ s o, s.eph = some o → (ephemeris net N (reload net N s).1).2 = some o) ∧
    ∃ (net : Net) (N : Names) (s : State), (reload net N s).2 = true ∧ (∀ t f, net.official t f = some 2) ∧
      (timescale net N (reload net N s).1).2 = some ⟨0, [1]⟩ ∧ (ephemeris net N (reload net N s).1).2 = some ⟨1, [1]⟩ := by
  refine ⟨?_, ?_, ⟨fun _ _ => some 2, fun _ _ => none⟩, ⟨[1], 0, 1, 2⟩,
    ⟨3, fun _ => some 1, some ⟨0, [1]⟩, some ⟨1, [1]⟩, 2⟩, rfl, fun _ _ => rfl, rfl, rfl⟩
  · intro s o h
    exact congrArg Prod.snd (timescale_loaded net N (reload net N s).1 o ((fetchAll_same net.official [N.finals, N.ephemeris] s).1.trans h))
  · intro s o h
    exact congrArg Prod.snd (ephemeris_loaded net N (reload net N s).1 o ((fetchAll_same net.official [N.finals, N.ephemeris] s).2.1.trans h))

/-- The file of leap seconds, which the code counts among those of the timescale, is not reloaded: even if nothing was loaded before, an old one
is used after a reload. -/
theorem C107_leap_violated (s : State) (h : (reload net N s).2 = true) (h1 : N.leap ≠ N.finals) (h2 : N.leap ≠ N.ephemeris) :
    (reload net N s).1.disk N.leap = s.disk N.leap ∧
    ∃ (net : Net) (N : Names) (s : State), s.ts = none ∧ (reload net N s).2 = true ∧ (∀ t f, net.official t f = some 2) ∧
      (timescale net N (reload net N s).1).2 = some ⟨0, [1, 2]⟩ := by
  refine ⟨(reload_ok net N s h).2.2.2.2 N.leap h1 h2, ⟨fun _ _ => some 2, fun _ _ => none⟩, ⟨[0, 1], 0, 1, 2⟩,
    ⟨0, fun _ => some 1, none, none, 0⟩, rfl, rfl, fun _ _ => rfl, rfl⟩

end Verif.Ephem
